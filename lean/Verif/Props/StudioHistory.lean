import Verif.Props.Studio
import Verif.Props.WorldHistory
import Verif.Props.WorldShift

/-!
# Property C121: objects moved one by one, shown by several scenes
-/

namespace CZ
open Spec

namespace Studio

/-- The objects added to the scene `k` by a program. -/
def added (k : ℕ) : List Op → List ℕ
  | [] => []
  | .add j r :: os => if j = k then r :: added k os else added k os
  | _ :: os => added k os

/-- The motions the object `r` has undergone during a program, the last one outermost. -/
noncomputable def moved (r : ℕ) : (V3 ℝ → V3 ℝ) → List Op → V3 ℝ → V3 ℝ
  | φ, [] => φ
  | φ, .transform q t :: os => moved r (if q = r then t.apply ∘ φ else φ) os
  | φ, _ :: os => moved r φ os

/-- Two kinds of objects.  With the directions of axes of rods given (`some D`): molecules and nested volumes of balls and rods of unstrained
crystal without sites in the tolerance shell.  Without (`none`): molecules and nested volumes of crystal of any form, strained or not, with
sites anywhere. -/
inductive Carried (env : Env) : Option Axes → Item → Prop
  | solid (D : Axes) (x : Item) (h : Movable env D x) : Carried env (some D) x
  | placed (x : Item) (h : ItemOf (Placed env) x) : Carried env none x

/-- The first kind may be moved by every locked rigid motion that puts no axis of a rod along the space diagonal, the second by translations. -/
inductive Allowed (t : Tr ℝ) : Option Axes → Option Axes → Prop
  | rigid (D D' : Axes) (h : RigidMotion t) (hl : t.locked = true) (hb : t.basisOnly = false) (hD : D.Turned t D') : Allowed t (some D) (some D')
  | shift (s : V3 ℝ) (h : t = .translation s true false) : Allowed t none none

theorem Allowed.motion {t : Tr ℝ} {d d' : Option Axes} (h : Allowed t d d') : RigidMotion t := by
  cases h with
  | rigid D D' h => exact h
  | shift s h => subst h; exact .translation s true false

/-- The objects of `A` are transformed by allowed motions only.  `D r` is the kind of the object `r` at that time. -/
def Gentle (A : List ℕ) : (ℕ → Option Axes) → List Op → Prop
  | _, [] => True
  | D, .transform q t :: os => ∃ D', (q ∈ A → Allowed t (D q) D') ∧ Gentle A (Function.update D q D') os
  | D, _ :: os => Gentle A D os

theorem Carried.supplying {env : Env} {d : Option Axes} {t : VTree} (h : Carried env d (.vol t)) : Supplying env t := by
  cases h with
  | solid D _ h => cases h with | vol _ h => exact h.supplying
  | placed _ h => cases h with | vol _ h => exact h.supplying (placed_fillable env)

theorem Carried.balanced {env : Env} {d : Option Axes} {m : Mol ℝ} (h : Carried env d (.mol m)) : m.species.length = m.atoms.length := by
  cases h with
  | solid D _ h => cases h with | mol _ o h ho => exact h
  | placed _ h => cases h with | mol _ o h ho => exact h

theorem Carried.populate {env : Env} {d : Option Axes} {x : Item} (h : Carried env d x) {n : ℕ} {x' : Item} {n' : ℕ}
    (hp : x.populate env n = (x', n', .ok ())) : Carried env d x' ∧ ItemImage env id x x' := by
  cases h with
  | solid D _ h => obtain ⟨h1, h2⟩ := h.populate hp; exact ⟨.solid D _ h1, h2⟩
  | placed _ h => obtain ⟨h1, h2⟩ := h.populate (placed_fillable env) hp; exact ⟨.placed _ h1, h2⟩

theorem Carried.transform {env : Env} {d d' : Option Axes} {t : Tr ℝ} (ht : Allowed t d d') {x : Item} (h : Carried env d x) :
    ∃ x', x.transform env t = (x', .ok ()) ∧ Carried env d' x' ∧ ItemImage env t.apply x x' := by
  cases ht with
  | rigid D D' ht hl hb hD =>
    cases h with
    | solid _ _ h => obtain ⟨x', h1, h2, h3⟩ := h.transform ht hl hb hD; exact ⟨x', h1, .solid _ _ h2, h3⟩
  | shift s e =>
    subst e
    cases h with
    | placed _ h => obtain ⟨x', h1, h2, h3⟩ := h.transform (placed_moves env s); exact ⟨x', h1, .placed _ h2, h3⟩

theorem Carried.total {env : Env} {d : Option Axes} {x : Item} (h : Carried env d x) (n : ℕ) : ∃ x' n', x.populate env n = (x', n', .ok ()) := by
  cases x with
  | vol t =>
    obtain ⟨t', n', ht⟩ := C12_populate_succeeds env t h.supplying n
    exact ⟨.vol t', n', by simp [Item.populate, ht]⟩
  | mol m => exact ⟨_, _, rfl⟩

theorem Carried.holds {env : Env} {d : Option Axes} {x : Item} (h : Carried env d x) : ∃ cs, Holds env x cs := by
  obtain ⟨x', n', hp⟩ := h.total 0
  obtain ⟨cs, hc⟩ := Item.populate_spec env x (fun m e => (e ▸ h).balanced) 0 x' n' hp
  exact ⟨cs, hc.holds⟩

theorem seen_trans {env : Env} {d : Option Axes} {φ ψ : V3 ℝ → V3 ℝ} {x y z : Item} (h1 : Seen env φ x y) (hy : Carried env d y) (h2 : Seen env ψ y z) :
    Seen env (ψ ∘ φ) x z := by
  refine ⟨h2.prio.trans h1.prio, fun p => (h2.region _).trans (h1.region p), ?_⟩
  intro cs cs' hc hc'
  obtain ⟨ds, hd⟩ := hy.holds
  refine (h2.holds ds cs' hd hc').trans (((h1.holds cs ds hc hd).map _).trans ?_)
  rw [List.map_map]
  exact .refl _

theorem seen_self {env : Env} {d : Option Axes} {x : Item} (h : Carried env d x) : Seen env id x x := by
  refine ⟨rfl, fun p => Iff.rfl, ?_⟩
  intro cs cs' h1 h2
  obtain ⟨x', n', hp⟩ := h.total 0
  obtain ⟨h3, h4⟩ := h.populate hp
  obtain ⟨ds, hd⟩ := h3.holds
  have e1 := h4.holds h1 hd
  have e2 := h4.holds h2 hd
  rw [movePos_id, List.map_id] at *
  exact e2.symm.trans e1

theorem item_keep {env : Env} {D : Option Axes} {x : Item} (h : Carried env D x) (n : ℕ) :
    ∃ x' n' cs, x.populate env n = (x', n', .ok ()) ∧ Carried env D x' ∧ Seen env id x x' ∧ ItemPopulated env x x' cs := by
  obtain ⟨x', n', hp⟩ := h.total n
  obtain ⟨h1, h2⟩ := h.populate hp
  obtain ⟨cs, h3⟩ := Item.populate_spec env x (fun m e => (e ▸ h).balanced) n x' n' hp
  exact ⟨x', n', cs, hp, h1, h2.seen, h3⟩

/-- Carried objects stay movable and look the same, whatever is populated and wherever that stops. -/
theorem refs_keep {env : Env} {D : ℕ → Option Axes} {A : List ℕ} (l : List ℕ) : ∀ (f : ℕ → Item) (n : ℕ), (∀ r ∈ A, Carried env (D r) (f r)) →
    ∀ r ∈ A, Carried env (D r) ((populateRefs env l f n).1 r) ∧ Seen env id (f r) ((populateRefs env l f n).1 r) := by
  induction l with
  | nil => intro f n hf r hr; exact ⟨hf r hr, seen_self (hf r hr)⟩
  | cons q l ih =>
    intro f n hf r hr
    rw [populateRefs]
    rcases hp : (f q).populate env n with ⟨x, m, o⟩
    have hu : ∀ r ∈ A, Carried env (D r) (Function.update f q x r) ∧ Seen env id (f r) (Function.update f q x r) := by
      intro r hr
      by_cases h : r = q
      · subst h
        obtain ⟨x', n', cs, h1, h2, h3, -⟩ := item_keep (hf r hr) n
        rw [hp] at h1
        simp only [Prod.mk.injEq] at h1
        rw [Function.update_self, h1.1]
        exact ⟨h2, h3⟩
      · rw [Function.update_of_ne h]
        exact ⟨hf r hr, seen_self (hf r hr)⟩
    cases o with
    | error e => exact hu r hr
    | ok u =>
      obtain ⟨h1, h2⟩ := ih (Function.update f q x) m (fun r hr => (hu r hr).1) r hr
      exact ⟨h1, seen_trans (hu r hr).2 (hu r hr).1 h2⟩

/-- A loop over movable objects returns, and each of them then holds what it contains. -/
theorem refs_fill {env : Env} {D : ℕ → Option Axes} (rs : List ℕ) : ∀ (f : ℕ → Item) (n : ℕ), (∀ r ∈ rs, Carried env (D r) (f r)) →
    ∃ g n', populateRefs env rs f n = (g, n', .ok ()) ∧
      ∀ r ∈ rs, ∃ x cs, Carried env (D r) x ∧ Seen env id (f r) x ∧ ItemPopulated env x (g r) cs := by
  induction rs with
  | nil => intro f n _; exact ⟨f, n, rfl, by simp⟩
  | cons q rs ih =>
    intro f n hf
    obtain ⟨x', m, cs, h1, h2, h3, h4⟩ := item_keep (hf q List.mem_cons_self) n
    rw [populateRefs, h1]
    simp only
    have hu : ∀ r ∈ q :: rs, Carried env (D r) (Function.update f q x' r) ∧ Seen env id (f r) (Function.update f q x' r) := by
      intro r hr
      by_cases h : r = q
      · subst h; rw [Function.update_self]; exact ⟨h2, h3⟩
      · rw [Function.update_of_ne h]; exact ⟨hf r hr, seen_self (hf r hr)⟩
    obtain ⟨g, n', e1, e2⟩ := ih (Function.update f q x') m fun r hr => (hu r (List.mem_cons_of_mem _ hr)).1
    refine ⟨g, n', e1, ?_⟩
    intro r hr
    by_cases hin : r ∈ rs
    · obtain ⟨y, ds, k1, k2, k3⟩ := e2 r hin
      exact ⟨y, ds, k1, seen_trans (hu r hr).2 (hu r hr).1 k2, k3⟩
    · have hrq : r = q := (List.mem_cons.mp hr).resolve_right hin
      subst hrq
      have := refs_other (env := env) rs (Function.update f r x') m r hin
      rw [e1, Function.update_self] at this
      refine ⟨f r, cs, hf r hr, seen_self (hf r hr), ?_⟩
      simp only at this
      rw [this]; exact h4

/-- What a program has done to the scene `k` and the objects `A`. -/
structure Reached (env : Env) (D : ℕ → Option Axes) (k : ℕ) (A : List ℕ) (f : ℕ → Item) (rs : List ℕ) (φ : ℕ → V3 ℝ → V3 ℝ) (s : Studio) : Prop where
  objects : ((s.scene k).objects.getD []).Perm rs
  empty : (s.scene k).objects = none → rs = []
  item : ∀ r ∈ A, Carried env (D r) (s.item r) ∧ Seen env (φ r) (f r) (s.item r)
  onto : ∀ r ∈ A, Function.Surjective (φ r)

theorem Reached.populated {env : Env} {D : ℕ → Option Axes} {k : ℕ} {A : List ℕ} {f : ℕ → Item} {rs : List ℕ} {φ : ℕ → V3 ℝ → V3 ℝ} {s : Studio}
    (h : Reached env D k A f rs φ s) (l : List ℕ) (n : ℕ) : ∀ r ∈ A, Carried env (D r) ((populateRefs env l s.item n).1 r) ∧
      Seen env (φ r) (f r) ((populateRefs env l s.item n).1 r) := by
  intro r hr
  obtain ⟨h1, h2⟩ := refs_keep l s.item n (fun r hr => (h.item r hr).1) r hr
  exact ⟨h1, (seen_trans (h.item r hr).2 (h.item r hr).1 h2 :)⟩

/-- The list of a scene after `populate` is the list before, possibly in another order. -/
theorem populate_objects (env : Env) (s : Studio) (j k : ℕ) : (((s.populate env j).1.scene k).objects.getD []).Perm ((s.scene k).objects.getD []) ∧
    (((s.populate env j).1.scene k).objects = none → (s.scene k).objects = none) := by
  by_cases hj : j = k
  · subst hj
    unfold populate
    cases hr : (s.scene j).objects with
    | none => simp [hr]
    | some rs =>
      simp only
      rcases populateRefs env rs s.item s.calls with ⟨f, n, o⟩
      cases o with
      | error e => simp [hr]
      | ok u =>
        simp only
        split
        · simp only [Function.update_self, Option.getD_some]
          exact ⟨stableSort_perm _ _, by simp⟩
        · simp only [Function.update_self, Option.getD_some]
          exact ⟨stableSort_perm _ _, by simp⟩
  · rw [populate_scene hj]
    exact ⟨.refl _, id⟩

theorem Reached.run {env : Env} {k : ℕ} {A : List ℕ} {f : ℕ → Item} (os : List Op) :
    ∀ (D : ℕ → Option Axes), Gentle A D os → ∀ (rs : List ℕ) (φ : ℕ → V3 ℝ → V3 ℝ) (s : Studio), Reached env D k A f rs φ s →
      ∃ D', Reached env D' k A f (rs ++ added k os) (fun r => moved r (φ r) os) (s.run env os) := by
  induction os with
  | nil => intro D _ rs φ s h; refine ⟨D, ?_⟩; simpa [added, moved, Studio.run] using h
  | cons o os ih =>
    intro D ho' rs φ s h
    cases o with
    | add j r =>
      by_cases hj : j = k
      · subst hj
        have := ih _ ho' (rs ++ [r]) φ (s.add j r) ⟨by
            simp only [Studio.add, Function.update_self, Option.getD_some]
            exact h.objects.append_right _, by simp [Studio.add], h.item, h.onto⟩
        simpa [added, moved, Studio.run, Studio.step] using this
      · have := ih _ ho' rs φ (s.add j r) ⟨by
            simp only [Studio.add, Function.update_of_ne (Ne.symm hj)]; exact h.objects, by
            simp only [Studio.add, Function.update_of_ne (Ne.symm hj)]; exact h.empty, h.item, h.onto⟩
        simpa [added, moved, Studio.run, Studio.step, hj] using this
    | populate j =>
      obtain ⟨p1, p2⟩ := populate_objects env s j k
      have := ih _ ho' rs φ (s.populate env j).1 ⟨p1.trans h.objects, fun e => h.empty (p2 e), by
          rcases populate_item (env := env) (s := s) (j := j) with e | ⟨l, e⟩
          · rw [e]; exact h.item
          · rw [e]; exact h.populated l _, h.onto⟩
      simpa [added, moved, Studio.run, Studio.step] using this
    | touch r =>
      have := ih _ ho' rs φ (s.touch env r).1 ⟨h.objects, h.empty, by
          have hk := h.populated [r] s.calls
          simp only [touch]
          rcases hp : (s.item r).populate env s.calls with ⟨x, m, o⟩
          rw [populateRefs, hp] at hk
          cases o with
          | error e => exact hk
          | ok u => exact hk, h.onto⟩
      simpa [added, moved, Studio.run, Studio.step] using this
    | bounds j b =>
      have := ih _ ho' rs φ (s.setBounds j b) ⟨by
          simp only [setBounds]
          by_cases e : k = j
          · subst e; rw [Function.update_self]; exact h.objects
          · rw [Function.update_of_ne e]; exact h.objects, by
          simp only [setBounds]
          by_cases e : k = j
          · subst e; rw [Function.update_self]; exact h.empty
          · rw [Function.update_of_ne e]; exact h.empty, h.item, h.onto⟩
      simpa [added, moved, Studio.run, Studio.step] using this
    | transform q t =>
      obtain ⟨D', hq, ho'⟩ := ho'
      have := ih _ ho' rs (fun r => if q = r then t.apply ∘ φ r else φ r) (s.transform env q t).1 ⟨h.objects, h.empty, by
          intro r hr
          simp only [Studio.transform]
          by_cases e : r = q
          · subst e
            obtain ⟨x', k1, k2, k3⟩ := (h.item r hr).1.transform (hq hr)
            rw [k1, if_pos rfl, Function.update_self, Function.update_self]
            exact ⟨k2, seen_trans (h.item r hr).2 (h.item r hr).1 k3.seen⟩
          · rw [Function.update_of_ne e, Function.update_of_ne e, if_neg (Ne.symm e)]
            exact h.item r hr, by
          intro r hr
          by_cases e : q = r
          · subst e
            simp only [if_true]
            exact (rigid_surjective (hq hr).motion).comp (h.onto _ hr)
          · simp only [if_neg e]; exact h.onto r hr⟩
      simpa [added, moved, Studio.run, Studio.step] using this

/-- **C121.** Objects are added to scenes, scenes and objects are populated and objects are moved one by one, in any order, any number
of times; the same object may be in several scenes.  The objects of the scene `k` are molecules and nested volumes of crystal.  Those that are balls
and rods of unstrained crystal without sites in the tolerance shell may be moved by locked rigid motions, none of which puts the axis of a rod along the
space diagonal; the others, of any form and strained or not, by translations.  The objects of other scenes are arbitrary.  Then `populate()` of that scene succeeds and the scene shows
what the precedence rule lets survive of the contents its objects had at the beginning, each carried along by the motions of that very
object. -/
theorem C121_moved_one_by_one_partial (env : Env) (s : Studio) (os : List Op) (k : ℕ) (D : ℕ → Option Axes) (hk : (s.scene k).objects = none)
    (hm : ∀ r ∈ added k os, Carried env (D r) (s.item r)) (ho : Gentle (added k os) D os) (hne : added k os ≠ []) :
    ∃ s' as ss, (s.run env os).populate env k = (s', .ok ()) ∧ s'.allAtoms env k = .ok as ∧ s'.allSpecies env k = .ok ss ∧
      as.length = ss.length ∧ ∃ cs : ℕ → List (V3 ℝ × ℤ), (∀ r ∈ added k os, Holds env (s.item r) (cs r)) ∧
        (as.zip ss).Perm (contents ((added k os).map fun r => ⟨(s.item r).priority, (cs r).map fun a => (moved r id os a.1, a.2),
          fun p => ∃ q, Occupies env (s.item r) q ∧ p = moved r id os q⟩)) := by
  classical
  obtain ⟨D', hR⟩ : ∃ D', Reached env D' k (added k os) s.item ([] ++ added k os) (fun r => moved r id os) (s.run env os) :=
    Reached.run os D ho [] (fun _ => id) s ⟨by rw [hk]; exact .refl _, fun _ => rfl, fun r hr => ⟨hm r hr, seen_self (hm r hr)⟩,
      fun r _ => Function.surjective_id⟩
  rw [List.nil_append] at hR
  generalize s.run env os = u at hR
  generalize hA : added k os = A at *
  cases hx : (u.scene k).objects with
  | none => exact absurd (hR.empty hx) hne
  | some rs =>
    have hp : rs.Perm A := by have := hR.objects; rwa [hx, Option.getD_some] at this
    obtain ⟨g, n', hg, hfill⟩ := refs_fill (env := env) rs u.item u.calls fun r hr => (hR.item r (hp.mem_iff.mp hr)).1
    have hheld : ∀ x ∈ rs.map g, ∃ as ss, x.held = some (as, ss) ∧ as.length = ss.length := by
      intro x hx'
      obtain ⟨r, hr, rfl⟩ := List.mem_map.mp hx'
      obtain ⟨y, cs, -, -, h3⟩ := hfill r hr
      obtain ⟨as, ss, k1, k2, -⟩ := h3.held
      exact ⟨as, ss, k1, k2⟩
    obtain ⟨c, as, ss, hc, a1, a2, a3, hz⟩ := World.resolved env (rs.map g) hheld (u.world k)
    have e1 : stableSort Item.priority (rs.map g) = (stableSort (fun r => (g r).priority) rs).map g := by
      symm
      apply stableSort_map
      intro x y; rfl
    have e2 : ((stableSort (fun r => (g r).priority) rs).map fun r => Item.view env (g r)) =
        (stableSort Item.priority (rs.map g)).map (Item.view env) := by rw [e1, List.map_map]; rfl
    refine ⟨⟨g, Function.update u.scene k { u.scene k with objects := some (stableSort (fun r => (g r).priority) rs), checks := some c }, n'⟩,
      as, ss, by unfold populate; rw [hx]; simp only [hg, e2, hc], ?_, ?_, a3, ?_⟩
    · rw [← a1]
      exact (gather_bounds (by simp only [world, Function.update_self, Option.map_some, e1]) (by simp only [world, Function.update_self])).1
    · rw [← a2]
      exact (gather_bounds (by simp only [world, Function.update_self, Option.map_some, e1]) (by simp only [world, Function.update_self])).2
    · let cs : ℕ → List (V3 ℝ × ℤ) := fun r => if h : ∃ cs, Holds env (s.item r) cs then Classical.choose h else []
      have hcs : ∀ r ∈ A, Holds env (s.item r) (cs r) := by
        intro r hr
        have h := (hm r hr).holds
        simp only [cs, dif_pos h]
        exact Classical.choose_spec h
      refine ⟨cs, hcs, ?_⟩
      rw [hz]
      refine (contents_perm (((stableSort_perm Item.priority (rs.map g)).trans (hp.map g)).map _)).trans ?_
      rw [List.map_map]
      have key : ∀ r ∈ A, ∃ x ds, Carried env (D' r) x ∧ Seen env (moved r id os) (s.item r) x ∧ ItemPopulated env x (g r) ds := by
        intro r hr
        obtain ⟨x, ds, k1, k2, k3⟩ := hfill r (hp.mem_iff.mpr hr)
        exact ⟨x, ds, k1, (seen_trans (hR.item r hr).2 (hR.item r hr).1 k2 :), k3⟩
      apply contents_congr
      · intro r hr
        obtain ⟨x, ds, -, k2, k3⟩ := key r hr
        exact k3.prio.trans k2.prio
      · intro r hr p
        obtain ⟨x, ds, -, k2, k3⟩ := key r hr
        simp only [Function.comp]
        rw [k3.occupies]
        constructor
        · intro h
          obtain ⟨q, rfl⟩ := hR.onto r hr p
          exact ⟨q, (k2.region q).mp h, rfl⟩
        · rintro ⟨q, hq, rfl⟩
          exact (k2.region q).mpr hq
      · intro r hr
        obtain ⟨x, ds, -, k2, k3⟩ := key r hr
        obtain ⟨as', ss', j1, j2, j3⟩ := k3.held
        simp only [Function.comp, j1, Option.getD_some]
        exact j3.trans (k2.holds _ _ (hcs r hr) k3.holds)

/-- Concrete case: a rod of crystal and a water fragment are in two scenes; the rod is given a quarter turn about x while the first scene is populated, the
molecule is shifted afterwards. -/
example (env : Env) (b : V3 ℝ × V3 ℝ) : ∃ (s : Studio) (os : List Op) (D : ℕ → Option Axes), (s.scene 1).objects = none ∧
    (∀ r ∈ added 1 os, Carried env (D r) (s.item r)) ∧ Gentle (added 1 os) D os ∧ added 1 os = [0, 1] ∧
    moved 1 id os 0 = ⟨1, 1, 1⟩ ∧ moved 0 id os ⟨2, 2, 4⟩ = ⟨2, 1, 3⟩ := by
  have horth : Orthogonal (⟨1, 0, 0, 0, 0, -1, 0, 1, 0⟩ : M3 ℝ) := by
    unfold Orthogonal
    ext <;> simp [M3.transpose, M3.mul_def, M3.one_def]
  refine ⟨⟨fun r => if r = 0 then .vol (.vol unitRod) else .mol ⟨[⟨3, 0, 0⟩, ⟨4, 0, 0⟩], [8, 1], 0, 1, true, some 0, none, true⟩,
      fun _ => ⟨none, none, b⟩, 0⟩,
    [.add 0 0, .add 1 0, .populate 0, .transform 0 (.matrix .general ⟨1, 0, 0, 0, 0, -1, 0, 1, 0⟩ (some ⟨1, 2, 3⟩) true false), .add 1 1, .populate 0, .populate 1,
      .touch 0, .transform 1 (.translation ⟨1, 1, 1⟩ true false)], fun r => if r = 0 then some axisZ else none, rfl, ?_, ?_, by simp [added], ?_, ?_⟩
  · intro r hr
    simp only [added, if_true, if_false, zero_ne_one, List.mem_cons, List.not_mem_nil, or_false] at hr
    rcases hr with rfl | rfl
    · exact .solid _ _ (.vol _ (.vol _ _ _ _ (.rod (unitRod_crystal env))))
    · exact .placed _ (.mol _ ⟨3, 0, 0⟩ rfl rfl)
  · refine ⟨some axisY, fun _ => .rigid _ _ (.matrix _ _ _ _ horth) rfl rfl ?_, none, fun _ => .shift _ rfl, trivial⟩
    rintro _ rfl
    show _ = _
    ext <;> simp [Tr.apply, Tr.matApply, M3.mulVec]
  · simp [moved, Tr.apply]
  · ext <;> simp [moved, Tr.apply, Tr.matApply, M3.mulVec]
    norm_num

open Classical in
theorem populate_single {env : Env} {s : Studio} {k r : ℕ} {v v' : Vol} {ps : List (V3 ℝ)} (hs : (s.scene k).objects = some [r])
    (hr : s.item r = .vol (.vol v)) (h : v.populate env s.calls = (v', .ok ())) (hp : v'.atoms = some ps) :
    ∃ s', s.populate env k = (s', .ok ()) ∧ (s'.scene k).objects = some [r] ∧ s'.item r = .vol (.vol v') ∧ s'.calls = s.calls + 1 ∧
      s'.allAtoms env k = .ok ps := by
  obtain ⟨w', n', e1, e2, e3⟩ := World.populate_one h hp (s.scene k).checks (s.scene k).bounds
  have hc : ∃ c, Precedence.checks [Scene.toObj (Item.view env (.vol (.vol v')))] = .ok c ∧
      w' = ⟨some [.vol (.vol v')], some c, (s.scene k).bounds⟩ := by
    simp only [World.populate, Item.populateList, Item.populate, VTree.populate, h, stableSort, insertByKey, List.map] at e1
    cases hc : Precedence.checks [Scene.toObj (Item.view env (.vol (.vol v')))] with
    | error e => rw [hc] at e1; cases e1
    | ok c => rw [hc] at e1; cases e1; exact ⟨c, rfl, rfl⟩
  obtain ⟨c, hc, rfl⟩ := hc
  refine ⟨⟨Function.update s.item r (.vol (.vol v')), Function.update s.scene k { s.scene k with objects := some [r], checks := some c }, s.calls + 1⟩,
    ?_, by simp only [Function.update_self], by simp only [Function.update_self], rfl, ?_⟩
  · simp only [Studio.populate, hs, populateRefs, hr, Item.populate, VTree.populate, h, stableSort, insertByKey, List.map, Function.update_self, hc]
  · rw [← e3]
    simp only [Studio.allAtoms, Studio.world, Function.update_self, Option.map_some, List.map_cons, List.map_nil]

/-- **C121 is false for rotations when sites lie in the tolerance shell.** One ball in one scene,
populated, rotated about its centre with its crystal, and the scene populated again; the scene then shows atoms that are not the rotated ones. -/
theorem C121_refuted (env : Env) (s : Studio) (h0 : (s.scene 0).objects = none) (hb : s.item 0 = .vol (.vol (unitBall ⟨99 / 100, 0, 0⟩))) :
    ∃ t s1 s2 as as', RigidMotion t ∧ t.locked = true ∧ t.basisOnly = false ∧
      (s.run env [.add 0 0]).populate env 0 = (s1, .ok ()) ∧ s1.allAtoms env 0 = .ok as ∧
      (s.run env [.add 0 0, .populate 0, .transform 0 t]).populate env 0 = (s2, .ok ()) ∧ s2.allAtoms env 0 = .ok as' ∧
      ¬ as'.Perm (as.map t.apply) := by
  obtain ⟨t, v1, v2, v3, ps, qs, h1, h2, h3, h4, h5, h6, h7, h8, p, h9, h10⟩ := C17_tolerance_shell_refuted env s.calls (s.calls + 1)
  have ha : ((s.add 0 0).scene 0).objects = some [0] := by simp [Studio.add, h0]
  obtain ⟨s1, p1, p2, p3, p4, p5⟩ := populate_single (s := s.add 0 0) ha hb h4 h5
  have ht : s1.transform env 0 t = (⟨Function.update s1.item 0 (.vol (.vol v2)), s1.scene, s1.calls⟩, .ok ()) := by
    simp only [Studio.transform, p3, Item.transform, VTree.transform, h6]
  obtain ⟨s2, q1, q2, q3, q4, q5⟩ := populate_single (env := env) (v := v2) (s := ⟨Function.update s1.item 0 (.vol (.vol v2)), s1.scene, s1.calls⟩) (k := 0) (r := 0) p2
    (by simp only [Function.update_self]) (by rw [p4]; exact h7) h8
  refine ⟨t, s1, s2, ps, qs, h1, h2, h3, p1, p5, ?_, q5, fun hperm => ?_⟩
  · rw [← q1]
    simp only [Studio.run, Studio.step, p1, ht]
  · obtain ⟨q, k1, k2⟩ := List.mem_map.mp (hperm.mem_iff.mp h10)
    exact h9 (apply_injective h1 k2 ▸ k1)

/-- Concrete case: such a program exists. -/
example (env : Env) (b : V3 ℝ × V3 ℝ) : ∃ t s2 as', RigidMotion t ∧
    ((⟨fun _ => .vol (.vol (unitBall ⟨99 / 100, 0, 0⟩)), fun _ => ⟨none, none, b⟩, 0⟩ : Studio).run env
      [.add 0 0, .populate 0, .transform 0 t]).populate env 0 = (s2, .ok ()) ∧ s2.allAtoms env 0 = .ok as' := by
  obtain ⟨t, s1, s2, as, as', h1, -, -, -, -, h2, h3, -⟩ := C121_refuted env ⟨fun _ => .vol (.vol (unitBall ⟨99 / 100, 0, 0⟩)), fun _ => ⟨none, none, b⟩, 0⟩ rfl rfl
  exact ⟨t, s2, as', h1, h2, h3⟩

end Studio

end CZ
