import Verif.Props.WorldMotion

/-!
# Property C96: histories of a scene

Objects are added, the scene is populated and moved, in any order.
-/

namespace CZ
open Spec

/-- What a caller does with a scene: add an object, populate, move every object. -/
inductive WOp
  | add (x : Item)
  | populate (n : ℕ)
  | move (t : Tr ℝ)

/-- One call; exceptions are caught by the caller. -/
noncomputable def World.step (env : Env) (w : World) : WOp → World
  | .add x => w.add x
  | .populate n => (w.populate env n).1
  | .move t => (w.transform env t).1

noncomputable def World.run (env : Env) (w : World) (ops : List WOp) : World := ops.foldl (World.step env) w

/-- The objects added and the motions each of them has undergone since. -/
def placed : List (Item × (V3 ℝ → V3 ℝ)) → List WOp → List (Item × (V3 ℝ → V3 ℝ))
  | L, [] => L
  | L, .add x :: ops => placed (L ++ [(x, id)]) ops
  | L, .populate _ :: ops => placed L ops
  | L, .move t :: ops => placed (L.map fun x => (x.1, t.apply ∘ x.2)) ops

/-- Sequences of operations considered: objects that can be moved, locked rigid motions.  `D` are the directions the axes of rods have at
that time; an object added may bring new ones, a motion turns them, and none may come to lie along the space diagonal. -/
inductive Fair (env : Env) : Axes → List WOp → Prop
  | nil (D : Axes) : Fair env D []
  | add (D D' : Axes) (x : Item) (ops : List WOp) (hD : D.dirs ⊆ D'.dirs) (h : Movable env D' x) (hf : Fair env D' ops) : Fair env D (.add x :: ops)
  | populate (D : Axes) (n : ℕ) (ops : List WOp) (hf : Fair env D ops) : Fair env D (.populate n :: ops)
  | move (D D' : Axes) (t : Tr ℝ) (ops : List WOp) (ht : RigidMotion t) (hl : t.locked = true) (hb : t.basisOnly = false) (hD : D.Turned t D')
      (hf : Fair env D' ops) : Fair env D (.move t :: ops)

/-- `y` is the image of `x` under `φ` as far as a scene can tell. -/
structure Seen (env : Env) (φ : V3 ℝ → V3 ℝ) (x y : Item) : Prop where
  prio : y.priority = x.priority
  region : ∀ p, Occupies env y (φ p) ↔ Occupies env x p
  holds : ∀ cs cs', Holds env x cs → Holds env y cs' → cs'.Perm (cs.map (movePos φ))

theorem ItemImage.seen {env : Env} {φ : V3 ℝ → V3 ℝ} {x y : Item} (h : ItemImage env φ x y) : Seen env φ x y :=
  ⟨h.priority, h.occupies, fun _ _ h1 h2 => h.holds h1 h2⟩

theorem Movable.holds {env : Env} {D : Axes} {x : Item} (h : Movable env D x) : ∃ cs, Holds env x cs := by
  cases h with
  | vol t h =>
    obtain ⟨t', n', hp⟩ := C12_populate_succeeds env t h.supplying 0
    obtain ⟨cs, hc⟩ := VTree.populate_spec env t 0 t' n' hp
    exact ⟨cs, .vol t cs hc.fills⟩
  | mol m o h ho => exact ⟨_, .mol m⟩

theorem Seen.trans {env : Env} {D : Axes} {φ ψ : V3 ℝ → V3 ℝ} {x y z : Item} (h1 : Seen env φ x y) (hy : Movable env D y) (h2 : Seen env ψ y z) :
    Seen env (ψ ∘ φ) x z := by
  refine ⟨h2.prio.trans h1.prio, fun p => (h2.region _).trans (h1.region p), ?_⟩
  intro cs cs' hc hc'
  obtain ⟨ds, hd⟩ := hy.holds
  have e1 := h1.holds cs ds hc hd
  have e2 := h2.holds ds cs' hd hc'
  refine e2.trans ((e1.map _).trans ?_)
  rw [List.map_map]
  exact .refl _

theorem seen_self {env : Env} {D : Axes} {x : Item} (h : Movable env D x) : Seen env id x x := by
  refine ⟨rfl, fun p => Iff.rfl, ?_⟩
  intro cs cs' h1 h2
  cases h with
  | mol m o hl ho =>
    cases h1 with
    | mol => cases h2 with
      | mol => rw [movePos_id, List.map_id]
  | vol t h =>
    cases h1 with
    | vol _ _ f1 =>
      cases h2 with
      | vol _ _ f2 =>
        obtain ⟨t', n', hp⟩ := C12_populate_succeeds env t h.supplying 0
        obtain ⟨hb, hi⟩ := h.populate 0 t' n' hp
        obtain ⟨t2, n2, hp2⟩ := C12_populate_succeeds env t' hb.supplying 0
        obtain ⟨ds, hd⟩ := VTree.populate_spec env t' 0 t2 n2 hp2
        have e1 := hi.fills cs ds f1 hd.fills
        have e2 := hi.fills cs' ds f2 hd.fills
        rw [movePos_id, List.map_id] at *
        exact e2.symm.trans e1

/-- The state of a scene after a history, against what was placed in it. -/
def Reached (env : Env) (D : Axes) (L : List (Item × (V3 ℝ → V3 ℝ))) (w : World) : Prop :=
  (∀ x ∈ L, (∃ E, Movable env E x.1) ∧ Function.Surjective x.2) ∧
  ∃ P : List ((Item × (V3 ℝ → V3 ℝ)) × Item), (P.map fun x => x.1) = L ∧ (w.objects.getD []).Perm (P.map fun x => x.2) ∧
    (∀ x ∈ P, Movable env D x.2 ∧ Seen env x.1.2 x.1.1 x.2) ∧ (w.objects = none → L = [])

theorem rigid_surjective {t : Tr ℝ} (ht : RigidMotion t) : Function.Surjective t.apply := by
  obtain ⟨L, hL, -, hLa⟩ := (rigid_invertible ht).linearPart
  intro r
  have h := M3.solve_ok L (r - t.apply 0) hL
  have h2 := (M3.solve_iff L (r - t.apply 0) _ hL).mp h
  generalize (L.det)⁻¹ • L.adj.mulVec (r - t.apply 0) = p at h h2
  refine ⟨p, ?_⟩
  have := hLa p 0
  rw [sub_zero, h2] at this
  exact sub_left_injective this

theorem zip_of_map {α β γ : Type} (f : α → γ) (g : β → γ) : ∀ (l : List α) (m : List β), l.map f = m.map g →
    ∃ q : List (α × β), q.map Prod.fst = l ∧ q.map Prod.snd = m ∧ ∀ x ∈ q, f x.1 = g x.2 := by
  intro l
  induction l with
  | nil => intro m h; exact ⟨[], rfl, by simpa using h.symm, by simp⟩
  | cons a l ih =>
    intro m h
    cases m with
    | nil => simp at h
    | cons b m =>
      simp only [List.map_cons, List.cons.injEq] at h
      obtain ⟨q, h1, h2, h3⟩ := ih m h.2
      refine ⟨(a, b) :: q, by simp [h1], by simp [h2], ?_⟩
      intro x hx
      rcases List.mem_cons.mp hx with rfl | hx
      · exact h.1
      · exact h3 x hx

theorem Reached.next {env : Env} {D : Axes} {L : List (Item × (V3 ℝ → V3 ℝ))} {w w' : World} {D' : Axes} (h : Reached env D L w) {ψ : V3 ℝ → V3 ℝ}
    (hψ : Function.Surjective ψ) {xs ys : List Item} (hx : w.objects = some xs) (pairs : List (Item × Item)) (hp : pairs.map Prod.fst = xs)
    (hy : w'.objects = some ys) (hys : ys.Perm (pairs.map Prod.snd)) (hi : ∀ x ∈ pairs, Movable env D' x.2 ∧ ItemImage env ψ x.1 x.2) :
    Reached env D' (L.map fun x => (x.1, ψ ∘ x.2)) w' := by
  obtain ⟨h0, P, h1, h2, h3, h4⟩ := h
  refine ⟨?_, ?_⟩
  · intro x hx'
    obtain ⟨y, hy', rfl⟩ := List.mem_map.mp hx'
    exact ⟨(h0 y hy').1, hψ.comp (h0 y hy').2⟩
  · rw [hx, Option.getD_some, ← hp] at h2
    obtain ⟨pairs', hpp, hpe⟩ := perm_lift Prod.fst pairs _ h2
    obtain ⟨Q, q1, q2, q3⟩ := zip_of_map (fun x : (Item × (V3 ℝ → V3 ℝ)) × Item => x.2) (fun x : Item × Item => x.1) P pairs' hpe.symm
    refine ⟨Q.map fun x => ((x.1.1.1, ψ ∘ x.1.1.2), x.2.2), ?_, ?_, ?_, by rw [hy]; intro e; cases e⟩
    · rw [← h1, ← q1, List.map_map, List.map_map, List.map_map]
      rfl
    · rw [hy, Option.getD_some, List.map_map]
      refine hys.trans ((hpp.symm.map Prod.snd).trans ?_)
      rw [← q2, List.map_map]
      exact .refl _
    · intro x hx'
      obtain ⟨q, hq, rfl⟩ := List.mem_map.mp hx'
      have m1 : q.1 ∈ P := by rw [← q1]; exact List.mem_map.mpr ⟨q, hq, rfl⟩
      have m2 : q.2 ∈ pairs := hpp.mem_iff.mp (by rw [← q2]; exact List.mem_map.mpr ⟨q, hq, rfl⟩)
      obtain ⟨a1, a2⟩ := h3 q.1 m1
      obtain ⟨b1, b2⟩ := hi q.2 m2
      refine ⟨b1, a2.trans a1 ?_⟩
      have := b2.seen
      rw [← q3 q hq] at this
      exact this

theorem Reached.movable {env : Env} {D : Axes} {L : List (Item × (V3 ℝ → V3 ℝ))} {w : World} (h : Reached env D L w) {xs : List Item} (hx : w.objects = some xs) :
    ∀ x ∈ xs, Movable env D x := by
  obtain ⟨h0, P, h1, h2, h3, h4⟩ := h
  rw [hx, Option.getD_some] at h2
  intro x hx'
  obtain ⟨y, hy, rfl⟩ := List.mem_map.mp (h2.mem_iff.mp hx')
  exact (h3 y hy).1

theorem Reached.run {env : Env} : ∀ (ops : List WOp) (D : Axes), Fair env D ops → ∀ (L : List (Item × (V3 ℝ → V3 ℝ))) (w : World), Reached env D L w →
    ∃ D', Reached env D' (placed L ops) (w.run env ops) := by
  intro ops
  induction ops with
  | nil => intro D _ L w h; exact ⟨D, h⟩
  | cons o ops ih =>
    intro D hf L w h
    show ∃ D', Reached env D' (placed L (o :: ops)) (World.run env (w.step env o) ops)
    cases hf with
    | add _ D' x _ hD hx hf' =>
      rw [placed]
      refine ih D' hf' _ _ ?_
      obtain ⟨h0, P, h1, h2, h3, h4⟩ := h
      refine ⟨?_, P ++ [((x, id), x)], by simp [h1], ?_, ?_, by intro e; cases e⟩
      · intro y hy
        rcases List.mem_append.mp hy with hy | hy
        · exact h0 y hy
        · rw [List.mem_singleton] at hy; subst hy; exact ⟨⟨D', hx⟩, Function.surjective_id⟩
      · show (w.objects.getD [] ++ [x]).Perm _
        rw [List.map_append]
        exact h2.append_right _
      · intro y hy
        rcases List.mem_append.mp hy with hy | hy
        · exact ⟨(h3 y hy).1.mono hD, (h3 y hy).2⟩
        · rw [List.mem_singleton] at hy; subst hy; exact ⟨hx, seen_self hx⟩
    | populate _ n _ hf' =>
      rw [placed]
      refine ih D hf' _ _ ?_
      cases hx : w.objects with
      | none =>
        have : w.step env (.populate n) = w := by
          show (w.populate env n).1 = w
          unfold World.populate; rw [hx]
        rw [this]; exact h
      | some xs =>
        have hm := h.movable hx
        obtain ⟨w', n', hp⟩ := C95_populate_succeeds env w n xs hx (Movable.balanced hm) (Movable.supplying hm)
        obtain ⟨pairs, ys, p1, p2, p3, p4⟩ := World.populate_movable hx hm hp
        have := h.next Function.surjective_id hx pairs p1 p2 p3 p4
        simp only [Function.id_comp, List.map_id'] at this
        show Reached env D L (w.populate env n).1
        rw [hp]
        exact this
    | move _ D' t _ ht hl hb hD hf' =>
      rw [placed]
      refine ih D' hf' _ _ ?_
      cases hx : w.objects with
      | none =>
        have : w.step env (.move t) = w := by
          show (w.transform env t).1 = w
          unfold World.transform; rw [hx]
        rw [this]
        obtain ⟨-, P, h1, h2, -, h4⟩ := h
        have hL : L = [] := h4 hx
        subst hL
        have hP : P = [] := List.map_eq_nil_iff.mp h1
        subst hP
        exact ⟨by simp, [], rfl, h2, by simp, fun _ => rfl⟩
      | some xs =>
        obtain ⟨w', pairs, p1, p2, p3, p4⟩ := World.transform_movable ht hl hb hD hx (h.movable hx)
        show Reached env D' _ (w.transform env t).1
        rw [p1]
        exact h.next (rigid_surjective ht) hx pairs p2 p3 (.refl _) p4

/-- What a scene shows, against what was placed in it. -/
theorem Reached.contents {env : Env} {D : Axes} {L : List (Item × (V3 ℝ → V3 ℝ))} {w : World} (hR : Reached env D L w) (hne : L ≠ []) (n : ℕ) :
    ∃ w' n' as ss, w.populate env n = (w', n', .ok ()) ∧ w'.allAtoms env = .ok as ∧ w'.allSpecies env = .ok ss ∧
      as.length = ss.length ∧ ∃ parts : List ((Item × (V3 ℝ → V3 ℝ)) × List (V3 ℝ × ℤ)), parts.map Prod.fst = L ∧
        (∀ x ∈ parts, Holds env x.1.1 x.2) ∧
        (as.zip ss).Perm (Spec.contents (parts.map fun x =>
          ⟨x.1.1.priority, x.2.map fun a => (x.1.2 a.1, a.2), fun p => ∃ q, Occupies env x.1.1 q ∧ p = x.1.2 q⟩)) := by
  classical
  cases hx : w.objects with
  | none => obtain ⟨-, P, -, -, -, h4⟩ := hR; exact absurd (h4 hx) hne
  | some xs =>
    have hm := hR.movable hx
    obtain ⟨w', n', hp⟩ := C95_populate_succeeds env w n xs hx (Movable.balanced hm) (Movable.supplying hm)
    obtain ⟨as, ss, a1, a2, a3, parts, p1, p2, p3⟩ := C95_scene_contents env w w' n n' xs hx (Movable.balanced hm) hp
    refine ⟨w', n', as, ss, hp, a1, a2, a3, ?_⟩
    obtain ⟨h0, P, h1, h2, h3, h4⟩ := hR
    rw [hx, Option.getD_some, ← p1] at h2
    obtain ⟨parts', q1, q2⟩ := perm_lift Prod.fst parts _ h2
    obtain ⟨Q, r1, r2, r3⟩ := zip_of_map (fun x : (Item × (V3 ℝ → V3 ℝ)) × Item => x.2) (fun x : Item × List (V3 ℝ × ℤ) => x.1) P parts' q2.symm
    let f : Item → List (V3 ℝ × ℤ) := fun x => if h : ∃ cs, Holds env x cs then Classical.choose h else []
    have hfold : ∀ x ∈ L, Holds env x.1 (f x.1) := by
      intro x hx'
      have h := (h0 x hx').1.elim fun _ h => h.holds
      simp only [f, dif_pos h]
      exact Classical.choose_spec h
    refine ⟨L.map fun x => (x, f x.1), by rw [List.map_map]; exact List.map_id _, ?_, ?_⟩
    · intro x hx'
      obtain ⟨y, hy, rfl⟩ := List.mem_map.mp hx'
      exact hfold y hy
    · refine p3.trans ((contents_perm (q1.symm.map _)).trans ?_)
      rw [← r2, ← h1, ← r1, List.map_map, List.map_map, List.map_map, List.map_map]
      have hmem : ∀ q ∈ Q, q.1.1 ∈ L ∧ (Movable env D q.1.2 ∧ Seen env q.1.1.2 q.1.1.1 q.2.1) ∧ Holds env q.2.1 q.2.2 := by
        intro q hq
        have m1 : q.1 ∈ P := by rw [← r1]; exact List.mem_map.mpr ⟨q, hq, rfl⟩
        have m2 : q.2 ∈ parts := q1.mem_iff.mp (by rw [← r2]; exact List.mem_map.mpr ⟨q, hq, rfl⟩)
        have hs := h3 q.1 m1
        refine ⟨by rw [← h1]; exact List.mem_map.mpr ⟨q.1, m1, rfl⟩, ⟨hs.1, ?_⟩, p2 _ m2⟩
        rw [← show q.1.2 = q.2.1 from r3 q hq]
        exact hs.2
      apply contents_congr
      · intro q hq; exact (hmem q hq).2.1.2.prio
      · intro q hq p
        have hs := (hmem q hq).2.1.2
        simp only [Function.comp]
        constructor
        · intro ho
          obtain ⟨r, rfl⟩ := (h0 _ (hmem q hq).1).2 p
          exact ⟨r, (hs.region r).mp ho, rfl⟩
        · rintro ⟨r, hr, rfl⟩
          exact (hs.region r).mpr hr
      · intro q hq
        exact (hmem q hq).2.1.2.holds _ _ (hfold _ (hmem q hq).1) (hmem q hq).2.2

/-- **C96 (histories).** A scene is built by adding objects (molecules, nested volumes of balls and rods of crystal), populated and moved (every
object by the same locked rigid motion, none of which puts the axis of a rod along the space diagonal) any number of times, in any order.  A `populate()` at the end succeeds, and the scene then
shows what the precedence rule lets survive of the original contents of all objects added, each carried along by the motions made since
it was added. -/
theorem C96_history_partial (env : Env) (D : Axes) (b : V3 ℝ × V3 ℝ) (ops : List WOp) (hf : Fair env D ops) (hne : placed [] ops ≠ []) (n : ℕ) :
    ∃ w' n' as ss, (World.run env ⟨none, none, b⟩ ops).populate env n = (w', n', .ok ()) ∧ w'.allAtoms env = .ok as ∧ w'.allSpecies env = .ok ss ∧
      as.length = ss.length ∧ ∃ parts : List ((Item × (V3 ℝ → V3 ℝ)) × List (V3 ℝ × ℤ)), parts.map Prod.fst = placed [] ops ∧
        (∀ x ∈ parts, Holds env x.1.1 x.2) ∧
        (as.zip ss).Perm (Spec.contents (parts.map fun x =>
          ⟨x.1.1.priority, x.2.map fun a => (x.1.2 a.1, a.2), fun p => ∃ q, Occupies env x.1.1 q ∧ p = x.1.2 q⟩)) := by
  obtain ⟨D, hR⟩ : ∃ D', Reached env D' (placed [] ops) (World.run env ⟨none, none, b⟩ ops) :=
    Reached.run ops D hf [] _ ⟨by simp, [], rfl, by simp, by simp, fun _ => rfl⟩
  exact hR.contents hne n

/-- The direction -y. -/
def axisY : Axes := ⟨{⟨0, -1, 0⟩}, by
  rintro _ rfl (⟨k, hk⟩ | ⟨k, hk⟩)
  · have := congrArg V3.x hk; simp at this
  · have h1 := congrArg V3.x hk; have h2 := congrArg V3.y hk; simp at h1 h2; rw [← h1] at h2; norm_num at h2⟩

/-- Concrete case: a ball of crystal is added, the scene populated and turned, a rod and a molecule are added, the scene is shifted and given
a quarter turn about x. -/
example (env : Env) (b : V3 ℝ × V3 ℝ) : ∃ w' n' as ss,
    (World.run env ⟨none, none, b⟩ [.add (.vol (.vol (unitBall 0))), .populate 0, .move (.matrix .general rot345 (some ⟨1, 2, 3⟩) true false),
      .add (.vol (.vol unitRod)),
      .add (.mol ⟨[⟨3, 0, 0⟩, ⟨4, 0, 0⟩], [8, 1], 0, 1, true, some 0, none, true⟩), .move (.translation ⟨1, 1, 1⟩ true false),
      .move (.matrix .general ⟨1, 0, 0, 0, 0, -1, 0, 1, 0⟩ none true false)]).populate env 7 = (w', n', .ok ()) ∧ w'.allAtoms env = .ok as ∧
      w'.allSpecies env = .ok ss ∧ as.length = ss.length := by
  have horth : Orthogonal (⟨1, 0, 0, 0, 0, -1, 0, 1, 0⟩ : M3 ℝ) := by
    unfold Orthogonal
    ext <;> simp [M3.transpose, M3.mul_def, M3.one_def]
  obtain ⟨w', n', as, ss, h1, h2, h3, h4, -⟩ := C96_history_partial env Axes.none b [.add (.vol (.vol (unitBall 0))), .populate 0,
      .move (.matrix .general rot345 (some ⟨1, 2, 3⟩) true false), .add (.vol (.vol unitRod)),
      .add (.mol ⟨[⟨3, 0, 0⟩, ⟨4, 0, 0⟩], [8, 1], 0, 1, true, some 0, none, true⟩), .move (.translation ⟨1, 1, 1⟩ true false),
      .move (.matrix .general ⟨1, 0, 0, 0, 0, -1, 0, 1, 0⟩ none true false)] (by
    refine .add _ Axes.none _ _ (le_refl _) (.vol _ (.vol _ _ _ _ (.ball (unitBall_crystal env)))) ?_
    refine .populate _ _ _ ?_
    refine .move _ Axes.none _ _ (.matrix _ _ _ _ rot345_orth) rfl rfl (Axes.none_turned _ _) ?_
    refine .add _ axisZ _ _ (fun _ h => h.elim) (.vol _ (.vol _ _ _ _ (.rod (unitRod_crystal env)))) ?_
    refine .add _ axisZ _ _ (le_refl _) (.mol _ ⟨3, 0, 0⟩ rfl rfl) ?_
    refine .move _ axisZ _ _ (.translation _ _ _) rfl rfl ?_ ?_
    · rintro _ rfl
      show _ = _
      simp [Tr.apply]
    refine .move _ axisY _ _ (.matrix _ _ _ _ horth) rfl rfl ?_ (.nil _)
    rintro _ rfl
    show _ = _
    ext <;> simp [Tr.apply, Tr.matApply, M3.mulVec]) (by simp [placed]) 7
  exact ⟨w', n', as, ss, h1, h2, h3, h4⟩

end CZ
