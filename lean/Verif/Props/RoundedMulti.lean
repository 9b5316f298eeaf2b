import Verif.RoundedMulti
import Verif.Props.RoundedScene

/-!
# Property C144: nested MultiVolumes are resolved alike on every machine
-/

namespace CZ
namespace Fl
open Spec

noncomputable section

/-! ## Specification -/

mutual
/-- The volumes at the leaves. -/
def Tree.grains : Tree → List Grain
  | .grain g => [g]
  | .multi ts _ => Tree.grainsOf ts
/-- The volumes at the leaves of several objects. -/
def Tree.grainsOf : List Tree → List Grain
  | [] => []
  | t :: ts => t.grains ++ Tree.grainsOf ts
end

mutual
/-- Point `p` is in one of the closed bodies. -/
def Tree.Has : Tree → V3 ℝ → Prop
  | .grain g, p => g.Has p
  | .multi ts _, p => Tree.HasAny ts p
/-- Point `p` is in one of the objects. -/
def Tree.HasAny : List Tree → V3 ℝ → Prop
  | [], _ => False
  | t :: ts, p => t.Has p ∨ Tree.HasAny ts p
end

mutual
/-- No MultiVolume, however deep, is empty. -/
def Tree.Filled : Tree → Prop
  | .grain _ => True
  | .multi ts _ => ts ≠ [] ∧ Tree.AllFilled ts
/-- The same for every object of a list. -/
def Tree.AllFilled : List Tree → Prop
  | [] => True
  | t :: ts => t.Filled ∧ Tree.AllFilled ts
end

mutual
/-- The object in exact arithmetic, tolerances left out: the sites of a crystal in its closed body; for a MultiVolume what its members
are left with when they are taken as a scene of their own. -/
def Tree.body : Tree → Body (V3 ℝ) ℤ
  | .grain g => g.body
  | .multi ts p => { priority := p, sites := contents (stableSort (·.priority) (Tree.bodies ts)), inside := Tree.HasAny ts }
/-- The members. -/
def Tree.bodies : List Tree → List (Body (V3 ℝ) ℤ)
  | [] => []
  | t :: ts => t.body :: Tree.bodies ts
end

theorem Tree.hasAny_iff (ts : List Tree) (p : V3 ℝ) : Tree.HasAny ts p ↔ ∃ t ∈ ts, t.Has p := by
  induction ts with
  | nil => simp [Tree.HasAny]
  | cons t ts ih => simp [Tree.HasAny, ih]

theorem Tree.allFilled_iff (ts : List Tree) : Tree.AllFilled ts ↔ ∀ t ∈ ts, t.Filled := by
  induction ts with
  | nil => simp [Tree.AllFilled]
  | cons t ts ih => simp [Tree.AllFilled, ih]

theorem Tree.bodies_eq (ts : List Tree) : Tree.bodies ts = ts.map Tree.body := by
  induction ts with
  | nil => simp [Tree.bodies]
  | cons t ts ih => simp [Tree.bodies, ih]

theorem Tree.mem_grainsOf {ts : List Tree} {t : Tree} (ht : t ∈ ts) {g : Grain} (hg : g ∈ t.grains) : g ∈ Tree.grainsOf ts := by
  induction ts with
  | nil => cases ht
  | cons x xs ih =>
    unfold Tree.grainsOf
    rcases List.mem_cons.mp ht with rfl | h
    · exact List.mem_append_left _ hg
    · exact List.mem_append_right _ (ih h)

variable (A : Arith)

theorem Tree.objs_eq (ts : List Tree) : Tree.objs A ts = ts.map (Tree.obj A) := by
  induction ts with
  | nil => simp [Tree.objs]
  | cons t ts ih => simp [Tree.objs, ih]

theorem Tree.interiorAny_eq (ts : List Tree) (p : V3 ℝ) : Tree.interiorAny A ts p = ts.any fun t => t.interior A p := by
  induction ts with
  | nil => simp [Tree.interiorAny]
  | cons t ts ih => simp [Tree.interiorAny, ih]

theorem Tree.obj_priority (t : Tree) : (t.obj A).priority = t.priority := by cases t <;> simp [Tree.obj, Tree.priority, Grain.obj]

theorem Tree.body_priority (t : Tree) : t.body.priority = t.priority := by cases t <;> simp [Tree.body, Tree.priority, Grain.body]

theorem Tree.obj_interior (t : Tree) : (t.obj A).interior = t.interior A := by
  cases t with
  | grain g => funext p; simp [Tree.obj, Tree.interior, Grain.obj]
  | multi ts p => simp [Tree.obj]

theorem Tree.body_inside (t : Tree) : t.body.inside = t.Has := by
  cases t with
  | grain g => funext p; simp [Tree.body, Tree.Has, Grain.body]
  | multi ts p => funext q; simp [Tree.body, Tree.Has]

/-- Induction over MultiVolumes. -/
theorem Tree.ind {P : Tree → Prop} (hg : ∀ g, P (.grain g)) (hm : ∀ ts p, (∀ t ∈ ts, P t) → P (.multi ts p)) (t : Tree) : P t :=
  Tree.rec (motive_1 := P) (motive_2 := fun ts => ∀ t ∈ ts, P t) hg hm (by simp)
    (fun t ts h1 h2 x hx => by
      rcases List.mem_cons.mp hx with rfl | h
      · exact h1
      · exact h2 x h) t

/-- `q` is what is computed for the site `q'` of one of the crystals. -/
def FromOne (gs : List Grain) (q q' : V3 ℝ × ℤ) : Prop := ∃ g ∈ gs, g.From A q q'

theorem Tree.interior_iff {gs : List Grain} (hR : ∀ a ∈ surfaces gs, Ready a) (hS : Settled gs) {q q' : V3 ℝ × ℤ}
    (hq : FromOne A gs q q') (t : Tree) (ht : ∀ g ∈ t.grains, g ∈ gs) : t.interior A q.1 = true ↔ t.Has q'.1 := by
  induction t using Tree.ind with
  | hg h =>
    obtain ⟨g, hgi, n, f, hs, rfl, rfl⟩ := hq
    have hhj : h ∈ gs := ht h (by simp [Tree.grains])
    have hsub {a : Alg} (ha : a ∈ h.algs) : a ∈ surfaces gs := List.mem_flatMap.mpr ⟨h, hhj, ha⟩
    obtain ⟨hF, hC⟩ := hS g hgi n f hs
    have yes (hh : h.Has (siteAt g.B g.o n f.1)) : h.interior A (site A g.B g.o (Gen.castV n) f.1) = true :=
      h.has_interior A (fun a ha => hR a (hsub ha)) _ _ hh (fun a ha => (hF a (hsub ha)).1) fun a ha => site_close A hF (hsub ha)
    simp only [Tree.interior, Tree.Has]
    refine ⟨fun hi => ?_, yes⟩
    rcases hC h hhj with hC | hC
    · exact hC
    · have := h.misses_interior A (fun a ha => hR a (hsub ha)) _ _ hC (fun a ha => (hF a (hsub ha)).1)
        fun a ha => site_close A hF (hsub ha)
      rw [this] at hi
      cases hi
  | hm ts p ih =>
    simp only [Tree.interior, Tree.Has]
    rw [Tree.interiorAny_eq, Tree.hasAny_iff, List.any_eq_true]
    refine exists_congr fun t => and_congr_right fun hmem => ih t hmem fun g hg => ht g ?_
    simp only [Tree.grains]
    exact Tree.mem_grainsOf hmem hg

/-- What an object supplies: as many species as positions, one by one computed for the sites of the exact body. -/
def Tree.Supplies (gs : List Grain) (t : Tree) : Prop :=
  ∃ as ss, (t.obj A).supply = .ok (as, ss) ∧ as.length = ss.length ∧ List.Forall₂ (FromOne A gs) (as.zip ss) t.body.sites

theorem Tree.level {gs : List Grain} (hR : ∀ a ∈ surfaces gs, Ready a) (hS : Settled gs) (b : V3 ℝ × V3 ℝ) (ts : List Tree)
    (ht : ∀ t ∈ ts, ∀ g ∈ t.grains, g ∈ gs) (hs : ∀ t ∈ ts, t.Supplies A gs) :
    ∃ sc as ss, Scene.populate (sceneOfTrees A b ts) = (sc, .ok ()) ∧ Scene.allAtoms sc = .ok as ∧ Scene.allSpecies sc = .ok ss ∧
      as.length = ss.length ∧ List.Forall₂ (FromOne A gs) (as.zip ss) (contents (stableSort (·.priority) (ts.map Tree.body))) := by
  classical
  have hpop : Scene.Populatable (Tree.objs A ts) := by
    rw [Tree.objs_eq]
    intro o ho
    obtain ⟨t, htm, rfl⟩ := List.mem_map.mp ho
    obtain ⟨as, ss, h1, h2, -⟩ := hs t htm
    exact ⟨as, ss, h1, h2⟩
  obtain ⟨sc, as, ss, h1, h2, h3, h4⟩ := Scene.C01_scene_contents_in_order (sceneOfTrees A b ts) _ rfl hpop
  obtain ⟨sc', as', ss', h1', h2', h3', h5, -⟩ := Scene.C01_scene_contents (sceneOfTrees A b ts) _ rfl hpop
  rw [h1] at h1'
  obtain rfl : sc = sc' := congrArg Prod.fst h1'
  rw [h2] at h2'
  rw [h3] at h3'
  cases h2'
  cases h3'
  refine ⟨sc, as, ss, h1, h2, h3, h5, ?_⟩
  have e : stableSort (·.priority) ((Tree.objs A ts).map Scene.given) =
      (stableSort Tree.priority ts).map fun t => Scene.given (t.obj A) := by
    rw [Tree.objs_eq, List.map_map, stableSort_map Tree.priority (·.priority) (fun t => Scene.given (t.obj A)) ts
      (by intro x y; rw [← Tree.obj_priority A x, ← Tree.obj_priority A y]; rfl)]
    rfl
  have e' : stableSort (·.priority) (ts.map Tree.body) = (stableSort Tree.priority ts).map Tree.body := by
    rw [stableSort_map Tree.priority (·.priority) Tree.body ts (by intro x y; rw [Tree.body_priority, Tree.body_priority])]
  rw [h4, e, e', contents_map, contents_map]
  refine forall₂_flatMap _ _ _ fun i _ => ?_
  have hgi : (stableSort Tree.priority ts)[i] ∈ ts := mem_stableSort.mp (List.getElem_mem _)
  generalize (stableSort Tree.priority ts)[i] = t at hgi ⊢
  obtain ⟨as', ss', g1, -, g3⟩ := hs t hgi
  have gs' : (Scene.given (t.obj A)).sites = as'.zip ss' := by simp only [Scene.given, g1]
  rw [gs']
  refine forall₂_filter_rel _ _ g3 fun q q' hq => ?_
  rw [decide_eq_decide]
  refine forall_congr' fun j => forall_congr' fun _ => ?_
  have hhj : (stableSort Tree.priority ts)[j] ∈ ts := mem_stableSort.mp (List.getElem_mem _)
  generalize (stableSort Tree.priority ts)[j] = u at hhj ⊢
  have p1 : ∀ x : Tree, (Scene.given (x.obj A)).priority = x.body.priority := fun x => by
    rw [Tree.body_priority, ← Tree.obj_priority A]; rfl
  rw [p1, p1]
  refine forall_congr' fun _ => not_congr ?_
  rw [Tree.body_inside, ← Tree.interior_iff A hR hS hq u (ht u hhj), ← Tree.obj_interior]
  rfl

theorem Tree.supplies {gs : List Grain} (hR : ∀ a ∈ surfaces gs, Ready a) (hS : Settled gs) (t : Tree) (ht : ∀ g ∈ t.grains, g ∈ gs)
    (hf : t.Filled) : t.Supplies A gs := by
  induction t using Tree.ind with
  | hg g =>
    have hgi : g ∈ gs := ht g (by simp [Tree.grains])
    have hsub {a : Alg} (ha : a ∈ g.algs) : a ∈ surfaces gs := List.mem_flatMap.mpr ⟨g, hgi, ha⟩
    have hfr := fill_from A g (fun a ha => hR a (hsub ha)) fun n f hs =>
      ⟨fun a ha => (hS g hgi n f hs).1 a (hsub ha), (hS g hgi n f hs).2 g hgi⟩
    refine ⟨(fill A g.algs g.B g.o g.sites g.e g.es).map Prod.fst, (fill A g.algs g.B g.o g.sites g.e g.es).map Prod.snd,
      by simp only [Tree.obj, Grain.obj], by simp, ?_⟩
    have := obj_sites A g
    simp only [Scene.given, Grain.obj] at this
    rw [this]
    simp only [Tree.body, Grain.body]
    exact hfr.imp fun _ _ h => ⟨g, hgi, h⟩
  | hm ts p ih =>
    simp only [Tree.Filled, Tree.allFilled_iff] at hf
    have ht' : ∀ t ∈ ts, ∀ g ∈ t.grains, g ∈ gs := fun t hm g hg => ht g (by simp only [Tree.grains]; exact Tree.mem_grainsOf hm hg)
    obtain ⟨sc, as, ss, h1, h2, h3, h4, h5⟩ := Tree.level A hR hS (0, 0) ts ht' fun t hm => ih t hm (ht' t hm) (hf.2 t hm)
    refine ⟨as, ss, ?_, h4, ?_⟩
    · have hne : ¬ (Tree.objs A ts).length = 0 := by rw [Tree.objs_eq]; simpa using hf.1
      unfold sceneOfTrees at h1
      simp only [Tree.obj, merge, h1, if_neg hne, h2, h3]
      rfl
    · simp only [Tree.body, Tree.bodies_eq]
      exact h5

/-- **C144 (list).** A scene of volumes and MultiVolumes, nested to any depth: when no MultiVolume is empty and every site is settled with
respect to every volume of the scene, the atoms of the scene are one by one those of the exact bodies.  Within a MultiVolume the members
are resolved among themselves by their own priorities, then the MultiVolumes against each other by theirs. -/
theorem C144_list (b : V3 ℝ × V3 ℝ) (ts : List Tree) (hf : ∀ t ∈ ts, t.Filled)
    (hR : ∀ a ∈ surfaces (Tree.grainsOf ts), Ready a) (hS : Settled (Tree.grainsOf ts)) :
    ∃ sc as ss, Scene.populate (sceneOfTrees A b ts) = (sc, .ok ()) ∧ Scene.allAtoms sc = .ok as ∧ Scene.allSpecies sc = .ok ss ∧
      List.Forall₂ (Same (surfaces (Tree.grainsOf ts))) (as.zip ss) (contents (stableSort (·.priority) (ts.map Tree.body))) := by
  have ht : ∀ t ∈ ts, ∀ g ∈ t.grains, g ∈ Tree.grainsOf ts := fun t hm g hg => Tree.mem_grainsOf hm hg
  obtain ⟨sc, as, ss, h1, h2, h3, -, h5⟩ := Tree.level A hR hS b ts ht fun t hm => Tree.supplies A hR hS t (ht t hm) (hf t hm)
  refine ⟨sc, as, ss, h1, h2, h3, h5.imp ?_⟩
  rintro _ _ ⟨g, hg, n, f, hs, rfl, rfl⟩
  exact ⟨rfl, fun a ha => site_close A (hS g hg n f hs).1 ha⟩

/-! ## Two machines -/

mutual
/-- The same object, the volumes at the leaves with other computed extents. -/
def Tree.resolved (r : Grain → V3 ℝ × List (V3 ℝ)) : Tree → Tree
  | .grain g => .grain (g.resolved r)
  | .multi ts p => .multi (Tree.resolvedAll r ts) p
/-- The members. -/
def Tree.resolvedAll (r : Grain → V3 ℝ × List (V3 ℝ)) : List Tree → List Tree
  | [] => []
  | t :: ts => t.resolved r :: Tree.resolvedAll r ts
end

theorem Tree.resolvedAll_eq (r : Grain → V3 ℝ × List (V3 ℝ)) (ts : List Tree) : Tree.resolvedAll r ts = ts.map (Tree.resolved r) := by
  induction ts with
  | nil => simp [Tree.resolvedAll]
  | cons t ts ih => simp [Tree.resolvedAll, ih]

theorem Tree.grainsOf_eq (ts : List Tree) : Tree.grainsOf ts = ts.flatMap Tree.grains := by
  induction ts with
  | nil => simp [Tree.grainsOf]
  | cons t ts ih => simp [Tree.grainsOf, ih]

theorem Tree.grains_resolved (r : Grain → V3 ℝ × List (V3 ℝ)) (t : Tree) : (t.resolved r).grains = t.grains.map (Grain.resolved r) := by
  induction t using Tree.ind with
  | hg g => simp [Tree.resolved, Tree.grains]
  | hm ts p ih =>
    simp only [Tree.resolved, Tree.grains, Tree.grainsOf_eq, Tree.resolvedAll_eq, List.flatMap_map, List.map_flatMap]
    rw [List.flatMap_def, List.flatMap_def]
    congr 1
    exact List.map_congr_left fun t ht => ih t ht

theorem Tree.filled_resolved (r : Grain → V3 ℝ × List (V3 ℝ)) (t : Tree) (h : t.Filled) : (t.resolved r).Filled := by
  induction t using Tree.ind with
  | hg g => simp [Tree.resolved, Tree.Filled]
  | hm ts p ih =>
    simp only [Tree.resolved, Tree.Filled, Tree.resolvedAll_eq, Tree.allFilled_iff] at h ⊢
    refine ⟨by simpa using h.1, fun x hx => ?_⟩
    obtain ⟨t, ht, rfl⟩ := List.mem_map.mp hx
    exact ih t ht (h.2 t ht)

theorem Tree.has_resolved (r : Grain → V3 ℝ × List (V3 ℝ)) (t : Tree) (p : V3 ℝ) : (t.resolved r).Has p ↔ t.Has p := by
  induction t using Tree.ind with
  | hg g => simp [Tree.resolved, Tree.Has, Grain.resolved, Grain.Has]
  | hm ts q ih =>
    simp only [Tree.resolved, Tree.Has, Tree.resolvedAll_eq, Tree.hasAny_iff]
    constructor
    · rintro ⟨x, hx, h⟩
      obtain ⟨t, ht, rfl⟩ := List.mem_map.mp hx
      exact ⟨t, ht, (ih t ht).mp h⟩
    · rintro ⟨t, ht, h⟩
      exact ⟨_, List.mem_map.mpr ⟨t, ht, rfl⟩, (ih t ht).mpr h⟩

theorem Grain.body_resolved (r : Grain → V3 ℝ × List (V3 ℝ)) (g : Grain) (hB : g.Boxed (r g)) : (g.resolved r).body = g.body := by
  obtain ⟨hd, box, ε, hw, hbox, hacc, hacc'⟩ := hB
  have := inBody_blocks g.algs g.B hd g.o g.sites box ε hw hbox _ _ _ _ hacc hacc'
  show Body.mk _ _ _ = Body.mk _ _ _
  rw [this]
  rfl

theorem Tree.body_resolved (r : Grain → V3 ℝ × List (V3 ℝ)) (t : Tree) (hB : ∀ g ∈ t.grains, (g.resolved r).body = g.body) :
    (t.resolved r).body = t.body := by
  induction t using Tree.ind with
  | hg g =>
    simp only [Tree.resolved, Tree.body]
    exact hB g (by simp [Tree.grains])
  | hm ts p ih =>
    simp only [Tree.resolved, Tree.body, Tree.bodies_eq, Tree.resolvedAll_eq, List.map_map]
    have e : ts.map (Tree.body ∘ Tree.resolved r) = ts.map Tree.body := List.map_congr_left fun t ht =>
      ih t ht fun g hg => hB g (by simp only [Tree.grains]; exact Tree.mem_grainsOf ht hg)
    rw [e]
    congr 1
    funext q
    rw [← Tree.resolvedAll_eq]
    exact propext (Tree.has_resolved r (.multi ts p) q)

/-- **C144 (reproducible).** Two machines, with different roundings and different solvers of the extents, give a scene of nested
MultiVolumes the same atoms in the same order, up to half of the tolerances in position. -/
theorem C144_same_atoms (A' : Arith) (b b' : V3 ℝ × V3 ℝ) (ts : List Tree) (hf : ∀ t ∈ ts, t.Filled)
    (hR : ∀ a ∈ surfaces (Tree.grainsOf ts), Ready a) (r : Grain → V3 ℝ × List (V3 ℝ)) (hB : ∀ g ∈ Tree.grainsOf ts, g.Boxed (r g))
    (hS : Settled (Tree.grainsOf ts)) (hS' : Settled ((Tree.grainsOf ts).map (Grain.resolved r))) :
    ∃ sc as ss sc' as' ss', Scene.populate (sceneOfTrees A b ts) = (sc, .ok ()) ∧ Scene.allAtoms sc = .ok as ∧
      Scene.allSpecies sc = .ok ss ∧ Scene.populate (sceneOfTrees A' b' (ts.map (Tree.resolved r))) = (sc', .ok ()) ∧
      Scene.allAtoms sc' = .ok as' ∧ Scene.allSpecies sc' = .ok ss' ∧
      List.Forall₂ (fun x y => x.2 = y.2 ∧ ∀ a ∈ surfaces (Tree.grainsOf ts), Spec.dist x.1 y.1 ≤ tolOf a / 2) (as.zip ss) (as'.zip ss') := by
  have eg : Tree.grainsOf (ts.map (Tree.resolved r)) = (Tree.grainsOf ts).map (Grain.resolved r) := by
    have := Tree.grains_resolved r (.multi ts 0)
    simpa only [Tree.resolved, Tree.grains, Tree.resolvedAll_eq] using this
  obtain ⟨sc, as, ss, h1, h2, h3, h4⟩ := C144_list A b ts hf hR hS
  obtain ⟨sc', as', ss', h1', h2', h3', h4'⟩ := C144_list A' b' (ts.map (Tree.resolved r))
    (fun x hx => by obtain ⟨t, ht, rfl⟩ := List.mem_map.mp hx; exact Tree.filled_resolved r t (hf t ht))
    (by rw [eg, surfaces_resolved]; exact hR) (by rw [eg]; exact hS')
  refine ⟨sc, as, ss, sc', as', ss', h1, h2, h3, h1', h2', h3', ?_⟩
  have e : (ts.map (Tree.resolved r)).map Tree.body = ts.map Tree.body := by
    rw [List.map_map]
    exact List.map_congr_left fun t ht => Tree.body_resolved r t fun g hg => g.body_resolved r (hB g (Tree.mem_grainsOf ht hg))
  rw [eg, surfaces_resolved, e] at h4'
  refine List.Forall₂.imp ?_ (forall₂_both h4 h4')
  rintro x y ⟨z, hx, hy⟩
  refine ⟨hx.1.trans hy.1.symm, fun s hs => ?_⟩
  have h3 := hx.2 s hs
  have h4 := hy.2 s hs
  rw [dist_eq] at h3 h4 ⊢
  have h5 := (norm3_neg (_ - _)).le.trans h4
  have h6 := (norm3_add_le _ _).trans (add_le_add h3 h5)
  refine le_trans (le_of_eq ?_) (h6.trans (by linarith))
  congr 1
  ext <;> simp

/-! ## Without any site being settled -/

theorem Tree.supply_ok (t : Tree) (hf : t.Filled) : ∃ as ss, (t.obj A).supply = .ok (as, ss) ∧ as.length = ss.length := by
  induction t using Tree.ind with
  | hg g => exact ⟨(fill A g.algs g.B g.o g.sites g.e g.es).map Prod.fst, (fill A g.algs g.B g.o g.sites g.e g.es).map Prod.snd,
      by simp only [Tree.obj, Grain.obj], by simp⟩
  | hm ts p ih =>
    simp only [Tree.Filled, Tree.allFilled_iff] at hf
    have hpop : Scene.Populatable (Tree.objs A ts) := by
      rw [Tree.objs_eq]
      intro o ho
      obtain ⟨t, htm, rfl⟩ := List.mem_map.mp ho
      exact ih t htm (hf.2 t htm)
    obtain ⟨sc, as, ss, h1, h2, h3, h4, -⟩ := Scene.C01_scene_contents ⟨some (Tree.objs A ts), none, ((0 : V3 ℝ), (0 : V3 ℝ))⟩ _ rfl hpop
    have hne : ¬ (Tree.objs A ts).length = 0 := by rw [Tree.objs_eq]; simpa using hf.1
    refine ⟨as, ss, ?_, h4⟩
    simp only [Tree.obj, merge, h1, if_neg hne, h2, h3]
    rfl

theorem trees_populatable (ts : List Tree) (hf : ∀ t ∈ ts, t.Filled) : Scene.Populatable (Tree.objs A ts) := by
  rw [Tree.objs_eq]
  intro o ho
  obtain ⟨t, htm, rfl⟩ := List.mem_map.mp ho
  exact t.supply_ok A (hf t htm)

theorem populateObjs_trees (ts : List Tree) (h1 : ∀ t ∈ ts, t.Filled → ∃ r, (t.obj A).supply = .ok r)
    (h2 : ∀ t ∈ ts, ¬ t.Filled → (t.obj A).supply = .error .value) (h : ∃ t ∈ ts, ¬ t.Filled) :
    (Scene.populateObjs (ts.map (Tree.obj A))).2 = .error .value := by
  induction ts with
  | nil => simp at h
  | cons t ts ih =>
    simp only [List.map_cons, Scene.populateObjs]
    by_cases hf : t.Filled
    · obtain ⟨r, hr⟩ := h1 t (by simp) hf
      rw [hr]
      refine ih (fun x hx => h1 x (by simp [hx])) (fun x hx => h2 x (by simp [hx])) ?_
      obtain ⟨x, hx, hn⟩ := h
      rcases List.mem_cons.mp hx with rfl | hx
      · exact absurd hf hn
      · exact ⟨x, hx, hn⟩
    · rw [h2 t (by simp) hf]

theorem populate_trees (b : V3 ℝ × V3 ℝ) (ts : List Tree) (h2 : ∀ t ∈ ts, ¬ t.Filled → (t.obj A).supply = .error .value)
    (h : ∃ t ∈ ts, ¬ t.Filled) : (Scene.populate (sceneOfTrees A b ts)).2 = .error .value := by
  have := populateObjs_trees A ts (fun t _ hf => by obtain ⟨as, ss, h, -⟩ := t.supply_ok A hf; exact ⟨_, h⟩) h2 h
  unfold sceneOfTrees Scene.populate
  rw [Tree.objs_eq]
  simp only
  generalize Scene.populateObjs (ts.map (Tree.obj A)) = x at this
  obtain ⟨l, e⟩ := x
  simp only at this
  subst this
  rfl

theorem Tree.supply_err (t : Tree) (hf : ¬ t.Filled) : (t.obj A).supply = .error .value := by
  induction t using Tree.ind with
  | hg g => simp [Tree.Filled] at hf
  | hm ts p ih =>
    simp only [Tree.Filled, Tree.allFilled_iff, not_and_or, not_not] at hf
    by_cases he : ts = []
    · subst he
      simp only [Tree.obj, Tree.objs]
      rfl
    · have hx : ∃ t ∈ ts, ¬ t.Filled := by
        rcases hf with hf | hf
        · exact absurd hf he
        · push Not at hf; exact hf
      have := populate_trees A (0, 0) ts ih hx
      unfold sceneOfTrees at this
      simp only [Tree.obj, merge]
      generalize Scene.populate (⟨some (Tree.objs A ts), none, (0, 0)⟩ : Scene (V3 ℝ) ℤ) = x at this
      obtain ⟨l, e⟩ := x
      simp only at this
      subst this
      rfl

/-- **C144 (empty).** `populate()` raises exactly when some MultiVolume, however deep, is empty, and then ValueError. -/
theorem C144_empty (b : V3 ℝ × V3 ℝ) (ts : List Tree) :
    ((∀ t ∈ ts, t.Filled) → (Scene.populate (sceneOfTrees A b ts)).2 = .ok ()) ∧
    (¬ (∀ t ∈ ts, t.Filled) → (Scene.populate (sceneOfTrees A b ts)).2 = .error .value) := by
  refine ⟨fun h => ?_, fun h => ?_⟩
  · obtain ⟨sc, as, ss, h1, -⟩ := Scene.C01_scene_contents (sceneOfTrees A b ts) _ rfl (trees_populatable A ts h)
    rw [h1]
  · push Not at h
    exact populate_trees A b ts (fun t _ => t.supply_err A) h

theorem Tree.has_interior (t : Tree) (hR : ∀ g ∈ t.grains, ∀ a ∈ g.algs, Ready a) (p q : V3 ℝ) (hp : t.Has p)
    (hT : ∀ g ∈ t.grains, ∀ a ∈ g.algs, Tolerant p a) (hq : ∀ g ∈ t.grains, ∀ a ∈ g.algs, Spec.dist q p ≤ tolOf a / 4) :
    t.interior A q = true := by
  induction t using Tree.ind with
  | hg g =>
    have hm : g ∈ (Tree.grain g).grains := by simp [Tree.grains]
    simp only [Tree.interior]
    simp only [Tree.Has] at hp
    exact g.has_interior A (hR g hm) p q hp (hT g hm) (hq g hm)
  | hm ts k ih =>
    simp only [Tree.Has, Tree.hasAny_iff] at hp
    obtain ⟨t, ht, hp⟩ := hp
    have hm {g : Grain} (hg : g ∈ t.grains) : g ∈ (Tree.multi ts k).grains := by simp only [Tree.grains]; exact Tree.mem_grainsOf ht hg
    simp only [Tree.interior, Tree.interiorAny_eq, List.any_eq_true]
    exact ⟨t, ht, ih t ht (fun g hg => hR g (hm hg)) hp (fun g hg => hT g (hm hg)) fun g hg => hq g (hm hg)⟩

theorem sortObjects_trees (ts : List Tree) :
    Scene.sortObjects (Tree.objs A ts) = (stableSort Tree.priority ts).map (Tree.obj A) := by
  unfold Scene.sortObjects
  rw [Tree.objs_eq, stableSort_map Tree.priority (·.priority) (Tree.obj A) ts (by intro x y; rw [Tree.obj_priority, Tree.obj_priority])]

/-- **C144 (ceded).** No row contributed by an object is near a point of another object of smaller or equal priority number, whatever the
priority numbers of the members inside: a MultiVolume keeps others out of all its members. -/
theorem C144_ceded (b : V3 ℝ × V3 ℝ) (ts : List Tree) (hf : ∀ t ∈ ts, t.Filled) (i j : ℕ) (t u : Tree)
    (hi : (stableSort Tree.priority ts)[i]? = some t) (hj : (stableSort Tree.priority ts)[j]? = some u) (hij : j ≠ i)
    (hle : u.priority ≤ t.priority) (hR : ∀ g ∈ u.grains, ∀ a ∈ g.algs, Ready a) (rows : List (V3 ℝ))
    (hrows : Scene.speciesFromObject (Scene.populate (sceneOfTrees A b ts)).1 i = .ok rows)
    (p : V3 ℝ) (hp : u.Has p) (hT : ∀ g ∈ u.grains, ∀ a ∈ g.algs, Tolerant p a) (q : V3 ℝ) (hq : q ∈ rows) :
    ∃ g ∈ u.grains, ∃ a ∈ g.algs, tolOf a / 4 < Spec.dist q p := by
  have key := (Scene.C01_atom_survives_iff (sceneOfTrees A b ts) _ rfl (trees_populatable A ts hf) i (t.obj A)
    (by rw [sortObjects_trees, List.getElem?_map, hi]; rfl) rows hrows q).mp hq
  have h1 := key.2 j (u.obj A) (by rw [sortObjects_trees, List.getElem?_map, hj]; rfl) hij
    (by rw [Tree.obj_priority, Tree.obj_priority]; exact hle)
  by_contra hc
  push Not at hc
  have h2 := u.has_interior A hR p q hp hT hc
  rw [Tree.obj_interior, h2] at h1
  cases h1

/-! ## The ball cut in two, nested -/

/-- The upper half in a MultiVolume of its own (priority 3) inside a MultiVolume with the lower half. -/
def exTree : Tree := .multi [.multi [.grain (exHalf 1 (-1) 8)] 3, .grain (exHalf 0 1 6)] 2

theorem exTree_grains : Tree.grainsOf [exTree] = exGrains := by simp [exTree, Tree.grainsOf, Tree.grains, exGrains]

theorem exTree_filled : ∀ t ∈ [exTree], t.Filled := by simp [exTree, Tree.Filled, Tree.AllFilled]

/-- The hypotheses of `C144_list` and `C144_same_atoms` hold for it. -/
example : ∃ sc as ss sc' as' ss', Scene.populate (sceneOfTrees binary64 (0, 0) [exTree]) = (sc, .ok ()) ∧ Scene.allAtoms sc = .ok as ∧
      Scene.allSpecies sc = .ok ss ∧
      Scene.populate (sceneOfTrees binary64Fma (0, 0) ([exTree].map (Tree.resolved fun g => (g.e, g.es)))) = (sc', .ok ()) ∧
      Scene.allAtoms sc' = .ok as' ∧ Scene.allSpecies sc' = .ok ss' ∧
      List.Forall₂ (fun x y => x.2 = y.2 ∧ ∀ a ∈ surfaces (Tree.grainsOf [exTree]), Spec.dist x.1 y.1 ≤ tolOf a / 2)
        (as.zip ss) (as'.zip ss') :=
  C144_same_atoms binary64 binary64Fma (0, 0) (0, 0) [exTree] exTree_filled (by rw [exTree_grains]; exact exGrains_ready)
    (fun g => (g.e, g.es))
    (by
      rw [exTree_grains]
      intro g hg
      simp only [exGrains, List.mem_cons, List.not_mem_nil, or_false] at hg
      rcases hg with rfl | rfl <;> exact exHalf_boxed _ _ _)
    (by rw [exTree_grains]; exact exGrains_settled) (by rw [exTree_grains]; exact exGrains_settled)

/-- An empty MultiVolume two levels down. -/
example : (Scene.populate (sceneOfTrees binary64 (0, 0) [exTree, .multi [.multi [] 0] 0])).2 = .error .value :=
  (C144_empty binary64 (0, 0) [exTree, .multi [.multi [] 0] 0]).2 (by simp [exTree, Tree.Filled, Tree.AllFilled])

/-- The lower half has priority number 0 in its MultiVolume (2), which gives way to an upper half with priority number 1: no row of the
MultiVolume is near the origin, a point of the common plane. -/
example (rows : List (V3 ℝ)) (h : Scene.speciesFromObject
      (Scene.populate (sceneOfTrees binary64 (0, 0) [.multi [.grain (exHalf 0 1 6)] 2, .grain (exHalf 1 (-1) 8)])).1 1 = .ok rows)
    (q : V3 ℝ) (hq : q ∈ rows) : ∃ g ∈ (Tree.grain (exHalf 1 (-1) 8)).grains, ∃ a ∈ g.algs, tolOf a / 4 < Spec.dist q 0 := by
  have h0 : siteAt (1 : M3 ℝ) 0 0 0 = 0 := by ext <;> simp [siteAt, cart, M3.one_def, M3.col0, M3.col1, M3.col2]
  have hs : (exHalf 1 (-1) 8).Site 0 (0, 8) := ⟨by rw [exHalf_extents, Gen.mem_cells]; simp, by simp [exHalf]⟩
  have hF := (exHalf_settled hs).1
  refine C144_ceded binary64 (0, 0) [.multi [.grain (exHalf 0 1 6)] 2, .grain (exHalf 1 (-1) 8)]
    (by simp [Tree.Filled, Tree.AllFilled]) 1 0 (.multi [.grain (exHalf 0 1 6)] 2) (.grain (exHalf 1 (-1) 8))
    (by simp [stableSort, insertByKey, Tree.priority, exHalf]) (by simp [stableSort, insertByKey, Tree.priority, exHalf]) (by norm_num)
    (by simp [Tree.priority, exHalf]) ?_ rows h 0 ?_ ?_ q hq
  · intro g hg a ha
    simp only [Tree.grains, List.mem_singleton] at hg
    subst hg
    exact exGrains_ready a (List.mem_flatMap.mpr ⟨_, by simp [exGrains], ha⟩)
  · simp only [Tree.Has]
    intro a ha
    simp only [exHalf, List.mem_cons, List.not_mem_nil, or_false] at ha
    rcases ha with rfl | rfl
    · show Spec.dist _ _ ≤ _
      simp only [exBall]
      rw [dist_eq]; simp [norm3, V3.normSq, V3.dot]; norm_num
    · show _ ≤ _
      simp
  · intro g hg a ha
    simp only [Tree.grains, List.mem_singleton] at hg
    subst hg
    have := (hF a (List.mem_flatMap.mpr ⟨_, by simp [exGrains], ha⟩)).1
    rw [show siteAt (exHalf 1 (-1) 8).B (exHalf 1 (-1) 8).o 0 ((0 : V3 ℝ), (8 : ℤ)).1 = 0 from h0] at this
    exact this

end
end Fl
end CZ
