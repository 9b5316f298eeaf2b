import Verif.RoundedScene
import Verif.Props.Rounded
import Verif.Props.Scene

/-!
# Property C140: grains that touch are resolved alike on every machine

C138 is about one body.  Here several bodies filled by crystals stand in one scene, and an atom on a common surface must be given to
the body with the smaller priority number, whatever the rounding.
-/

namespace CZ
namespace Fl
open Spec

noncomputable section

/-! ## Specification -/

/-- All surfaces of the scene. -/
def surfaces (gs : List Grain) : List Alg := gs.flatMap Grain.algs

/-- Point `p` is in the closed body. -/
def Grain.Has (g : Grain) (p : V3 ℝ) : Prop := ∀ a ∈ g.algs, Closed p a

/-- Point `p` is two tolerances beyond one of the surfaces. -/
def Grain.Misses (g : Grain) (p : V3 ℝ) : Prop := ∃ a ∈ g.algs, Beyond (2 * tolOf a) p a

/-- The body in exact arithmetic, tolerances left out: the sites of the crystal in the closed body. -/
def Grain.body (g : Grain) : Body (V3 ℝ) ℤ :=
  { priority := g.priority
    sites := inBody g.algs g.B g.o g.sites (extents g.e g.es).1 (extents g.e g.es).2
    inside := g.Has }

/-- `p` and `s` are position and species of a site of the block that is filled. -/
def Grain.Site (g : Grain) (n : V3 ℤ) (f : V3 ℝ × ℤ) : Prop :=
  n ∈ Gen.cells (extents g.e g.es).1 (extents g.e g.es).2 ∧ f ∈ g.sites

variable (A : Arith)

theorem Grain.has_interior (g : Grain) (hR : ∀ a ∈ g.algs, Ready a) (p q : V3 ℝ) (hp : g.Has p)
    (hT : ∀ a ∈ g.algs, Tolerant p a) (hq : ∀ a ∈ g.algs, Spec.dist q p ≤ tolOf a / 4) : g.interior A q = true := by
  unfold Grain.interior
  rw [List.all_eq_true]
  exact fun a ha => C138_on_surface A a (hR a ha) p q (hp a ha) (hT a ha) (hq a ha)

theorem Grain.misses_interior (g : Grain) (hR : ∀ a ∈ g.algs, Ready a) (p q : V3 ℝ) (hp : g.Misses p)
    (hT : ∀ a ∈ g.algs, Tolerant p a) (hq : ∀ a ∈ g.algs, Spec.dist q p ≤ tolOf a / 4) : g.interior A q = false := by
  obtain ⟨a, ha, hb⟩ := hp
  unfold Grain.interior
  rw [List.all_eq_false]
  exact ⟨a, ha, by rw [C138_beyond A a (hR a ha) p q hb (hT a ha) (hq a ha)]; simp⟩

theorem populatable (gs : List Grain) : Scene.Populatable (gs.map (Grain.obj A)) := by
  intro o ho
  obtain ⟨g, -, rfl⟩ := List.mem_map.mp ho
  exact ⟨_, _, rfl, by simp⟩

theorem obj_sites (g : Grain) : (Scene.given (g.obj A)).sites = fill A g.algs g.B g.o g.sites g.e g.es := by
  unfold Grain.obj Scene.given
  simp only
  generalize fill A g.algs g.B g.o g.sites g.e g.es = l
  induction l with
  | nil => rfl
  | cons a l ih => simp only [List.map_cons, List.zip_cons_cons, ih]

/-- The order of the scene. -/
def ordered (gs : List Grain) : List Grain := stableSort Grain.priority gs

theorem mem_ordered {gs : List Grain} {g : Grain} : g ∈ ordered gs ↔ g ∈ gs := mem_stableSort

theorem sortObjects_grains (gs : List Grain) : Scene.sortObjects (gs.map (Grain.obj A)) = (ordered gs).map (Grain.obj A) := by
  unfold Scene.sortObjects ordered
  rw [stableSort_map Grain.priority (·.priority) (Grain.obj A) gs (by intro x y; rfl)]

/-! ## One object -/

/-- **C140 (ceded).** No row contributed by a body is near a point of another body of smaller or equal priority number: whatever the
rounding, atoms on a common surface are not contributed by the body that has to give way. -/
theorem C140_ceded (b : V3 ℝ × V3 ℝ) (gs : List Grain) (i j : ℕ) (g h : Grain) (hi : (ordered gs)[i]? = some g)
    (hj : (ordered gs)[j]? = some h) (hij : j ≠ i) (hle : h.priority ≤ g.priority) (hR : ∀ a ∈ h.algs, Ready a)
    (rows : List (V3 ℝ)) (hrows : Scene.speciesFromObject (Scene.populate (sceneOf A b gs)).1 i = .ok rows)
    (p : V3 ℝ) (hp : h.Has p) (hT : ∀ a ∈ h.algs, Tolerant p a) (q : V3 ℝ) (hq : q ∈ rows) :
    ∃ a ∈ h.algs, tolOf a / 4 < Spec.dist q p := by
  have key := (Scene.C01_atom_survives_iff (sceneOf A b gs) _ rfl (populatable A gs) i (g.obj A)
    (by rw [sortObjects_grains, List.getElem?_map, hi]; rfl) rows hrows q).mp hq
  have h1 := key.2 j (h.obj A) (by rw [sortObjects_grains, List.getElem?_map, hj]; rfl) hij hle
  by_contra hc
  push Not at hc
  have h2 := h.has_interior A hR p q hp hT hc
  exact absurd (h1.symm.trans h2) (by simp)

/-- **C140 (kept).** A site in the closed body that is two tolerances away from every other body of smaller or equal priority number
is contributed. -/
theorem C140_kept (b : V3 ℝ × V3 ℝ) (gs : List Grain) (hR : ∀ a ∈ surfaces gs, Ready a) (i : ℕ) (g : Grain)
    (hi : (ordered gs)[i]? = some g) (rows : List (V3 ℝ))
    (hrows : Scene.speciesFromObject (Scene.populate (sceneOf A b gs)).1 i = .ok rows)
    (n : V3 ℤ) (f : V3 ℝ × ℤ) (hs : g.Site n f) (hF : Fine (surfaces gs) g.B g.o n f.1) (hp : g.Has (siteAt g.B g.o n f.1))
    (ho : ∀ j h, (ordered gs)[j]? = some h → j ≠ i → h.priority ≤ g.priority → h.Misses (siteAt g.B g.o n f.1)) :
    ∃ q ∈ rows, ∀ a ∈ surfaces gs, Spec.dist q (siteAt g.B g.o n f.1) ≤ tolOf a / 4 := by
  have hmem {j : ℕ} {h : Grain} (hj : (ordered gs)[j]? = some h) {a : Alg} (ha : a ∈ h.algs) : a ∈ surfaces gs :=
    List.mem_flatMap.mpr ⟨h, mem_ordered.mp (List.mem_of_getElem? hj), ha⟩
  refine ⟨site A g.B g.o (Gen.castV n) f.1, ?_, fun a ha => site_close A hF ha⟩
  refine (Scene.C01_atom_survives_iff (sceneOf A b gs) _ rfl (populatable A gs) i (g.obj A)
    (by rw [sortObjects_grains, List.getElem?_map, hi]; rfl) rows hrows _).mpr ⟨⟨(site A g.B g.o (Gen.castV n) f.1, f.2), ?_, rfl⟩, ?_⟩
  · rw [obj_sites]
    unfold fill
    refine List.mem_filter.mpr ⟨List.mem_flatMap.mpr ⟨n, hs.1, List.mem_map.mpr ⟨f, hs.2, rfl⟩⟩, ?_⟩
    exact g.has_interior A (fun a ha => hR a (hmem hi ha)) _ _ hp (fun a ha => (hF a (hmem hi ha)).1)
      fun a ha => site_close A hF (hmem hi ha)
  · intro j o' hj hne hle
    rw [sortObjects_grains, List.getElem?_map, Option.map_eq_some_iff] at hj
    obtain ⟨h, hj, rfl⟩ := hj
    exact h.misses_interior A (fun a ha => hR a (hmem hj ha)) _ _ (ho j h hj hne hle) (fun a ha => (hF a (hmem hj ha)).1)
      fun a ha => site_close A hF (hmem hj ha)

/-- **C140 (contents).** Every row contributed by a body is a site of its crystal, at its place up to a quarter of the tolerances, that
is not two tolerances beyond the body and not in any other body of smaller or equal priority number. -/
theorem C140_contents (b : V3 ℝ × V3 ℝ) (gs : List Grain) (hR : ∀ a ∈ surfaces gs, Ready a) (i : ℕ) (g : Grain)
    (hi : (ordered gs)[i]? = some g) (rows : List (V3 ℝ))
    (hrows : Scene.speciesFromObject (Scene.populate (sceneOf A b gs)).1 i = .ok rows)
    (hF : ∀ n f, g.Site n f → Fine (surfaces gs) g.B g.o n f.1) (q : V3 ℝ) (hq : q ∈ rows) :
    ∃ n f, g.Site n f ∧ (∀ a ∈ surfaces gs, Spec.dist q (siteAt g.B g.o n f.1) ≤ tolOf a / 4) ∧
      ¬ g.Misses (siteAt g.B g.o n f.1) ∧
      ∀ j h, (ordered gs)[j]? = some h → j ≠ i → h.priority ≤ g.priority → ¬ h.Has (siteAt g.B g.o n f.1) := by
  have hmem {j : ℕ} {h : Grain} (hj : (ordered gs)[j]? = some h) {a : Alg} (ha : a ∈ h.algs) : a ∈ surfaces gs :=
    List.mem_flatMap.mpr ⟨h, mem_ordered.mp (List.mem_of_getElem? hj), ha⟩
  have key := (Scene.C01_atom_survives_iff (sceneOf A b gs) _ rfl (populatable A gs) i (g.obj A)
    (by rw [sortObjects_grains, List.getElem?_map, hi]; rfl) rows hrows q).mp hq
  obtain ⟨⟨q', h1, rfl⟩, -⟩ := key
  rw [obj_sites] at h1
  obtain ⟨h2, h3⟩ := List.mem_filter.mp h1
  obtain ⟨n, hn, h4⟩ := List.mem_flatMap.mp h2
  obtain ⟨f, hf, rfl⟩ := List.mem_map.mp h4
  have hF := hF n f ⟨hn, hf⟩
  refine ⟨n, f, ⟨hn, hf⟩, fun a ha => site_close A hF ha, fun hm => ?_, fun j h hj hne hle hh => ?_⟩
  · have := g.misses_interior A (fun a ha => hR a (hmem hi ha)) _ _ hm (fun a ha => (hF a (hmem hi ha)).1)
      fun a ha => site_close A hF (hmem hi ha)
    unfold Grain.interior at this
    rw [this] at h3
    cases h3
  · obtain ⟨a, ha, hc⟩ := C140_ceded A b gs i j g h hi hj hne hle (fun a ha => hR a (hmem hj ha)) rows hrows _ hh
      (fun a ha => (hF a (hmem hj ha)).1) _ hq
    exact absurd (site_close A hF (hmem hj ha)) (not_le.mpr hc)

/-! ## The whole scene -/

/-- Contents of a scene, indexed by another list of the same length. -/
theorem contents_map {α : Type} (L : List α) (F : α → Body (V3 ℝ) ℤ) : open Classical in
    contents (L.map F) = (List.finRange L.length).flatMap fun i =>
      (F L[i]).sites.filter fun q => decide (∀ j : Fin L.length, j ≠ i → (F L[j]).priority ≤ (F L[i]).priority → ¬ (F L[j]).inside q.1) := by
  classical
  have hl : (L.map F).length = L.length := List.length_map _
  have e : ∀ n (h : (L.map F).length = n), contents (L.map F) = (List.finRange n).flatMap fun i => contributed (L.map F) (Fin.cast h.symm i) := by
    rintro _ rfl; rfl
  rw [e _ hl]
  congr 1
  funext i
  unfold contributed
  have hg : ∀ k : Fin L.length, (L.map F)[Fin.cast hl.symm k] = F L[k] := fun k => by simp
  rw [hg i]
  congr 1
  funext q
  rw [decide_eq_decide]
  unfold Survives
  constructor
  · intro h j hj hle
    have := h (Fin.cast hl.symm j) (fun hc => hj (Fin.cast_injective _ hc))
    rw [hg, hg] at this
    exact this hle
  · intro h j hj hle
    obtain ⟨k, rfl⟩ : ∃ k : Fin L.length, Fin.cast hl.symm k = j := ⟨Fin.cast hl j, rfl⟩
    rw [hg, hg] at hle
    rw [hg]
    exact h k (fun hc => hj (by rw [hc])) hle

/-- `q` is what is computed for the site `q'` of the block. -/
def Grain.From (g : Grain) (q q' : V3 ℝ × ℤ) : Prop :=
  ∃ n f, g.Site n f ∧ q = (site A g.B g.o (Gen.castV n) f.1, f.2) ∧ q' = (siteAt g.B g.o n f.1, f.2)

theorem fill_from (g : Grain) (hR : ∀ a ∈ g.algs, Ready a)
    (hF : ∀ n f, g.Site n f → Fine g.algs g.B g.o n f.1 ∧ Clear g.algs (siteAt g.B g.o n f.1)) :
    List.Forall₂ (g.From A) (fill A g.algs g.B g.o g.sites g.e g.es)
      (inBody g.algs g.B g.o g.sites (extents g.e g.es).1 (extents g.e g.es).2) := by
  classical
  unfold fill inBody
  rw [List.filter_flatMap]
  refine forall₂_flatMap _ _ _ fun n hn => ?_
  refine forall₂_filter _ _ _ _ _ (fun f hf => ⟨n, f, ⟨hn, hf⟩, rfl, rfl⟩) fun f hf => ?_
  obtain ⟨hF, hC⟩ := hF n f ⟨hn, hf⟩
  have yes (h : g.Has (siteAt g.B g.o n f.1)) : g.interior A (site A g.B g.o (Gen.castV n) f.1) = true :=
    g.has_interior A hR _ _ h (fun a ha => (hF a ha).1) fun a ha => site_close A hF ha
  rcases hC with hC | hC
  · rw [decide_eq_true hC]
    exact yes hC
  · have h1 := g.misses_interior A hR _ _ hC (fun a ha => (hF a ha).1) fun a ha => site_close A hF ha
    rw [decide_eq_false (fun h => by rw [yes h] at h1; cases h1)]
    exact h1

theorem forall₂_filter_rel {β γ : Type} {R : β → γ → Prop} {l : List β} {l' : List γ} (P : β → Bool) (Q : γ → Bool)
    (h : List.Forall₂ R l l') (H : ∀ a b, R a b → P a = Q b) : List.Forall₂ R (l.filter P) (l'.filter Q) := by
  induction h with
  | nil => exact .nil
  | cons hab _ ih =>
    rename_i a b _ _ _
    have h1 := H a b hab
    cases hP : P a with
    | false => rw [List.filter_cons_of_neg (by simp [hP]), List.filter_cons_of_neg (by rw [← h1]; simp [hP])]; exact ih
    | true =>
      rw [List.filter_cons_of_pos hP, List.filter_cons_of_pos (by rw [← h1]; exact hP)]
      exact .cons hab ih

/-- Every site of the blocks that are filled is settled: tolerances are not absurdly small for it, and with respect to every body of
the scene it is in the closed body or two tolerances beyond one of its surfaces. -/
def Settled (gs : List Grain) : Prop :=
  ∀ g ∈ gs, ∀ n f, g.Site n f → Fine (surfaces gs) g.B g.o n f.1 ∧ ∀ h ∈ gs, Clear h.algs (siteAt g.B g.o n f.1)

/-- **C140 (list).** When every site is settled, the atoms of the scene are one by one those of the exact bodies: sites of each
crystal in its closed body that are in no other closed body of smaller or equal priority number, body by body in the order of
priorities. -/
theorem C140_list (b : V3 ℝ × V3 ℝ) (gs : List Grain) (hR : ∀ a ∈ surfaces gs, Ready a) (hS : Settled gs) :
    ∃ sc as ss, Scene.populate (sceneOf A b gs) = (sc, .ok ()) ∧ Scene.allAtoms sc = .ok as ∧ Scene.allSpecies sc = .ok ss ∧
      List.Forall₂ (Same (surfaces gs)) (as.zip ss) (contents ((ordered gs).map Grain.body)) := by
  classical
  obtain ⟨sc, as, ss, h1, h2, h3, h4⟩ := Scene.C01_scene_contents_in_order (sceneOf A b gs) _ rfl (populatable A gs)
  refine ⟨sc, as, ss, h1, h2, h3, ?_⟩
  have e : stableSort (·.priority) ((gs.map (Grain.obj A)).map Scene.given) = (ordered gs).map fun g => Scene.given (g.obj A) := by
    unfold ordered
    rw [List.map_map, stableSort_map Grain.priority (·.priority) (fun g => Scene.given (g.obj A)) gs (by intro x y; rfl)]
    rfl
  rw [h4, e, contents_map, contents_map]
  refine forall₂_flatMap _ _ _ fun i _ => ?_
  have hgi : (ordered gs)[i] ∈ gs := mem_ordered.mp (List.getElem_mem _)
  have hsub {h : Grain} (hh : h ∈ gs) {a : Alg} (ha : a ∈ h.algs) : a ∈ surfaces gs := List.mem_flatMap.mpr ⟨h, hh, ha⟩
  generalize hg : (ordered gs)[i] = g at hgi ⊢
  have hfr := fill_from A g (fun a ha => hR a (hsub hgi ha)) fun n f hs =>
    ⟨fun a ha => (hS g hgi n f hs).1 a (hsub hgi ha), (hS g hgi n f hs).2 g hgi⟩
  rw [obj_sites]
  refine List.Forall₂.imp ?_ (forall₂_filter_rel (R := g.From A) _ _ hfr ?_)
  · rintro _ _ ⟨n, f, hs, rfl, rfl⟩
    exact ⟨rfl, fun a ha => site_close A (hS g hgi n f hs).1 ha⟩
  · rintro _ _ ⟨n, f, hs, rfl, rfl⟩
    rw [decide_eq_decide]
    refine forall_congr' fun j => forall_congr' fun _ => forall_congr' fun _ => not_congr ?_
    have hhj : (ordered gs)[j] ∈ gs := mem_ordered.mp (List.getElem_mem _)
    generalize (ordered gs)[j] = h at hhj ⊢
    obtain ⟨hF, hC⟩ := hS g hgi n f hs
    have yes (hh : h.Has (siteAt g.B g.o n f.1)) : h.interior A (site A g.B g.o (Gen.castV n) f.1) = true :=
      h.has_interior A (fun a ha => hR a (hsub hhj ha)) _ _ hh (fun a ha => (hF a (hsub hhj ha)).1) fun a ha => site_close A hF (hsub hhj ha)
    show h.interior A _ = true ↔ h.Has _
    refine ⟨fun hi => ?_, yes⟩
    rcases hC h hhj with hC | hC
    · exact hC
    · have := h.misses_interior A (fun a ha => hR a (hsub hhj ha)) _ _ hC (fun a ha => (hF a (hsub hhj ha)).1)
        fun a ha => site_close A hF (hsub hhj ha)
      rw [this] at hi
      cases hi

/-- The same body with other computed extents. -/
def Grain.resolved (r : Grain → V3 ℝ × List (V3 ℝ)) (g : Grain) : Grain := { g with e := (r g).1, es := (r g).2 }

theorem ordered_resolved (r : Grain → V3 ℝ × List (V3 ℝ)) (gs : List Grain) :
    ordered (gs.map (Grain.resolved r)) = (ordered gs).map (Grain.resolved r) := by
  unfold ordered
  rw [stableSort_map Grain.priority Grain.priority (Grain.resolved r) gs (by intro x y; rfl)]

theorem surfaces_resolved (r : Grain → V3 ℝ × List (V3 ℝ)) (gs : List Grain) : surfaces (gs.map (Grain.resolved r)) = surfaces gs := by
  unfold surfaces
  rw [List.flatMap_map]
  rfl

/-- The cells are invertible, the fractional coordinates leave room for the error of the extents, and these are accurate for a box that
holds the body. -/
def Grain.Boxed (g : Grain) (r : V3 ℝ × List (V3 ℝ)) : Prop :=
  g.B.det ≠ 0 ∧ ∃ (box : List (V3 ℝ)) (ε : ℝ), (∀ f ∈ g.sites, Within ε f.1) ∧ (∀ p, g.Has p → p ∈ Region box) ∧
    Accurate ε g.B g.o box (g.e :: g.es) ∧ Accurate ε g.B g.o box (r.1 :: r.2)

theorem forall₂_both {β γ δ : Type} {R : β → γ → Prop} {R' : δ → γ → Prop} {l : List β} {l' : List δ} {m : List γ}
    (h : List.Forall₂ R l m) (h' : List.Forall₂ R' l' m) : List.Forall₂ (fun a c => ∃ x, R a x ∧ R' c x) l l' := by
  induction h generalizing l' with
  | nil => cases h'; exact .nil
  | cons hab _ ih =>
    cases h' with
    | cons hcb htl => exact .cons ⟨_, hab, hcb⟩ (ih htl)

/-- **C140 (reproducible).** Two machines, with different roundings and different solvers of the extents, give the scene the same atoms
in the same order, up to half of the tolerances in position. -/
theorem C140_same_atoms (A' : Arith) (b b' : V3 ℝ × V3 ℝ) (gs : List Grain) (hR : ∀ a ∈ surfaces gs, Ready a)
    (r : Grain → V3 ℝ × List (V3 ℝ)) (hB : ∀ g ∈ gs, g.Boxed (r g)) (hS : Settled gs) (hS' : Settled (gs.map (Grain.resolved r))) :
    ∃ sc as ss sc' as' ss', Scene.populate (sceneOf A b gs) = (sc, .ok ()) ∧ Scene.allAtoms sc = .ok as ∧ Scene.allSpecies sc = .ok ss ∧
      Scene.populate (sceneOf A' b' (gs.map (Grain.resolved r))) = (sc', .ok ()) ∧ Scene.allAtoms sc' = .ok as' ∧
      Scene.allSpecies sc' = .ok ss' ∧
      List.Forall₂ (fun x y => x.2 = y.2 ∧ ∀ a ∈ surfaces gs, Spec.dist x.1 y.1 ≤ tolOf a / 2) (as.zip ss) (as'.zip ss') := by
  obtain ⟨sc, as, ss, h1, h2, h3, h4⟩ := C140_list A b gs hR hS
  obtain ⟨sc', as', ss', h1', h2', h3', h4'⟩ := C140_list A' b' (gs.map (Grain.resolved r)) (by rw [surfaces_resolved]; exact hR) hS'
  refine ⟨sc, as, ss, sc', as', ss', h1, h2, h3, h1', h2', h3', ?_⟩
  rw [surfaces_resolved, ordered_resolved, List.map_map] at h4'
  have e : (ordered gs).map (Grain.body ∘ Grain.resolved r) = (ordered gs).map Grain.body := by
    refine List.map_congr_left fun g hg => ?_
    obtain ⟨hd, box, ε, hw, hbox, hacc, hacc'⟩ := hB g (mem_ordered.mp hg)
    have := inBody_blocks g.algs g.B hd g.o g.sites box ε hw hbox _ _ _ _ hacc hacc'
    show Body.mk _ _ _ = Body.mk _ _ _
    rw [this]
    rfl
  rw [e] at h4'
  refine List.Forall₂.imp ?_ (forall₂_both h4 h4')
  rintro x y ⟨z, hx, hy⟩
  refine ⟨hx.1.trans hy.1.symm, fun s hs => ?_⟩
  have h3 := hx.2 s hs
  have h4 := hy.2 s hs
  rw [dist_eq] at h3 h4 ⊢
  have h5 := (norm3_neg (_ - _)).le.trans h4
  have h6 := (norm3_add_le _ _).trans (add_le_add h3 h5)
  refine le_trans (le_of_eq ?_) (h6.trans (by linarith))
  congr 1
  ext <;> simp

/-! ## A common surface -/

/-- **C140 (interface).** A site of the crystal of `g` that lies on the surface common to `g` and `h` (or anywhere in both): if `g` has the
smaller priority number and no third body interferes, `g` contributes it and `h` contributes nothing there; if the priority numbers
are equal, neither does, on any machine. -/
theorem C140_interface (b : V3 ℝ × V3 ℝ) (gs : List Grain) (hR : ∀ a ∈ surfaces gs, Ready a) (i j : ℕ) (g h : Grain)
    (hi : (ordered gs)[i]? = some g) (hj : (ordered gs)[j]? = some h) (hij : i ≠ j) (ri rj : List (V3 ℝ))
    (hri : Scene.speciesFromObject (Scene.populate (sceneOf A b gs)).1 i = .ok ri)
    (hrj : Scene.speciesFromObject (Scene.populate (sceneOf A b gs)).1 j = .ok rj)
    (n : V3 ℤ) (f : V3 ℝ × ℤ) (hs : g.Site n f) (hF : Fine (surfaces gs) g.B g.o n f.1)
    (hg : g.Has (siteAt g.B g.o n f.1)) (hh : h.Has (siteAt g.B g.o n f.1)) :
    (g.priority < h.priority →
      (∀ k t, (ordered gs)[k]? = some t → k ≠ i → k ≠ j → t.priority ≤ g.priority → t.Misses (siteAt g.B g.o n f.1)) →
      (∃ q ∈ ri, ∀ a ∈ surfaces gs, Spec.dist q (siteAt g.B g.o n f.1) ≤ tolOf a / 4) ∧
      ∀ q ∈ rj, ∃ a ∈ g.algs, tolOf a / 4 < Spec.dist q (siteAt g.B g.o n f.1)) ∧
    (g.priority = h.priority →
      (∀ q ∈ ri, ∃ a ∈ h.algs, tolOf a / 4 < Spec.dist q (siteAt g.B g.o n f.1)) ∧
      ∀ q ∈ rj, ∃ a ∈ g.algs, tolOf a / 4 < Spec.dist q (siteAt g.B g.o n f.1)) := by
  have hmem {j : ℕ} {h : Grain} (hj : (ordered gs)[j]? = some h) {a : Alg} (ha : a ∈ h.algs) : a ∈ surfaces gs :=
    List.mem_flatMap.mpr ⟨h, mem_ordered.mp (List.mem_of_getElem? hj), ha⟩
  refine ⟨fun hlt ho => ⟨?_, fun q hq => ?_⟩, fun heq => ⟨fun q hq => ?_, fun q hq => ?_⟩⟩
  · refine C140_kept A b gs hR i g hi ri hri n f hs hF hg fun k t hk hki hle => ?_
    refine ho k t hk hki (fun hc => ?_) hle
    rw [hc, hj] at hk
    obtain rfl := Option.some.inj hk
    omega
  · exact C140_ceded A b gs j i h g hj hi hij hlt.le (fun a ha => hR a (hmem hi ha)) rj hrj _ hg (fun a ha => (hF a (hmem hi ha)).1) q hq
  · exact C140_ceded A b gs i j g h hi hj hij.symm heq.ge (fun a ha => hR a (hmem hj ha)) ri hri _ hh (fun a ha => (hF a (hmem hj ha)).1) q hq
  · exact C140_ceded A b gs j i h g hj hi hij heq.le (fun a ha => hR a (hmem hi ha)) rj hrj _ hg (fun a ha => (hF a (hmem hi ha)).1) q hq

/-! ## A ball cut in two -/

/-- A ball of radius 3/2 about the origin. -/
def exBall : Sphere := ⟨3 / 2, 0, 1 / 10 ^ 5⟩
/-- The half of it below (`c = 1`) or above (`c = -1`) the plane z = 0, filled by a simple cubic crystal. -/
def exHalf (k : ℤ) (c : ℝ) (s : ℤ) : Grain :=
  ⟨k, [.sphere exBall, .plane ⟨⟨0, 0, c⟩, 0, 1 / 10 ^ 5⟩], 1, 0, [(0, s)], (Vol.sphereBox exBall).headD 0, (Vol.sphereBox exBall).tail⟩
/-- Two grains that share the plane. -/
def exGrains : List Grain := [exHalf 1 (-1) 8, exHalf 0 1 6]

theorem exHalf_extents (k : ℤ) (c : ℝ) (s : ℤ) : extents (exHalf k c s).e (exHalf k c s).es = (⟨-2, -2, -2⟩, ⟨2, 2, 2⟩) := by
  have f1 : ⌊(-3 / 2 : ℝ)⌋ = -2 := by rw [Int.floor_eq_iff]; norm_num
  have c1 : ⌈(3 / 2 : ℝ)⌉ = 2 := by rw [Int.ceil_eq_iff]; norm_num
  have mn : Voxel.minV ((Vol.sphereBox exBall).headD 0) (Vol.sphereBox exBall).tail = ⟨-3 / 2, -3 / 2, -3 / 2⟩ := by
    ext <;> norm_num [Voxel.minV, Voxel.minL, Vol.sphereBox, Vol.rectPrism, exBall]
  have mx : Voxel.maxV ((Vol.sphereBox exBall).headD 0) (Vol.sphereBox exBall).tail = ⟨3 / 2, 3 / 2, 3 / 2⟩ := by
    ext <;> norm_num [Voxel.maxV, Voxel.maxL, Vol.sphereBox, Vol.rectPrism, exBall]
  unfold extents
  simp only [exHalf, mn, mx, f1, c1]

theorem exHalf_boxed (k : ℤ) (c : ℝ) (s : ℤ) : (exHalf k c s).Boxed ((exHalf k c s).e, (exHalf k c s).es) := by
  have hbx : (exHalf k c s).e :: (exHalf k c s).es = Vol.sphereBox exBall := by simp [exHalf, Vol.sphereBox, Vol.rectPrism]
  have hacc : Accurate 0 1 0 (Vol.sphereBox exBall) ((exHalf k c s).e :: (exHalf k c s).es) := by
    rw [hbx]
    unfold Accurate
    rw [List.forall₂_same]
    intro p _
    exact ⟨p, by ext <;> simp [cart, M3.one_def, M3.col0, M3.col1, M3.col2], by simp⟩
  refine ⟨by show (1 : M3 ℝ).det ≠ 0; rw [M3.det_one]; norm_num, Vol.sphereBox exBall, 0, ?_, fun p h => ?_, hacc, hacc⟩
  · simp [exHalf, Within]
  · exact ball_in_box exBall (by norm_num [exBall]) p (h (.sphere exBall) (by simp [exHalf]))

theorem exHalf_clear (n : V3 ℤ) (d : ℝ) (hd : d = 1 ∨ d = -1) :
    Clear [.sphere exBall, .plane ⟨⟨0, 0, d⟩, 0, 1 / 10 ^ 5⟩] (siteAt 1 0 n 0) := by
  have e0 : siteAt (1 : M3 ℝ) 0 n 0 = ⟨n.x, n.y, n.z⟩ := by
    ext <;> simp [siteAt, cart, M3.one_def, M3.col0, M3.col1, M3.col2]
  have hdist : Spec.dist (siteAt (1 : M3 ℝ) 0 n 0) 0 = Real.sqrt ((n.x ^ 2 + n.y ^ 2 + n.z ^ 2 : ℤ) : ℝ) := by
    rw [e0]; unfold Spec.dist; simp
  by_cases h : n.x ^ 2 + n.y ^ 2 + n.z ^ 2 ≤ 2
  · have hc : Closed (siteAt 1 0 n 0) (.sphere exBall) := by
      show Spec.dist _ _ ≤ _
      simp only [exBall]
      rw [hdist, Real.sqrt_le_left (by norm_num)]
      have : ((n.x ^ 2 + n.y ^ 2 + n.z ^ 2 : ℤ) : ℝ) ≤ 2 := by exact_mod_cast h
      norm_num at this ⊢
      linarith
    have hz : (n.z : ℝ) * d ≤ 0 ∨ 1 ≤ (n.z : ℝ) * d := by
      rcases hd with rfl | rfl
      · rw [mul_one]
        rcases le_or_gt n.z 0 with h | h
        · left; exact_mod_cast h
        · right; exact_mod_cast (by omega : (1 : ℤ) ≤ n.z)
      · rcases le_or_gt 0 n.z with h | h
        · left; have : (0 : ℝ) ≤ n.z := by exact_mod_cast h
          linarith
        · right; have : (n.z : ℝ) ≤ -1 := by exact_mod_cast (by omega : n.z ≤ -1)
          linarith
    rcases hz with hz | hz
    · left
      intro a ha
      simp only [List.mem_cons, List.not_mem_nil, or_false] at ha
      rcases ha with rfl | rfl
      · exact hc
      · show _ ≤ _
        rw [e0]; simpa using hz
    · right
      refine ⟨.plane ⟨⟨0, 0, d⟩, 0, 1 / 10 ^ 5⟩, by simp, ?_⟩
      show _ ≤ _
      rw [e0]
      simp only [tolOf, V3.zero_x, V3.zero_y, V3.zero_z]
      norm_num
      linarith
  · right
    refine ⟨.sphere exBall, by simp, ?_⟩
    show _ ≤ Spec.dist _ _
    simp only [exBall]
    rw [hdist]
    apply Real.le_sqrt_of_sq_le
    have : (3 : ℝ) ≤ ((n.x ^ 2 + n.y ^ 2 + n.z ^ 2 : ℤ) : ℝ) := by
      have : (3 : ℤ) ≤ n.x ^ 2 + n.y ^ 2 + n.z ^ 2 := by omega
      exact_mod_cast this
    simp only [tolOf]
    norm_num at this ⊢
    linarith

theorem exHalf_settled {k : ℤ} {c : ℝ} {s : ℤ} {n : V3 ℤ} {f : V3 ℝ × ℤ} (hs : (exHalf k c s).Site n f) :
    Fine (surfaces exGrains) (exHalf k c s).B (exHalf k c s).o n f.1 ∧
    ∀ h ∈ exGrains, Clear h.algs (siteAt (exHalf k c s).B (exHalf k c s).o n f.1) := by
  obtain ⟨hn, hf⟩ := hs
  rw [exHalf_extents, Gen.mem_cells] at hn
  simp only at hn
  obtain rfl := List.mem_singleton.mp hf
  show Fine (surfaces exGrains) 1 0 n 0 ∧ ∀ h ∈ exGrains, Clear h.algs (siteAt 1 0 n 0)
  have h480 : (1 / 2 : ℝ) ^ 480 ≤ 1 / 10 ^ 5 := by
    have := half_pow_le (show 20 ≤ 480 by norm_num)
    refine this.trans ?_
    norm_num
  have e0 : siteAt (1 : M3 ℝ) 0 n 0 = ⟨n.x, n.y, n.z⟩ := by
    ext <;> simp [siteAt, cart, M3.one_def, M3.col0, M3.col1, M3.col2]
  have lr : len (1 : M3 ℝ).row0 = 1 ∧ len (1 : M3 ℝ).row1 = 1 ∧ len (1 : M3 ℝ).row2 = 1 := by
    refine ⟨?_, ?_, ?_⟩ <;> simp [len, M3.one_def, M3.row0, M3.row1, M3.row2]
  have l0 : len (0 : V3 ℝ) = 0 := by simp [len]
  have l1 : len (⟨n.x, n.y, n.z⟩ : V3 ℝ) ≤ 4 := by
    unfold len
    rw [Real.sqrt_le_left (by norm_num)]
    have hx : (n.x : ℝ) ^ 2 ≤ 4 := by have : n.x ^ 2 ≤ 4 := by nlinarith
                                      exact_mod_cast this
    have hy : (n.y : ℝ) ^ 2 ≤ 4 := by have : n.y ^ 2 ≤ 4 := by nlinarith
                                      exact_mod_cast this
    have hz : (n.z : ℝ) ^ 2 ≤ 4 := by have : n.z ^ 2 ≤ 4 := by nlinarith
                                      exact_mod_cast this
    simp only
    linarith
  have hreach : reach (1 : M3 ℝ) 0 (Gen.castV n) 0 ≤ 12 := by
    unfold reach
    rw [l0, lr.1, lr.2.1, lr.2.2]
    have : len (Gen.castV (K := ℝ) n) ≤ 4 := l1
    linarith
  constructor
  · intro a ha
    have ha' : a = .sphere exBall ∨ ∃ c : ℝ, a = .plane ⟨⟨0, 0, c⟩, 0, 1 / 10 ^ 5⟩ := by
      simp only [surfaces, exGrains, exHalf, List.flatMap_cons, List.flatMap_nil, List.mem_append, List.mem_cons, List.not_mem_nil, or_false] at ha
      rcases ha with (rfl | rfl) | rfl | rfl
      · exact Or.inl rfl
      · exact Or.inr ⟨_, rfl⟩
      · exact Or.inl rfl
      · exact Or.inr ⟨_, rfl⟩
    rcases ha' with rfl | ⟨d, rfl⟩
    · refine ⟨⟨by simp only [size, tolOf, exBall]; norm_num, h480⟩, ?_⟩
      simp only [tolOf, exBall]
      norm_num
      linarith
    · refine ⟨⟨?_, h480⟩, ?_⟩
      · simp only [size, tolOf]
        rw [e0, l0]
        norm_num
        linarith
      · simp only [tolOf]
        norm_num
        linarith
  · intro h hh
    simp only [exGrains, List.mem_cons, List.not_mem_nil, or_false] at hh
    rcases hh with rfl | rfl
    · exact exHalf_clear n (-1) (Or.inr rfl)
    · exact exHalf_clear n 1 (Or.inl rfl)

theorem exGrains_settled : Settled exGrains := by
  intro g hg n f hs
  simp only [exGrains, List.mem_cons, List.not_mem_nil, or_false] at hg
  rcases hg with rfl | rfl <;> exact exHalf_settled hs

theorem exGrains_ready : ∀ a ∈ surfaces exGrains, Ready a := by
  intro a ha
  simp only [surfaces, exGrains, exHalf, List.flatMap_cons, List.flatMap_nil, List.mem_append, List.mem_cons, List.not_mem_nil, or_false] at ha
  rcases ha with (rfl | rfl) | rfl | rfl <;> simp [Ready, exBall, len]

/-- The hypotheses of `C140_list` and `C140_same_atoms` hold for the ball cut in two. -/
example : ∃ sc as ss sc' as' ss', Scene.populate (sceneOf binary64 (0, 0) exGrains) = (sc, .ok ()) ∧ Scene.allAtoms sc = .ok as ∧
      Scene.allSpecies sc = .ok ss ∧
      Scene.populate (sceneOf binary64Fma (0, 0) (exGrains.map (Grain.resolved fun g => (g.e, g.es)))) = (sc', .ok ()) ∧
      Scene.allAtoms sc' = .ok as' ∧ Scene.allSpecies sc' = .ok ss' ∧
      List.Forall₂ (fun x y => x.2 = y.2 ∧ ∀ a ∈ surfaces exGrains, Spec.dist x.1 y.1 ≤ tolOf a / 2) (as.zip ss) (as'.zip ss') :=
  C140_same_atoms binary64 binary64Fma (0, 0) (0, 0) exGrains exGrains_ready (fun g => (g.e, g.es))
    (by
      intro g hg
      simp only [exGrains, List.mem_cons, List.not_mem_nil, or_false] at hg
      rcases hg with rfl | rfl <;> exact exHalf_boxed _ _ _)
    exGrains_settled exGrains_settled

/-- The atom at the origin lies on the common plane: the hypotheses of `C140_interface` hold for it, and it is contributed by the lower
half, which has priority 0. -/
example (ri rj : List (V3 ℝ)) (hri : Scene.speciesFromObject (Scene.populate (sceneOf binary64 (0, 0) exGrains)).1 0 = .ok ri)
    (hrj : Scene.speciesFromObject (Scene.populate (sceneOf binary64 (0, 0) exGrains)).1 1 = .ok rj) :
    (∃ q ∈ ri, ∀ a ∈ surfaces exGrains, Spec.dist q (siteAt 1 0 0 0) ≤ tolOf a / 4) ∧
    ∀ q ∈ rj, ∃ a ∈ (exHalf 0 1 6).algs, tolOf a / 4 < Spec.dist q (siteAt 1 0 0 0) := by
  have hs : (exHalf 0 1 6).Site 0 (0, 6) := ⟨by rw [exHalf_extents, Gen.mem_cells]; simp, by simp [exHalf]⟩
  have h0 : siteAt (1 : M3 ℝ) 0 0 0 = 0 := by ext <;> simp [siteAt, cart, M3.one_def, M3.col0, M3.col1, M3.col2]
  have has (k : ℤ) (c : ℝ) (s : ℤ) : (exHalf k c s).Has (siteAt (1 : M3 ℝ) 0 0 0) := by
    rw [h0]
    intro a ha
    simp only [exHalf, List.mem_cons, List.not_mem_nil, or_false] at ha
    rcases ha with rfl | rfl
    · show Spec.dist _ _ ≤ _
      simp only [exBall]
      rw [dist_eq]; simp [norm3, V3.normSq, V3.dot]; norm_num
    · show _ ≤ _
      simp
  have ho : ordered exGrains = [exHalf 0 1 6, exHalf 1 (-1) 8] := by
    simp [ordered, exGrains, stableSort, insertByKey, exHalf]
  refine (C140_interface binary64 (0, 0) exGrains exGrains_ready 0 1 (exHalf 0 1 6) (exHalf 1 (-1) 8) (by rw [ho]; rfl) (by rw [ho]; rfl)
    (by norm_num) ri rj hri hrj 0 (0, 6) hs (exHalf_settled hs).1 (has _ _ _) (has _ _ _)).1 (by show (0 : ℤ) < 1; norm_num) ?_
  intro k t hk h1 h2
  rw [ho] at hk
  match k with
  | 0 => exact absurd rfl h1
  | 1 => exact absurd rfl h2
  | k + 2 => simp at hk

end
end Fl
end CZ
