import Verif.RoundedMultiMotion
import Verif.Props.RoundedMulti
import Verif.Props.RoundedMoved

/-!
# Property C145: scenes of nested MultiVolumes moved as a whole
-/

namespace CZ
namespace Fl
open Spec

noncomputable section

variable (A : Arith)

/-! ## Trees with other leaves -/

mutual
/-- The leaves replaced. -/
def Tree.mapG (m : Grain → Grain) : Tree → Tree
  | .grain g => .grain (m g)
  | .multi ts p => .multi (Tree.mapGs m ts) p
/-- The members. -/
def Tree.mapGs (m : Grain → Grain) : List Tree → List Tree
  | [] => []
  | t :: ts => t.mapG m :: Tree.mapGs m ts
end

theorem Tree.mapGs_eq (m : Grain → Grain) (ts : List Tree) : Tree.mapGs m ts = ts.map (Tree.mapG m) := by
  induction ts with
  | nil => simp [Tree.mapGs]
  | cons t ts ih => simp [Tree.mapGs, ih]

theorem Tree.mapG_priority {m : Grain → Grain} (hp : ∀ g, (m g).priority = g.priority) (t : Tree) :
    (t.mapG m).priority = t.priority := by
  cases t <;> simp [Tree.mapG, Tree.priority, hp]

theorem Tree.mapG_interior {m : Grain → Grain} {gs : List Grain} {q q' : V3 ℝ × ℤ}
    (hI : ∀ g ∈ gs, (m g).interior A q.1 = true ↔ g.Has q'.1) (t : Tree) (ht : ∀ g ∈ t.grains, g ∈ gs) :
    (t.mapG m).interior A q.1 = true ↔ t.Has q'.1 := by
  induction t using Tree.ind with
  | hg h =>
    simp only [Tree.mapG, Tree.interior, Tree.Has]
    exact hI h (ht h (by simp [Tree.grains]))
  | hm ts p ih =>
    simp only [Tree.mapG, Tree.interior, Tree.Has, Tree.mapGs_eq]
    rw [Tree.interiorAny_eq, Tree.hasAny_iff, List.any_eq_true]
    have ih' : ∀ t ∈ ts, (t.mapG m).interior A q.1 = true ↔ t.Has q'.1 := fun t hmem => ih t hmem fun g hg => ht g (by
      simp only [Tree.grains]
      exact Tree.mem_grainsOf hmem hg)
    constructor
    · rintro ⟨x, hx, h⟩
      obtain ⟨t, hmem, rfl⟩ := List.mem_map.mp hx
      exact ⟨t, hmem, (ih' t hmem).mp h⟩
    · rintro ⟨t, hmem, h⟩
      exact ⟨_, List.mem_map.mpr ⟨t, hmem, rfl⟩, (ih' t hmem).mpr h⟩

/-- What an object with new leaves supplies: as many species as positions, one by one related to the sites of the exact body. -/
def Tree.Yields (m : Grain → Grain) (Q : V3 ℝ × ℤ → V3 ℝ × ℤ → Prop) (t : Tree) : Prop :=
  ∃ as ss, ((t.mapG m).obj A).supply = .ok (as, ss) ∧ as.length = ss.length ∧ List.Forall₂ Q (as.zip ss) t.body.sites

theorem Tree.yields_level {m : Grain → Grain} (hp : ∀ g, (m g).priority = g.priority) {Q : V3 ℝ × ℤ → V3 ℝ × ℤ → Prop} {gs : List Grain}
    (hI : ∀ q q', Q q q' → ∀ g ∈ gs, (m g).interior A q.1 = true ↔ g.Has q'.1) (b : V3 ℝ × V3 ℝ) (ts : List Tree)
    (ht : ∀ t ∈ ts, ∀ g ∈ t.grains, g ∈ gs) (hs : ∀ t ∈ ts, t.Yields A m Q) :
    ∃ sc as ss, Scene.populate (sceneOfTrees A b (ts.map (Tree.mapG m))) = (sc, .ok ()) ∧ Scene.allAtoms sc = .ok as ∧
      Scene.allSpecies sc = .ok ss ∧ as.length = ss.length ∧
      List.Forall₂ Q (as.zip ss) (contents (stableSort (·.priority) (ts.map Tree.body))) := by
  classical
  have hpop : Scene.Populatable (Tree.objs A (ts.map (Tree.mapG m))) := by
    rw [Tree.objs_eq]
    intro o ho
    obtain ⟨x, hx, rfl⟩ := List.mem_map.mp ho
    obtain ⟨t, htm, rfl⟩ := List.mem_map.mp hx
    obtain ⟨as, ss, h1, h2, -⟩ := hs t htm
    exact ⟨as, ss, h1, h2⟩
  obtain ⟨sc, as, ss, h1, h2, h3, h4⟩ := Scene.C01_scene_contents_in_order (sceneOfTrees A b (ts.map (Tree.mapG m))) _ rfl hpop
  obtain ⟨sc', as', ss', h1', h2', h3', h5, -⟩ := Scene.C01_scene_contents (sceneOfTrees A b (ts.map (Tree.mapG m))) _ rfl hpop
  rw [h1] at h1'
  obtain rfl : sc = sc' := congrArg Prod.fst h1'
  rw [h2] at h2'
  rw [h3] at h3'
  cases h2'
  cases h3'
  refine ⟨sc, as, ss, h1, h2, h3, h5, ?_⟩
  have e : stableSort (·.priority) ((Tree.objs A (ts.map (Tree.mapG m))).map Scene.given) =
      (stableSort Tree.priority ts).map fun t => Scene.given ((t.mapG m).obj A) := by
    rw [Tree.objs_eq, List.map_map, List.map_map, stableSort_map Tree.priority (·.priority) (fun t => Scene.given ((t.mapG m).obj A)) ts
      (by intro x y; rw [← Tree.mapG_priority hp x, ← Tree.mapG_priority hp y, ← Tree.obj_priority A, ← Tree.obj_priority A]; rfl)]
    rfl
  have e' : stableSort (·.priority) (ts.map Tree.body) = (stableSort Tree.priority ts).map Tree.body := by
    rw [stableSort_map Tree.priority (·.priority) Tree.body ts (by intro x y; rw [Tree.body_priority, Tree.body_priority])]
  rw [h4, e, e', contents_map, contents_map]
  refine forall₂_flatMap _ _ _ fun i _ => ?_
  have hgi : (stableSort Tree.priority ts)[i] ∈ ts := mem_stableSort.mp (List.getElem_mem _)
  generalize (stableSort Tree.priority ts)[i] = t at hgi ⊢
  obtain ⟨as', ss', g1, -, g3⟩ := hs t hgi
  have gs' : (Scene.given ((t.mapG m).obj A)).sites = as'.zip ss' := by simp only [Scene.given, g1]
  rw [gs']
  refine forall₂_filter_rel _ _ g3 fun q q' hq => ?_
  rw [decide_eq_decide]
  refine forall_congr' fun j => forall_congr' fun _ => ?_
  have hhj : (stableSort Tree.priority ts)[j] ∈ ts := mem_stableSort.mp (List.getElem_mem _)
  generalize (stableSort Tree.priority ts)[j] = u at hhj ⊢
  have p1 : ∀ x : Tree, (Scene.given ((x.mapG m).obj A)).priority = x.body.priority := fun x => by
    rw [Tree.body_priority, ← Tree.mapG_priority hp, ← Tree.obj_priority A]; rfl
  rw [p1, p1]
  refine forall_congr' fun _ => not_congr ?_
  rw [Tree.body_inside, ← Tree.mapG_interior A (hI q q' hq) u (ht u hhj), ← Tree.obj_interior]
  rfl

theorem Tree.yields {m : Grain → Grain} (hp : ∀ g, (m g).priority = g.priority) {Q : V3 ℝ × ℤ → V3 ℝ × ℤ → Prop} {gs : List Grain}
    (hI : ∀ q q', Q q q' → ∀ g ∈ gs, (m g).interior A q.1 = true ↔ g.Has q'.1)
    (hG : ∀ g ∈ gs, List.Forall₂ Q (fill A (m g).algs (m g).B (m g).o (m g).sites (m g).e (m g).es) g.body.sites)
    (t : Tree) (ht : ∀ g ∈ t.grains, g ∈ gs) (hf : t.Filled) : t.Yields A m Q := by
  induction t using Tree.ind with
  | hg g =>
    have hgi : g ∈ gs := ht g (by simp [Tree.grains])
    have hfr := hG g hgi
    have := obj_sites A (m g)
    simp only [Scene.given, Grain.obj] at this
    rw [← this] at hfr
    exact ⟨_, _, by simp only [Tree.mapG, Tree.obj, Grain.obj]; rfl, by simp, by simp only [Tree.body]; exact hfr⟩
  | hm ts p ih =>
    simp only [Tree.Filled, Tree.allFilled_iff] at hf
    have ht' : ∀ t ∈ ts, ∀ g ∈ t.grains, g ∈ gs := fun t hm g hg => ht g (by simp only [Tree.grains]; exact Tree.mem_grainsOf hm hg)
    obtain ⟨sc, as, ss, h1, h2, h3, h4, h5⟩ := Tree.yields_level A hp hI (0, 0) ts ht' fun t hm => ih t hm (ht' t hm) (hf.2 t hm)
    refine ⟨as, ss, ?_, h4, ?_⟩
    · have hne : ¬ (Tree.objs A (ts.map (Tree.mapG m))).length = 0 := by rw [Tree.objs_eq]; simpa using hf.1
      unfold sceneOfTrees at h1
      simp only [Tree.mapG, Tree.mapGs_eq, Tree.obj, merge, h1, if_neg hne, h2, h3]
      rfl
    · simp only [Tree.body, Tree.bodies_eq]
      exact h5

/-! ## Moves -/

theorem Tree.move_eq {ms : List Move} {x : Grain → V3 ℝ × List (V3 ℝ)} {m : Grain → Grain} (t : Tree)
    (h : ∀ g ∈ t.grains, g.move A ms (x g) = .ok (m g)) : t.move A ms x = .ok (t.mapG m) := by
  induction t using Tree.ind with
  | hg g => simp only [Tree.move, Tree.mapG, h g (by simp [Tree.grains])]
  | hm ts p ih =>
    have key : ∀ l : List Tree, (∀ t ∈ l, t.move A ms x = .ok (t.mapG m)) → Tree.moveAll A ms x l = .ok (l.map (Tree.mapG m)) := by
      intro l hl
      induction l with
      | nil => simp [Tree.moveAll]
      | cons t l ih =>
        rw [Tree.moveAll, hl t (by simp), ih fun u hu => hl u (by simp [hu])]
        rfl
    simp only [Tree.move, Tree.mapG, Tree.mapGs_eq]
    rw [key ts fun t ht => ih t ht fun g hg => h g (by simp only [Tree.grains]; exact Tree.mem_grainsOf ht hg)]

theorem Tree.moveAll_eq {ms : List Move} {x : Grain → V3 ℝ × List (V3 ℝ)} {m : Grain → Grain} (ts : List Tree)
    (h : ∀ g ∈ Tree.grainsOf ts, g.move A ms (x g) = .ok (m g)) : Tree.moveAll A ms x ts = .ok (ts.map (Tree.mapG m)) := by
  have := Tree.move_eq A (x := x) (m := m) (ms := ms) (.multi ts 0) (by simp only [Tree.grains]; exact h)
  simp only [Tree.move, Tree.mapG, Tree.mapGs_eq] at this
  split at this
  · rename_i ts' h1
    rw [h1]
    injection this with h2
    injection h2 with h3
    rw [h3]
  · cases this

/-- The crystal of `g` can be moved: its origin stays within `R`, its cell is not absurdly small. -/
def Grain.Movable (R : ℝ) (ms : List Move) (g : Grain) : Prop := (1 / 2) ^ 480 ≤ span g.B ∧ Path R ms g.o

/-- Every site of the blocks that are filled (`x g`: corners from which the cells are found) stays within `R`, and with respect to every
volume it is in the closed body or two tolerances beyond one of its surfaces. -/
def Firm (R : ℝ) (ms : List Move) (gs : List Grain) (x : Grain → V3 ℝ × List (V3 ℝ)) : Prop :=
  ∀ g ∈ gs, ∀ n f, (g.resolved x).Site n f → Reached R ms g.B g.o n f.1 ∧ ∀ h ∈ gs, Clear h.algs (siteAt g.B g.o n f.1)

theorem Tree.mapG_resolved (r : Grain → V3 ℝ × List (V3 ℝ)) (m : Grain → Grain) (t : Tree) :
    (t.resolved r).mapG m = t.mapG fun g => m (g.resolved r) := by
  induction t using Tree.ind with
  | hg g => simp [Tree.resolved, Tree.mapG]
  | hm ts p ih =>
    simp only [Tree.resolved, Tree.mapG, Tree.mapGs_eq, Tree.resolvedAll_eq, List.map_map]
    congr 1
    exact List.map_congr_left fun t ht => ih t ht

theorem Tree.grainsOf_resolved (r : Grain → V3 ℝ × List (V3 ℝ)) (ts : List Tree) :
    Tree.grainsOf (ts.map (Tree.resolved r)) = (Tree.grainsOf ts).map (Grain.resolved r) := by
  have := Tree.grains_resolved r (.multi ts 0)
  simpa only [Tree.resolved, Tree.grains, Tree.resolvedAll_eq] using this

/-- The moved volume, its extents as they are; surfaces as computed when no call raises. -/
def Grain.arrived (ms : List Move) (g : Grain) : Grain :=
  { g with algs := (match g.algs.mapM (algOf A ms) with | .ok l => l | .error _ => []), B := basesOf A ms g.B, o := pointOf A ms g.o }

/-- `q` is what is computed, after the moves, for the site `q'` of one of the crystals. -/
def Brought (ms : List Move) (gs : List Grain) (x : Grain → V3 ℝ × List (V3 ℝ)) (q q' : V3 ℝ × ℤ) : Prop :=
  ∃ g ∈ gs, ∃ n f, (g.resolved x).Site n f ∧ q = (site A (basesOf A ms g.B) (pointOf A ms g.o) (Gen.castV n) f.1, f.2) ∧
    q' = (siteAt g.B g.o n f.1, f.2)

theorem Carried.of_grain {δ R : ℝ} {ms : List Move} {gs : List Grain} (hc : Carried δ R ms (surfaces gs)) {g : Grain} (hg : g ∈ gs) :
    Carried δ R ms g.algs := fun a ha => hc a (List.mem_flatMap.mpr ⟨g, hg, ha⟩)

theorem arrived_interior {δ R : ℝ} {ms : List Move} (hm : ∀ m ∈ ms, m.Fair δ R) {gs : List Grain} (hc : Carried δ R ms (surfaces gs))
    (hne : ∀ g ∈ gs, g.algs ≠ []) (hM : ∀ g ∈ gs, g.Movable R ms) {x : Grain → V3 ℝ × List (V3 ℝ)} (hS : Firm R ms gs x)
    {q q' : V3 ℝ × ℤ} (hq : Brought A ms gs x q q') {h : Grain} (hh : h ∈ gs) :
    ((h.resolved x).arrived A ms).interior A q.1 = true ↔ (h.resolved x).Has q'.1 := by
  obtain ⟨g, hg, n, f, hs, rfl, rfl⟩ := hq
  obtain ⟨hr, hC⟩ := hS g hg n f hs
  obtain ⟨algs', h1, h2⟩ := carried_says A hm (hc.of_grain hh)
  obtain ⟨a, ha⟩ := List.exists_mem_of_ne_nil _ (hne g hg)
  have hB := (hc.of_grain hg a ha).2.2.1
  have key := says_all A h2 hr.1 (C139_site A hB hm g.B (hM g hg).1 g.o (hM g hg).2 n f.1 hr.2)
  have e : ((h.resolved x).arrived A ms).interior A (site A (basesOf A ms g.B) (pointOf A ms g.o) (Gen.castV n) f.1) =
      (algs'.all fun s => interior A s (site A (basesOf A ms g.B) (pointOf A ms g.o) (Gen.castV n) f.1)) := by
    unfold Grain.interior Grain.arrived
    simp only [Grain.resolved, h1]
  show _ = true ↔ h.Has _
  rw [e]
  refine ⟨fun hi => ?_, key.1⟩
  rcases hC h hh with hC | hC
  · exact hC
  · rw [key.2 hC] at hi
    cases hi

theorem arrived_fill {δ R : ℝ} {ms : List Move} (hm : ∀ m ∈ ms, m.Fair δ R) {gs : List Grain} (hc : Carried δ R ms (surfaces gs))
    (hne : ∀ g ∈ gs, g.algs ≠ []) (hM : ∀ g ∈ gs, g.Movable R ms) {x : Grain → V3 ℝ × List (V3 ℝ)} (hS : Firm R ms gs x)
    {g : Grain} (hg : g ∈ gs) :
    List.Forall₂ (Brought A ms gs x) (fill A ((g.resolved x).arrived A ms).algs ((g.resolved x).arrived A ms).B
      ((g.resolved x).arrived A ms).o ((g.resolved x).arrived A ms).sites ((g.resolved x).arrived A ms).e ((g.resolved x).arrived A ms).es)
      (g.resolved x).body.sites := by
  classical
  unfold fill
  show List.Forall₂ _ _ (inBody _ _ _ _ _ _)
  unfold inBody
  rw [List.filter_flatMap]
  refine forall₂_flatMap _ _ _ fun n hn => ?_
  refine forall₂_filter _ _ _ _ _ (fun f hf => ⟨g, hg, n, f, ⟨hn, hf⟩, rfl, rfl⟩) fun f hf => ?_
  have := arrived_interior A hm hc hne hM hS (q := (site A (basesOf A ms g.B) (pointOf A ms g.o) (Gen.castV n) f.1, f.2))
    (q' := (siteAt g.B g.o n f.1, f.2)) ⟨g, hg, n, f, ⟨hn, hf⟩, rfl, rfl⟩ hg
  rw [Bool.eq_iff_iff, decide_eq_true_iff]
  exact this

/-- **C145 (list).** A scene of volumes and MultiVolumes, nested to any depth, is moved as a whole, every member by the same locked
transformations, and populated again.  No call raises, and the atoms are one by one the images of the exact sites: what yields to what
is not changed by the errors of the moves. -/
theorem C145_list {δ R : ℝ} (ms : List Move) (hm : ∀ m ∈ ms, m.Fair δ R) (b : V3 ℝ × V3 ℝ) (ts : List Tree) (hf : ∀ t ∈ ts, t.Filled)
    (hc : Carried δ R ms (surfaces (Tree.grainsOf ts))) (hne : ∀ g ∈ Tree.grainsOf ts, g.algs ≠ [])
    (hM : ∀ g ∈ Tree.grainsOf ts, g.Movable R ms) (x : Grain → V3 ℝ × List (V3 ℝ)) (hS : Firm R ms (Tree.grainsOf ts) x) :
    ∃ ts' sc as ss, Tree.moveAll A ms x ts = .ok ts' ∧ Scene.populate (sceneOfTrees A b ts') = (sc, .ok ()) ∧
      Scene.allAtoms sc = .ok as ∧ Scene.allSpecies sc = .ok ss ∧
      List.Forall₂ (Follows ms (surfaces (Tree.grainsOf ts))) (as.zip ss)
        (contents (stableSort (·.priority) ((ts.map (Tree.resolved x)).map Tree.body))) := by
  have hmv : ∀ g ∈ Tree.grainsOf ts, g.move A ms (x g) = .ok ((g.resolved x).arrived A ms) := by
    intro g hg
    obtain ⟨algs', h1, -⟩ := carried_says A hm (hc.of_grain hg)
    unfold Grain.move Grain.arrived
    simp only [Grain.resolved, h1]
  have hmem {g : Grain} (hg : g ∈ Tree.grainsOf (ts.map (Tree.resolved x))) : ∃ h ∈ Tree.grainsOf ts, h.resolved x = g := by
    rw [Tree.grainsOf_resolved] at hg
    exact List.mem_map.mp hg
  have hI : ∀ q q', Brought A ms (Tree.grainsOf ts) x q q' → ∀ g ∈ Tree.grainsOf (ts.map (Tree.resolved x)),
      (g.arrived A ms).interior A q.1 = true ↔ g.Has q'.1 := by
    intro q q' hq g hg
    obtain ⟨h, hh, rfl⟩ := hmem hg
    exact arrived_interior A hm hc hne hM hS hq hh
  have ht : ∀ t ∈ ts.map (Tree.resolved x), ∀ g ∈ t.grains, g ∈ Tree.grainsOf (ts.map (Tree.resolved x)) :=
    fun t hm g hg => Tree.mem_grainsOf hm hg
  obtain ⟨sc, as, ss, h1, h2, h3, -, h5⟩ := Tree.yields_level A (m := Grain.arrived A ms) (fun _ => rfl) hI b (ts.map (Tree.resolved x)) ht
    fun t htm => Tree.yields A (m := Grain.arrived A ms) (fun _ => rfl) hI (fun g hg => by
      obtain ⟨h, hh, rfl⟩ := hmem hg
      exact arrived_fill A hm hc hne hM hS hh) t (ht t htm) (by
      obtain ⟨u, hu, rfl⟩ := List.mem_map.mp htm
      exact Tree.filled_resolved x u (hf u hu))
  refine ⟨(ts.map (Tree.resolved x)).map (Tree.mapG (Grain.arrived A ms)), sc, as, ss, ?_, h1, h2, h3, h5.imp ?_⟩
  · rw [Tree.moveAll_eq A ts hmv, List.map_map]
    congr 1
    exact List.map_congr_left fun t _ => (Tree.mapG_resolved x _ t).symm
  · rintro _ _ ⟨g, hg, n, f, hs, rfl, rfl⟩
    exact site_follows A hm hc (hM g hg).1 (hM g hg).2 (hS g hg n f hs).1

/-- The cells are invertible, the fractional coordinates leave room for the error of the extents, and these are accurate for a box that
holds the body, before and after the moves. -/
def Grain.Encased (ms : List Move) (g : Grain) (x : V3 ℝ × List (V3 ℝ)) : Prop :=
  g.B.det ≠ 0 ∧ ∃ (box box' : List (V3 ℝ)) (ε : ℝ), (∀ f ∈ g.sites, Within ε f.1) ∧
    (∀ p, g.Has p → p ∈ Region box ∧ image ms p ∈ Region box') ∧
    Accurate ε g.B g.o box (g.e :: g.es) ∧ Accurate ε (turned ms g.B) (image ms g.o) box' (x.1 :: x.2)

theorem Grain.body_moved {δ R : ℝ} {ms : List Move} (hm : ∀ m ∈ ms, m.Fair δ R) (hδ : 0 ≤ δ) (hδ1 : δ ≤ 1 / 8)
    (x : Grain → V3 ℝ × List (V3 ℝ)) (g : Grain) (hE : g.Encased ms (x g)) : (g.resolved x).body = g.body := by
  classical
  obtain ⟨hd, box, box', ε, hw, hbox, hacc, hacc'⟩ := hE
  have heq : inBody g.algs g.B g.o g.sites (extents (x g).1 (x g).2).1 (extents (x g).1 (x g).2).2 =
      inBody g.algs g.B g.o g.sites (extents g.e g.es).1 (extents g.e g.es).2 := by
    unfold inBody
    have key (n : V3 ℤ)
        (h : ((g.sites.map fun f => (siteAt g.B g.o n f.1, f.2)).filter fun a => ∀ s ∈ g.algs, Closed a.1 s) ≠ []) :
        n ∈ Gen.cells (extents g.e g.es).1 (extents g.e g.es).2 ∧ n ∈ Gen.cells (extents (x g).1 (x g).2).1 (extents (x g).1 (x g).2).2 := by
      obtain ⟨a, ha⟩ := List.exists_mem_of_ne_nil _ h
      obtain ⟨h3, h4⟩ := List.mem_filter.mp ha
      obtain ⟨f, hf, rfl⟩ := List.mem_map.mp h3
      have h5 := of_decide_eq_true h4
      obtain ⟨r1, r2⟩ := hbox (siteAt g.B g.o n f.1) h5
      refine ⟨C138_cells g.B hd g.o box ε g.e g.es hacc n f.1 (hw f hf) r1, ?_⟩
      refine C138_cells (turned ms g.B) (turned_det hδ hδ1 ms hm g.B hd) (image ms g.o) box' ε _ _ hacc' n f.1 (hw f hf) ?_
      rw [← image_site]
      exact r2
    exact flatMap_cells _ _ _ _ _ (fun n h => (key n h).2) (fun n h => (key n h).1)
  show Body.mk _ _ _ = Body.mk _ _ _
  rw [← heq]
  rfl

theorem Tree.mapG_id (t : Tree) : t.mapG (fun g => g) = t := by
  induction t using Tree.ind with
  | hg g => simp [Tree.mapG]
  | hm ts p ih =>
    simp only [Tree.mapG, Tree.mapGs_eq]
    congr 1
    exact (List.map_congr_left ih).trans (List.map_id' ts)

theorem Tree.moveAll_none (ts : List Tree) : Tree.moveAll A [] (fun g => (g.e, g.es)) ts = .ok ts := by
  rw [Tree.moveAll_eq A (m := fun g => g) ts fun g _ => by
    unfold Grain.move
    rw [algOf_nil]
    rfl]
  congr 1
  exact (List.map_congr_left fun t _ => t.mapG_id).trans (List.map_id' ts)

/-- **C145 (same atoms).** The atoms of the moved scene are, one by one and in the same order, the images of the atoms the scene has where
it was, up to 1/16 of the tolerances - unless a site is doubtful.  The two may be populated on different machines. -/
theorem C145_same_atoms (A' : Arith) {δ R : ℝ} (ms : List Move) (hm : ∀ m ∈ ms, m.Fair δ R) (b b' : V3 ℝ × V3 ℝ) (ts : List Tree)
    (hf : ∀ t ∈ ts, t.Filled) (hc : Carried δ R ms (surfaces (Tree.grainsOf ts))) (hne : ∀ g ∈ Tree.grainsOf ts, g.algs ≠ [])
    (hM : ∀ g ∈ Tree.grainsOf ts, g.Movable R ms) (x : Grain → V3 ℝ × List (V3 ℝ)) (hE : ∀ g ∈ Tree.grainsOf ts, g.Encased ms (x g))
    (hS : Firm R ms (Tree.grainsOf ts) x) (hS' : Firm R ms (Tree.grainsOf ts) fun g => (g.e, g.es)) :
    ∃ ts' sc as ss sc' as' ss', Tree.moveAll A ms x ts = .ok ts' ∧ Scene.populate (sceneOfTrees A b ts') = (sc, .ok ()) ∧
      Scene.allAtoms sc = .ok as ∧ Scene.allSpecies sc = .ok ss ∧
      Scene.populate (sceneOfTrees A' b' ts) = (sc', .ok ()) ∧ Scene.allAtoms sc' = .ok as' ∧ Scene.allSpecies sc' = .ok ss' ∧
      List.Forall₂ (fun q a => q.2 = a.2 ∧ ∀ s ∈ surfaces (Tree.grainsOf ts), Spec.dist q.1 (image ms a.1) ≤ tolOf s / 16)
        (as.zip ss) (as'.zip ss') := by
  obtain ⟨ts', sc, as, ss, h0, h1, h2, h3, h4⟩ := C145_list A ms hm b ts hf hc hne hM x hS
  have hc0 : Carried δ R [] (surfaces (Tree.grainsOf ts)) := fun a ha => by
    obtain ⟨b1, b2, b3, b4, b5⟩ := hc a ha
    exact ⟨b1, b2, b3.zero, b4, b5.first⟩
  obtain ⟨ts0, sc', as', ss', h0', h1', h2', h3', h4'⟩ := C145_list A' [] (δ := δ) (R := R) (by simp) b' ts hf hc0 hne
    (fun g hg => ⟨(hM g hg).1, (hM g hg).2.first⟩) (fun g => (g.e, g.es))
    (fun g hg n f hs => ⟨⟨(hS' g hg n f hs).1.1.first, (hS' g hg n f hs).1.2⟩, (hS' g hg n f hs).2⟩)
  rw [Tree.moveAll_none] at h0'
  obtain rfl := Except.ok.inj h0'
  refine ⟨ts', sc, as, ss, sc', as', ss', h0, h1, h2, h3, h1', h2', h3', ?_⟩
  have e1 : (ts.map (Tree.resolved x)).map Tree.body = ts.map Tree.body := by
    rw [List.map_map]
    refine List.map_congr_left fun t ht => Tree.body_resolved x t fun g hg => ?_
    have hg' := Tree.mem_grainsOf ht hg
    obtain ⟨a, ha⟩ := List.exists_mem_of_ne_nil _ (hne g hg')
    have hB := (hc.of_grain hg' a ha).2.2.1
    exact g.body_moved hm hB.delta hB.single x (hE g hg')
  have e2 : (ts.map (Tree.resolved fun g => (g.e, g.es))).map Tree.body = ts.map Tree.body := by
    rw [List.map_map]
    exact List.map_congr_left fun t _ => Tree.body_resolved _ t fun g _ => rfl
  rw [e1] at h4
  rw [e2] at h4'
  refine List.Forall₂.imp ?_ (forall₂_both h4 h4')
  rintro q a ⟨z, hq, ha⟩
  exact ⟨hq.1.trans ha.1.symm, fun s hs => follows_both hm (hc s hs).2.2.1 (hq.2 s hs) (ha.2 s hs)⟩

/-! ## The ball cut in two, nested and moved -/

/-- Corners of the box around the moved ball, in the turned frame. -/
def exCorners : List (V3 ℝ) := (Vol.sphereBox ⟨3 / 2, ⟨1, 0, 0⟩, 1 / 10 ^ 5⟩).map fun p => turn345.transpose.mulVec (p - ⟨1, 0, 0⟩)

theorem exCorners_extents : extents (exCorners.headD 0) exCorners.tail = (⟨-3, -3, -2⟩, ⟨3, 3, 2⟩) := by
  have f1 : ⌊(-3 / 2 : ℝ)⌋ = -2 := by rw [Int.floor_eq_iff]; norm_num
  have c1 : ⌈(3 / 2 : ℝ)⌉ = 2 := by rw [Int.ceil_eq_iff]; norm_num
  have f2 : ⌊(-21 / 10 : ℝ)⌋ = -3 := by rw [Int.floor_eq_iff]; norm_num
  have c2 : ⌈(21 / 10 : ℝ)⌉ = 3 := by rw [Int.ceil_eq_iff]; norm_num
  have mn : Voxel.minV (exCorners.headD 0) exCorners.tail = ⟨-21 / 10, -21 / 10, -3 / 2⟩ := by
    ext <;> norm_num [exCorners, Voxel.minV, Voxel.minL, Vol.sphereBox, Vol.rectPrism, turn345, M3.transpose, M3.mulVec]
  have mx : Voxel.maxV (exCorners.headD 0) exCorners.tail = ⟨21 / 10, 21 / 10, 3 / 2⟩ := by
    ext <;> norm_num [exCorners, Voxel.maxV, Voxel.maxL, Vol.sphereBox, Vol.rectPrism, turn345, M3.transpose, M3.mulVec]
  unfold extents
  simp only [mn, mx, f1, c1, f2, c2]

theorem exHalf_of {g : Grain} (hg : g ∈ exGrains) : ∃ (k : ℤ) (d : ℝ) (s : ℤ), (d = 1 ∨ d = -1) ∧ g = exHalf k d s := by
  simp only [exGrains, List.mem_cons, List.not_mem_nil, or_false] at hg
  rcases hg with rfl | rfl
  · exact ⟨_, _, _, Or.inr rfl, rfl⟩
  · exact ⟨_, _, _, Or.inl rfl, rfl⟩

theorem exSpan : span (1 : M3 ℝ) = 3 := by
  have hcols : len (1 : M3 ℝ).col0 = 1 ∧ len (1 : M3 ℝ).col1 = 1 ∧ len (1 : M3 ℝ).col2 = 1 := by
    refine ⟨?_, ?_, ?_⟩ <;> simp [len, M3.one_def, M3.col0, M3.col1, M3.col2]
  unfold span; rw [hcols.1, hcols.2.1, hcols.2.2]; norm_num

theorem exFirm (x : Grain → V3 ℝ × List (V3 ℝ))
    (hx : ∀ g ∈ exGrains, ∀ n, n ∈ Gen.cells (extents (x g).1 (x g).2).1 (extents (x g).1 (x g).2).2 → n.x ^ 2 ≤ 9 ∧ n.y ^ 2 ≤ 9 ∧ n.z ^ 2 ≤ 4) :
    Firm 20 moves exGrains x := by
  intro g hg n f hs
  have hn := hx g hg n hs.1
  obtain ⟨k, d, s, hd, rfl⟩ := exHalf_of hg
  obtain rfl := List.mem_singleton.mp hs.2
  have e0 : siteAt (1 : M3 ℝ) 0 n 0 = ⟨n.x, n.y, n.z⟩ := by
    ext <;> simp [siteAt, cart, M3.one_def, M3.col0, M3.col1, M3.col2]
  have hsum : ((n.x : ℝ) ^ 2 + (n.y : ℝ) ^ 2 + (n.z : ℝ) ^ 2) ≤ 22 := by
    have : n.x ^ 2 + n.y ^ 2 + n.z ^ 2 ≤ 22 := by omega
    exact_mod_cast this
  show Reached 20 moves 1 0 n 0 ∧ ∀ h ∈ exGrains, Clear h.algs (siteAt 1 0 n 0)
  refine ⟨⟨moves_path ?_, ?_⟩, fun h hh => ?_⟩
  · rw [e0]; simp only; linarith
  · rw [exSpan]
    have l0 : len (0 : V3 ℝ) = 0 := by simp [len]
    have l1 : len (Gen.castV (K := ℝ) n) ≤ 5 := by
      unfold len
      rw [Real.sqrt_le_left (by norm_num)]
      simp only [Gen.castV]
      linarith
    rw [l0]
    linarith
  · obtain ⟨k', d', s', hd', rfl⟩ := exHalf_of hh
    exact exHalf_clear n d' hd'

/-- The hypotheses of `C145_list` and `C145_same_atoms` hold for it: turned and shifted with fused operations, compared with binary64. -/
example : ∃ ts' sc as ss sc' as' ss', Tree.moveAll binary64Fma moves (fun _ => (exCorners.headD 0, exCorners.tail)) [exTree] = .ok ts' ∧
      Scene.populate (sceneOfTrees binary64Fma (0, 0) ts') = (sc, .ok ()) ∧ Scene.allAtoms sc = .ok as ∧ Scene.allSpecies sc = .ok ss ∧
      Scene.populate (sceneOfTrees binary64 (0, 0) [exTree]) = (sc', .ok ()) ∧ Scene.allAtoms sc' = .ok as' ∧ Scene.allSpecies sc' = .ok ss' ∧
      List.Forall₂ (fun q a => q.2 = a.2 ∧ ∀ s ∈ surfaces (Tree.grainsOf [exTree]), Spec.dist q.1 (image moves a.1) ≤ tolOf s / 16)
        (as.zip ss) (as'.zip ss') := by
  have h480 : (1 / 2 : ℝ) ^ 480 ≤ 1 / 10 ^ 5 := (half_pow_le (show 20 ≤ 480 by norm_num)).trans (by norm_num)
  have h480' : (1 / 2 : ℝ) ^ 480 ≤ 1 := (half_pow_le (show 0 ≤ 480 by norm_num)).trans (by norm_num)
  have ht : turned moves 1 = turn345 := by ext <;> simp [turned, moves, turn, Move.turn, turn345, M3.mulVec, M3.one_def, M3.col0, M3.col1, M3.col2]
  have hi : image moves (0 : V3 ℝ) = ⟨1, 0, 0⟩ := by ext <;> simp [image, moves, Move.image, turn345, M3.mulVec]
  have hes : exCorners.headD 0 :: exCorners.tail = exCorners := by simp [exCorners, Vol.sphereBox, Vol.rectPrism]
  refine C145_same_atoms binary64Fma binary64 moves moves_fair (0, 0) (0, 0) [exTree] exTree_filled ?_ ?_ ?_ _ ?_ ?_ ?_
  · rw [exTree_grains]
    intro a ha
    have hr := exGrains_ready a ha
    obtain ⟨g, hg, ha⟩ := List.mem_flatMap.mp ha
    obtain ⟨k, d, s, hd, rfl⟩ := exHalf_of hg
    simp only [exHalf, List.mem_cons, List.not_mem_nil, or_false] at ha
    rcases ha with rfl | rfl
    · exact ⟨hr, by simp [Sized, exBall]; norm_num, budget345, h480, moves_path (by simp [anchor, exBall])⟩
    · exact ⟨hr, trivial, budget345, h480, moves_path (by simp [anchor])⟩
  · rw [exTree_grains]
    intro g hg
    obtain ⟨k, d, s, hd, rfl⟩ := exHalf_of hg
    simp [exHalf]
  · rw [exTree_grains]
    intro g hg
    obtain ⟨k, d, s, hd, rfl⟩ := exHalf_of hg
    exact ⟨by show _ ≤ span (1 : M3 ℝ); rw [exSpan]; linarith, moves_path (by simp [exHalf])⟩
  · rw [exTree_grains]
    intro g hg
    obtain ⟨k, d, s, hd, rfl⟩ := exHalf_of hg
    have hbx : (exHalf k d s).e :: (exHalf k d s).es = Vol.sphereBox exBall := by simp [exHalf, Vol.sphereBox, Vol.rectPrism]
    refine ⟨by show (1 : M3 ℝ).det ≠ 0; rw [M3.det_one]; norm_num, Vol.sphereBox exBall, Vol.sphereBox ⟨3 / 2, ⟨1, 0, 0⟩, 1 / 10 ^ 5⟩, 0,
      by simp [exHalf, Within], fun p hp => ?_, ?_, ?_⟩
    · have hp0 : Spec.dist p 0 ≤ 3 / 2 := hp (.sphere exBall) (by simp [exHalf])
      refine ⟨ball_in_box exBall (by norm_num [exBall]) p hp0, ball_in_box ⟨3 / 2, ⟨1, 0, 0⟩, 1 / 10 ^ 5⟩ (by norm_num) _ ?_⟩
      refine le_trans (le_of_eq ?_) hp0
      unfold Spec.dist
      congr 1
      simp [image, moves, Move.image, turn345, M3.mulVec]
      ring
    · rw [hbx]
      unfold Accurate
      rw [List.forall₂_same]
      exact fun p _ => ⟨p, by ext <;> simp [exHalf, cart, M3.one_def, M3.col0, M3.col1, M3.col2], by simp⟩
    · show Accurate 0 (turned moves 1) (image moves 0) _ (exCorners.headD 0 :: exCorners.tail)
      rw [hes, ht, hi]
      unfold Accurate exCorners
      rw [List.forall₂_map_right_iff, List.forall₂_same]
      refine fun p _ => ⟨turn345.transpose.mulVec (p - ⟨1, 0, 0⟩), ?_, by simp⟩
      ext <;> simp [cart, turn345, M3.transpose, M3.mulVec, M3.col0, M3.col1, M3.col2] <;> ring
  · rw [exTree_grains]
    refine exFirm _ fun g hg n hn => ?_
    simp only [exCorners_extents, Gen.mem_cells] at hn
    refine ⟨?_, ?_, ?_⟩ <;> nlinarith
  · rw [exTree_grains]
    refine exFirm _ fun g hg n hn => ?_
    obtain ⟨k, d, s, hd, rfl⟩ := exHalf_of hg
    simp only [exHalf_extents, Gen.mem_cells] at hn
    refine ⟨?_, ?_, ?_⟩ <;> nlinarith

end
end Fl
end CZ
