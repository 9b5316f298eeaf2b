import Verif.SceneAse
import Verif.Props.Scene
import Mathlib.Data.Rat.Cast.Order

/-!
# C108: constructing a scene and exporting it to ASE
-/

namespace CZ
namespace Scene

open Spec (Body Survives contributed contents)

section
variable {K S : Type} [Field K] [LinearOrder K] [IsStrictOrderedRing K]

/-- **C108 (export).** The ASE object of a populated scene has exactly the atoms of the scene, each with its species, and a box
whose edges are the extents of the bounds. -/
theorem C108_export (sc : Scene (V3 K) S) (os : List (SceneObj (V3 K) S)) (hos : sc.objects = some os) (h : Populatable os) :
    ∃ a, aseAtoms (populate sc).1 = .ok a ∧ a.symbols.length = a.positions.length ∧
      (a.positions.zip a.symbols).Perm (contents (os.map given)) ∧
      a.cell = ⟨sc.bounds.2.x - sc.bounds.1.x, sc.bounds.2.y - sc.bounds.1.y, sc.bounds.2.z - sc.bounds.1.z⟩ := by
  obtain ⟨sc', as, ss, h1, h2, h3, h4, h5⟩ := C01_scene_contents sc os hos h
  have hb : sc'.bounds = sc.bounds := by
    have := populate_state sc os hos h
    rw [h1] at this
    cases this
    rfl
  refine ⟨⟨ss, as, sc.bounds.2 - sc.bounds.1⟩, ?_, h4.symm, h5, rfl⟩
  rw [h1]
  simp only [aseAtoms, h2, h3, hb, bind, Except.bind, h4, ne_eq, not_true_eq_false, if_false]

/-- **C108 (export refused).** Before anything was added, or populated, `ase_atoms` raises what `all_species` raises; with different numbers of
symbols and positions it raises ValueError.  It never changes the scene. -/
theorem C108_export_refused (sc : Scene (V3 K) S) :
    (∀ e, sc.allSpecies = .error e → aseAtoms sc = .error e) ∧
    (sc.objects = none → aseAtoms sc = .error .type) ∧
    (∀ ss e, sc.allSpecies = .ok ss → sc.allAtoms = .error e → aseAtoms sc = .error e) ∧
    ∀ ss ps, sc.allSpecies = .ok ss → sc.allAtoms = .ok ps → ss.length ≠ ps.length → aseAtoms sc = .error .value := by
  refine ⟨fun e h => ?_, fun h => ?_, fun ss e h1 h2 => ?_, fun ss ps h1 h2 h3 => ?_⟩
  · simp [aseAtoms, h, bind, Except.bind]
  · simp [aseAtoms, allSpecies, gather, h, bind, Except.bind]
  · simp [aseAtoms, h1, h2, bind, Except.bind]
  · simp [aseAtoms, h1, h2, h3, bind, Except.bind]

/-- **C108 (bounds).** Bounds are accepted exactly when they have shape (2,3); then they are stored and nothing else changes,
otherwise AssertionError is raised and nothing changes. -/
theorem C108_bounds (sc : Scene (V3 K) S) :
    (∀ lo hi, sc.setBounds (.rows lo hi) = ({ sc with bounds := (lo, hi) }, .ok ())) ∧
    sc.setBounds .otherShape = (sc, .error .assertion) := ⟨fun _ _ => rfl, rfl⟩

/-- The objects among the arguments. -/
def onlyObjects {P S : Type} (as : List (SceneArg P S)) : List (SceneObj P S) :=
  as.filterMap fun | .obj o => some o | .other => none

theorem foldl_add {P : Type} (xs : List (SceneArg P S)) (sc : Scene P S) :
    xs.foldl addObject sc = { sc with objects :=
      match sc.objects, (onlyObjects xs) with
      | none, [] => none
      | none, os => some os
      | some ps, os => some (ps ++ os) } := by
  induction xs generalizing sc with
  | nil =>
    rcases sc with ⟨_ | ps, c, b⟩
    · rfl
    · simp [onlyObjects]
  | cons a xs ih =>
    rw [List.foldl_cons, ih]
    cases a with
    | other => rfl
    | obj o =>
      rcases sc with ⟨_ | ps, c, b⟩
      · simp [addObject, onlyObjects]
      · simp [addObject, onlyObjects]

theorem defaultBounds_eq : defaultBounds (K := K) = (⟨0, 0, 0⟩, ⟨10, 10, 10⟩) := by
  have h10 : (0 : K) ≤ 10 := by norm_num
  simp [defaultBounds, prism, columnwise]

/-- The columns of a table of points: `columnwise min` is in each column a smallest entry, `columnwise max` a largest one. -/
theorem columnwise_spec {K : Type} [Field K] [LinearOrder K] (f : V3 K → K) (hf : f = V3.x ∨ f = V3.y ∨ f = V3.z) (p : V3 K) (ps : List (V3 K)) :
    ((∃ q ∈ p :: ps, f q = f (columnwise min p ps)) ∧ ∀ q ∈ p :: ps, f (columnwise min p ps) ≤ f q) ∧
    ((∃ q ∈ p :: ps, f q = f (columnwise max p ps)) ∧ ∀ q ∈ p :: ps, f q ≤ f (columnwise max p ps)) := by
  have key : ∀ op : K → K → K, ∀ (qs : List (V3 K)) (q : V3 K), f (columnwise op q qs) = (qs.map f).foldl op (f q) := by
    intro op qs
    induction qs with
    | nil => intro q; rfl
    | cons r rs ih =>
      intro q
      simp only [columnwise, List.map_cons, List.foldl_cons]
      rw [ih]
      rcases hf with rfl | rfl | rfl <;> rfl
  have hmin : ∀ (qs : List (V3 K)) (q : V3 K), (∃ r ∈ q :: qs, f r = (qs.map f).foldl min (f q)) ∧ ∀ r ∈ q :: qs, (qs.map f).foldl min (f q) ≤ f r := by
    intro qs
    induction qs with
    | nil => intro q; simp
    | cons r rs ih =>
      intro q
      simp only [List.map_cons, List.foldl_cons]
      rcases le_total (f q) (f r) with h | h
      · rw [min_eq_left h]
        obtain ⟨⟨w, hw, e⟩, b⟩ := ih q
        refine ⟨⟨w, by
          rcases List.mem_cons.mp hw with hw | hw
          · exact hw ▸ List.mem_cons_self
          · exact List.mem_cons_of_mem _ (List.mem_cons_of_mem _ hw), e⟩, fun x hx => ?_⟩
        rcases List.mem_cons.mp hx with rfl | hx
        · exact b _ (by simp)
        · rcases List.mem_cons.mp hx with rfl | hx
          · exact (b q (by simp)).trans h
          · exact b _ (by simp [hx])
      · rw [min_eq_right h]
        obtain ⟨⟨w, hw, e⟩, b⟩ := ih r
        refine ⟨⟨w, List.mem_cons_of_mem _ hw, e⟩, fun x hx => ?_⟩
        rcases List.mem_cons.mp hx with rfl | hx
        · exact (b r (by simp)).trans h
        · exact b _ hx
  have hmax : ∀ (qs : List (V3 K)) (q : V3 K), (∃ r ∈ q :: qs, f r = (qs.map f).foldl max (f q)) ∧ ∀ r ∈ q :: qs, f r ≤ (qs.map f).foldl max (f q) := by
    intro qs
    induction qs with
    | nil => intro q; simp
    | cons r rs ih =>
      intro q
      simp only [List.map_cons, List.foldl_cons]
      rcases le_total (f q) (f r) with h | h
      · rw [max_eq_right h]
        obtain ⟨⟨w, hw, e⟩, b⟩ := ih r
        refine ⟨⟨w, List.mem_cons_of_mem _ hw, e⟩, fun x hx => ?_⟩
        rcases List.mem_cons.mp hx with rfl | hx
        · exact h.trans (b r (by simp))
        · exact b _ hx
      · rw [max_eq_left h]
        obtain ⟨⟨w, hw, e⟩, b⟩ := ih q
        refine ⟨⟨w, by
          rcases List.mem_cons.mp hw with hw | hw
          · exact hw ▸ List.mem_cons_self
          · exact List.mem_cons_of_mem _ (List.mem_cons_of_mem _ hw), e⟩, fun x hx => ?_⟩
        rcases List.mem_cons.mp hx with rfl | hx
        · exact b _ (by simp)
        · rcases List.mem_cons.mp hx with rfl | hx
          · exact h.trans (b q (by simp))
          · exact b _ (by simp [hx])
  rw [key, key]
  exact ⟨hmin ps p, hmax ps p⟩

/-- **C108 (constructor).** A new scene holds the objects given, in order, and no others (None if there are none); its bounds are
those given, the cube from 0 to 10 by default; nothing is populated yet.  Bounds of another shape raise AssertionError. -/
theorem C108_constructor (objects : ObjectsArg (V3 K) S) (bounds : Option (BoundsArg K)) :
    let given := match objects with
      | .none => []
      | .single a => onlyObjects [a]
      | .iter as => onlyObjects as
    (bounds = some .otherShape → make bounds objects = .error .assertion) ∧
    ∀ lo hi, bounds = some (.rows lo hi) ∨ (bounds = none ∧ lo = ⟨0, 0, 0⟩ ∧ hi = ⟨10, 10, 10⟩) →
      make bounds objects = .ok ⟨if given = [] then none else some given, none, (lo, hi)⟩ := by
  intro given
  refine ⟨?_, ?_⟩
  · rintro rfl; rfl
  · intro lo hi hb
    have hmk : make bounds objects = .ok { (match objects with
        | .none => ⟨none, none, (0, 0)⟩
        | .single a => addObject ⟨none, none, (0, 0)⟩ a
        | .iter as => as.foldl addObject ⟨none, none, (0, 0)⟩ : Scene (V3 K) S) with bounds := (lo, hi) } := by
      rcases hb with rfl | ⟨rfl, rfl, rfl⟩
      · cases objects <;> rfl
      · unfold make
        rw [defaultBounds_eq]
        cases objects <;> rfl
    rw [hmk]
    have hgen : ∀ as : List (SceneArg (V3 K) S), { (as.foldl addObject ⟨none, none, (0, 0)⟩ : Scene (V3 K) S) with bounds := (lo, hi) }
        = ⟨if onlyObjects as = [] then none else some (onlyObjects as), none, (lo, hi)⟩ := by
      intro as
      rw [foldl_add]
      cases h : onlyObjects as <;> simp
    cases objects with
    | none => rfl
    | single a => exact congrArg Except.ok (hgen [a])
    | iter as => exact congrArg Except.ok (hgen as)

/-- A point lies between two corners. -/
def Between (lo hi p : V3 K) : Prop :=
  lo.x ≤ p.x ∧ p.x ≤ hi.x ∧ lo.y ≤ p.y ∧ p.y ≤ hi.y ∧ lo.z ≤ p.z ∧ p.z ≤ hi.z

/-- **C108 (box, partial).** If the lower corner of the bounds is the origin, an atom between the bounds lies in the box of the
exported object.  Missing: other lower corners; positions are not shifted (`C108_box_refuted`). -/
theorem C108_box_partial (sc : Scene (V3 K) S) (os : List (SceneObj (V3 K) S)) (hos : sc.objects = some os) (h : Populatable os)
    (h0 : sc.bounds.1 = ⟨0, 0, 0⟩) :
    ∃ a, aseAtoms (populate sc).1 = .ok a ∧ ∀ p ∈ a.positions, Between sc.bounds.1 sc.bounds.2 p ↔ Between ⟨0, 0, 0⟩ a.cell p := by
  obtain ⟨a, h1, -, -, h4⟩ := C108_export sc os hos h
  refine ⟨a, h1, ?_⟩
  intro p _
  rw [h4, h0]
  simp

end

/-- **C108, finding.** Bounds from -5 to 5 and a molecule with one atom at the centre (0,0,0) minus one: within the bounds, but
outside the exported box [0,10]³. -/
theorem C108_box_refuted :
    ∃ (sc : Scene (V3 ℚ) ℤ) (a : AseAtoms ℚ ℤ) (p : V3 ℚ),
      sc = addObject (empty (⟨-5, -5, -5⟩, ⟨5, 5, 5⟩)) (.obj (moleculeObj 0 [⟨-1, -1, -1⟩] [6])) ∧
      aseAtoms (populate sc).1 = .ok a ∧ p ∈ a.positions ∧ Between sc.bounds.1 sc.bounds.2 p ∧
      ¬ Between ⟨0, 0, 0⟩ a.cell p := by
  refine ⟨_, ⟨[6], [⟨-1, -1, -1⟩], ⟨10, 10, 10⟩⟩, ⟨-1, -1, -1⟩, rfl, ?_, by simp, ?_, ?_⟩
  · have h : aseAtoms (populate (addObject (empty ((⟨-5, -5, -5⟩ : V3 ℚ), (⟨5, 5, 5⟩ : V3 ℚ)))
        (.obj (moleculeObj 0 [⟨-1, -1, -1⟩] [(6 : ℤ)])))).1 =
        .ok ⟨[6], [⟨-1, -1, -1⟩], (⟨5, 5, 5⟩ : V3 ℚ) - ⟨-5, -5, -5⟩⟩ := by rfl
    rw [h]
    congr 2
    ext <;> norm_num
  · simp [addObject, empty, Between]; norm_num
  · simp [Between]

/-- Concrete case of the constructor: a molecule, something that is not an object, default bounds. -/
example : ∃ sc : Scene (V3 ℚ) ℤ, make none (.iter [.obj (moleculeObj 0 [⟨1, 2, 3⟩] [6]), .other]) = .ok sc ∧
    (sc.objects.map List.length) = some 1 ∧ sc.bounds = (⟨0, 0, 0⟩, ⟨10, 10, 10⟩) :=
  ⟨_, (C108_constructor _ none).2 ⟨0, 0, 0⟩ ⟨10, 10, 10⟩ (Or.inr ⟨rfl, rfl, rfl⟩), by simp [onlyObjects], rfl⟩

end Scene
end CZ
