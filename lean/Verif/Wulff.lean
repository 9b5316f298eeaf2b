import Verif.Volume
import Verif.Prefab
import Mathlib.Data.Fin.VecNotation

/-!
# Wulff constructions

Model of `czone/prefab/wulff.py`.  WulffPack (SingleCrystal, Winterbottom, Decahedron, Icosahedron) is an external package: its
particles enter as parameters, as the facets they report.
-/

namespace CZ

noncomputable section
open Classical

namespace Wulff

/-- What is read of a WulffPack facet: `normal` and `distance_from_origin`. -/
structure Facet where
  normal : V3 ℝ
  dist : ℝ

/-- wulff.py:95-127, `planes_from_wulff` and `planes_from_form`: one Plane (default tolerance 1e-5) per facet. -/
def planesFrom : List Facet → Py (List Plane)
  | [] => .ok []
  | f :: fs => do
    let p ← Plane.make f.normal (f.dist • f.normal) (1 / 10 ^ 5)
    let ps ← planesFrom fs
    return p :: ps

/-- Values given as `surface_energies`: a dict (its keys: tuple or not; its values: float or not), an int, something else
without `items`. -/
inductive Energies
  | dict (items : List ((Bool × V3 ℤ) × (Bool × ℝ)))
  | int (n : ℤ)
  | other

/-- wulff.py:80-86, the `surface_energies` setter. -/
def energiesSet : Energies → Py Energies
  | .dict items => if items.all (fun x => x.1.1 && x.2.1) then .ok (.dict items) else .error .assertion
  | .int _ => .error .attribute
  | .other => .error .attribute

/-- wulff.py:50-56, the `generator` setter: it needs a crystalline Generator with a structure.  (`get_primitive_structure` of
pymatgen and the ASE Atoms object are only handed to WulffPack.) -/
def generatorSet : Option GenObj → Py (Gen ℝ)
  | some (.crystal g) => match g.struct with
    | some _ => .ok g
    | none => .error .attribute
  | _ => .error .assertion

/-- wulff.py:69-73, the `natoms` setter: whatever `int()` raises becomes TypeError.  `other` stands for values that `int()`
refuses (strings of digits, which it accepts, are not modelled). -/
def natomsSet : PyVal → Py ℤ
  | .int n => .ok n
  | .bool b => .ok (if b then 1 else 0)
  | .npInt n => .ok n
  | .float x => .ok (if 0 ≤ x then ⌊x⌋ else ⌈x⌉)
  | .none => .error .type
  | .other => .error .type

/-- Attributes of WulffSingle. -/
structure Single where
  gen : Gen ℝ
  natoms : ℤ
  energies : Energies

/-- wulff.py:143-150, `WulffSingle(generator, surface_energies, natoms)`. -/
def Single.make (gen : Option GenObj) (e : Energies) (natoms : PyVal) : Py Single := do
  let g ← generatorSet gen
  let n ← natomsSet natoms
  let e ← energiesSet e
  return ⟨g, n, e⟩

/-- wulff.py:167-172 and 192-195, `get_construction` and `winterbottom`, for the facets of the WulffPack particle. -/
def Single.construction (env : Env) (w : Single) (facets : Py (List Facet)) : Py Vol := do
  let fs ← facets
  let ps ← planesFrom fs
  Vol.make env none (ps.map .plane) (some (.crystal w.gen)) 0 (1 / 10 ^ 10) none

/-- wulff.py:197-255, `cube`, `cuboctohedron`, `octohedron`, `truncated_octohedron`: they differ in the dict `energies`, which is
passed to `get_construction` as `return_facet_areas` (a dict that is not empty counts as True); `natoms` is passed as
`surface_energies`.  `pack` is what WulffPack does with an accepted set of attributes. -/
def Single.convenience (env : Env) (_energies : List ((Bool × V3 ℤ) × (Bool × ℝ))) (pack : Single → Py (List Facet)) (gen : Option GenObj) (natoms : ℤ) :
    Py Vol := do
  let w ← Single.make gen (.int natoms) (.int 1000)
  w.construction env (pack w)

/-- wulff.py:341-344, 432-435: `planes_lists[i // (len_p // m)].append(p)` for the planes numbered `i, i+1, …` of a form with
`q = len_p // m`. -/
def place {α : Type} (q : ℕ) : ℕ → List α → List (List α) → Py (List (List α))
  | _, [], acc => .ok acc
  | i, p :: ps, acc =>
    if q = 0 then .error .zeroDivision
    else match acc[i / q]? with
      | none => .error .index
      | some l => place q (i + 1) ps (acc.set (i / q) (l ++ [p]))

/-- wulff.py:338-344, 429-435: the loop over the forms. -/
def placeForms {α : Type} (m : ℕ) : List (List α) → List (List α) → Py (List (List α))
  | [], acc => .ok acc
  | f :: fs, acc => do
    let acc' ← place (f.length / m) 0 f acc
    placeForms m fs acc'

/-- The lists of planes of the `m` grains. -/
def planesLists {α : Type} (m : ℕ) (forms : List (List α)) : Py (List (List α)) := placeForms m forms (List.replicate m [])

/-- Attributes of WulffDecahedron and WulffIcosahedron. -/
structure Deca where
  gen : Gen ℝ
  natoms : ℤ
  energies : Energies
  twin : ℝ

/-- wulff.py:327-330, the `twin_energy` setter. -/
def twinSet : PyVal → Py ℝ
  | .float x => .ok x
  | _ => .error .assertion

/-- wulff.py:312-320, `WulffDecahedron(generator, surface_energies, twin_energy, natoms)`, inherited by WulffIcosahedron. -/
def Deca.make (gen : Option GenObj) (e : Energies) (twin : PyVal) (natoms : PyVal) : Py Deca := do
  let g ← generatorSet gen
  let n ← natomsSet natoms
  let e ← energiesSet e
  let t ← twinSet twin
  return ⟨g, n, e, t⟩

/-- wulff.py:345-360, the part of `WulffDecahedron.get_construction` that gives the i-th grain its generator. -/
def Deca.grain (g : Gen ℝ) (strain : HStrain ℝ) (i : ℕ) (v : Vol) : Py Vol := do
  let m ← Tr.rotV ⟨0, 0, 1⟩ ((i : ℝ) * 2 * Real.pi / 5)
  let r ← Tr.mkRotation m none true false
  let g' ← g.fromGenerator [r]
  match (v.addGenerator (some (.crystal { g' with strain := some strain })) none) with
  | (v', .ok ()) => return v'
  | (_, .error e) => .error e

/-- Loop over the grains. -/
def Deca.grains (g : Gen ℝ) (strain : HStrain ℝ) : ℕ → List Vol → Py (List Vol)
  | _, [] => .ok []
  | i, v :: vs => do
    let w ← Deca.grain g strain i v
    let ws ← Deca.grains g strain (i + 1) vs
    return w :: ws

/-- `[planes_from_form(form) for form in wulff.forms]`. -/
def formPlanes : List (List Facet) → Py (List (List Plane))
  | [] => .ok []
  | f :: fs => do
    let p ← planesFrom f
    let ps ← formPlanes fs
    return p :: ps

/-- A Python call with keyword arguments by name; a required parameter that is missing raises TypeError. -/
def pyCall {α : Type} (required given : List String) (body : Py α) : Py α :=
  if required.all (given.contains ·) then body else .error .type

/-- wulff.py:332-369, `WulffDecahedron.get_construction` for what WulffPack reports: the facets of the forms, the scale factor
`sf` and the array `z_extremes` as its smallest and largest value.  (The planes of a form are computed just before they are
placed; here for all forms at once, which changes at most which of two exceptions is raised.)  The cylinder of the five-fold
axis is requested with `radius` only; algebraic.py:240-245 requires axis, point, radius and length. -/
def Deca.construction (env : Env) (g : Gen ℝ) (forms : Py (List (List Facet))) (sf zmin zmax : ℝ) : Py VTree := do
  let forms ← forms
  let planes ← formPlanes forms
  let lists ← planesLists 5 planes
  let strain ← HStrain.make (some (.six ![sf, 1, 1, 0, 0, 0])) none "crystal"
  let vols ← lists.mapM fun ps => Vol.make env none (ps.map .plane) none 0 (1 / 10 ^ 10) none
  let vols ← Deca.grains g strain 0 vols
  let b ← Plane.make ⟨0, 0, -1⟩ ⟨0, 0, zmin⟩ (1 / 10 ^ 5)
  let t ← Plane.make ⟨0, 0, 1⟩ ⟨0, 0, zmax⟩ (1 / 10 ^ 5)
  let c ← pyCall ["axis", "point", "radius", "length"] ["radius"]
    (Cylinder.make ⟨0, 0, 1⟩ 0 (1 / 10 ^ 3) 1 (1 / 10 ^ 5))
  let axis ← Vol.make env none [.plane b, .plane t, .cyl c] (some (.crystal g)) 0 (1 / 10 ^ 10) none
  return .multi (vols.map .vol ++ [.vol axis]) 0 none

/-- wulff.py:396-399, `icosahedral_scale_factor`. -/
def icosahedralScaleFactor : ℝ :=
  let k := (5 + Real.sqrt 5) / 8
  Real.sqrt (2 / (3 * k - 1))

/-- wulff.py:401-417, `_strain_from_111(points, basis, sf)` for one row of `points`.  (The rows are treated alike: line 416
computes the product of the column `points @ vec_111` with the row `vec_111.T`.)  A zero vector `vec_111` gives NaN. -/
def strainFrom111 (basis : M3 ℝ) (sf : ℝ) (p : V3 ℝ) : Py (V3 ℝ) := do
  let u ← unitOrNan (basis.mulVec ⟨1, 1, 1⟩)
  let disp := p - p.dot u • u
  return p + (sf - 1) • disp

/-- wulff.py:419-459, `WulffIcosahedron.get_construction` up to the construction of the strain field: `_strain_from_111` is called
without its required argument `points`. -/
def Ico.construction (env : Env) (g : Gen ℝ) (forms : Py (List (List Facet))) (rest : Gen ℝ → List Vol → Py VTree) : Py VTree := do
  let forms ← forms
  let planes ← formPlanes forms
  let lists ← planesLists 20 planes
  let vols ← lists.mapM fun ps => Vol.make env none (ps.map .plane) none 0 (1 / 10 ^ 10) none
  let _ ← pyCall ["points"] [] (.ok ())
  rest g vols

end Wulff

end

end CZ
