import Verif.Generator
import Mathlib.Analysis.SpecialFunctions.Trigonometric.Inverse

/-!
# Convenience constructors of Generator

Model of `Generator.from_unit_cell` and `Generator.from_spacegroup` (`czone/generator/generator.py:254-321`) over exact
reals.  The pymatgen calls they make appear as follows: `Lattice.from_parameters` is the formula of pymatgen (default
arguments), `Structure(lattice, species, coords)` keeps lattice and sites, the space group tables are parameters.
-/

namespace CZ

/-- Angle in degrees to radians (`np.radians`). -/
noncomputable def radians (t : ℝ) : ℝ := t * Real.pi / 180

/-- pymatgen `Lattice.from_parameters(a, b, c, alpha, beta, gamma)` as called in generator.py:282-287 and
generator.py:316-317; rows of the matrix are the lattice vectors: `c` along z, `a` in the x-z plane. -/
noncomputable def latticeFromParameters (dims angs : V3 ℝ) : M3 ℝ :=
  let ca := Real.cos (radians angs.x)
  let cb := Real.cos (radians angs.y)
  let cg := Real.cos (radians angs.z)
  let sa := Real.sin (radians angs.x)
  let sb := Real.sin (radians angs.y)
  let val := max (-1) (min 1 ((ca * cb - cg) / (sa * sb)))
  let gs := Real.arccos val
  ⟨dims.x * sb, 0, dims.x * cb,
   -dims.y * sa * Real.cos gs, dims.y * sa * Real.sin gs, dims.y * ca,
   0, 0, dims.z⟩

/-- pymatgen `Structure(lattice, species, coords)` (generator.py:319): lists of different length are refused (pymatgen's
StructureError, here a ValueError). -/
def structureOf {K : Type} (L : M3 K) (Z : List ℤ) (coords : List (V3 K)) : Py (Struct K) :=
  if Z.length = coords.length then .ok ⟨L, coords.zip Z⟩ else .error .value

/-- generator.py:299-321, `Generator.from_unit_cell(Z, coords, cellDims, cellAngs, origin=, strain_field=)`. -/
noncomputable def Gen.fromUnitCell (Z : List ℤ) (coords : List (V3 ℝ)) (dims angs : V3 ℝ) (origin : Option (V3 ℝ))
    (strain : Option (HStrain ℝ)) : Py (Gen ℝ) :=
  match structureOf (latticeFromParameters dims angs) Z coords with
  | .error e => .error e
  | .ok s => Gen.make origin (some s) strain

/-- The space group tables of pymatgen: `sg_symbol_from_int_number`, the number of the group with a symbol
(`SpaceGroup(int_symbol=...).int_number`), and `Structure.from_spacegroup`, which expands the symmetric sites. -/
structure SpaceGroups where
  symbolOf : ℤ → Py String
  numberOf : String → Py ℤ
  expand : ℤ → M3 ℝ → List ℤ → List (V3 ℝ) → Py (Struct ℝ)

/-- generator.py:254-297, `Generator.from_spacegroup(Z, coords, cellDims, cellAngs, sgn, sym, origin=, strain_field=)`.
Without either the table lookup is called with `None`, which pymatgen refuses (ValueError). -/
noncomputable def Gen.fromSpacegroup (sg : SpaceGroups) (Z : List ℤ) (coords : List (V3 ℝ)) (dims angs : V3 ℝ)
    (sgn : Option ℤ) (sym : Option String) (origin : Option (V3 ℝ)) (strain : Option (HStrain ℝ)) : Py (Gen ℝ) :=
  let symbol : Py String := match sym with
    | none => match sgn with
      | none => .error .value
      | some n => sg.symbolOf n
    | some s => .ok s
  match symbol with
  | .error e => .error e
  | .ok s => match sg.numberOf s with
    | .error e => .error e
    | .ok n => match sg.expand n (latticeFromParameters dims angs) Z coords with
      | .error e => .error e
      | .ok st => Gen.make origin (some st) strain

end CZ
