import Verif.Transform

/-!
# Molecules

Model of `czone/molecule/molecule.py` over an ordered field.  Warnings are not modelled, except that building the text of
the warning in `transform` reads an attribute.
-/

namespace CZ

/-- Python values as far as the type checks `np.issubdtype(type(x), np.integer)` distinguish them; `point` is any
array-like, flattened. -/
inductive MolVal (K : Type)
  | int (n : ℤ)
  | npInt (n : ℤ)
  | bool (b : Bool)
  | float (x : K)
  | none
  | arr (xs : List K)

/-- `np.issubdtype(type(x), np.integer)` and the integer: true for int and numpy integers, false for bool. -/
def MolVal.asInt {K : Type} : MolVal K → Option ℤ
  | .int n => some n
  | .npInt n => some n
  | _ => Option.none

/-- Attributes of a molecule (molecule.py:33-49).  `originIdx`, `originPt` are `none` as long as the attribute has never
been assigned. -/
structure Mol (K : Type) where
  atoms : List (V3 K)
  species : List ℤ
  priority : ℤ
  orientation : M3 K
  tracking : Bool
  originIdx : Option ℤ
  originPt : Option (V3 K)
  printWarnings : Bool

/-- `np.reshape(a, (-1, 3))` of the flattened array: ValueError unless the size is a multiple of 3. -/
def chunk3 {K : Type} : List K → Py (List (V3 K))
  | [] => .ok []
  | x :: y :: z :: r => do return ⟨x, y, z⟩ :: (← chunk3 r)
  | _ => .error .value

/-- The entries of an (N,3) array in row order. -/
def flat3 {K : Type} (ps : List (V3 K)) : List K := ps.flatMap fun p => [p.x, p.y, p.z]

/-- Index into an axis of length `n`, negative indices count from the end; IndexError when out of range. -/
def normIdx (n : ℕ) (i : ℤ) : Py ℕ :=
  if 0 ≤ i then (if i < n then .ok i.toNat else .error .index)
  else if 0 ≤ i + n then .ok (i + n).toNat else .error .index

/-- `np.delete(xs, indices, axis=0)` for an integer list: `keep = ones(n); keep[indices] = False; xs[keep]`. -/
def npDelete {α : Type} (xs : List α) (indices : List ℤ) : Py (List α) := do
  let js ← indices.mapM (normIdx xs.length)
  npMask (js.foldl (fun m j => m.set j false) (List.replicate xs.length true)) xs

namespace Mol
section
variable {K : Type} [Field K] [LinearOrder K]

/-- molecule.py:72-83, `set_atoms(species, positions)`; arguments are given flattened, species already cast to int. -/
def setAtoms (m : Mol K) (species : List ℤ) (positions : List K) : Mol K × Py Unit :=
  match chunk3 positions with
  | .error e => (m, .error e)
  | .ok ps =>
    if ps.length ≠ species.length then (m, .error .value)
    else ({ m with species := species, atoms := ps }, .ok ())

/-- molecule.py:85-88, `update_positions`: reshape to the present shape. -/
def updatePositions (m : Mol K) (positions : List K) : Mol K × Py Unit :=
  if positions.length ≠ 3 * m.atoms.length then (m, .error .value)
  else match chunk3 positions with
    | .error e => (m, .error e)
    | .ok ps => ({ m with atoms := ps }, .ok ())

/-- molecule.py:90-93, `update_species`. -/
def updateSpecies (m : Mol K) (species : List ℤ) : Mol K × Py Unit :=
  if species.length ≠ m.species.length then (m, .error .value) else ({ m with species := species }, .ok ())

/-- molecule.py:101-106, the test of `new_origin_idx`, and 108-109: the value given must not be in the index list.  The
value is not used afterwards. -/
def checkNewOrigin (m : Mol K) (indices : List ℤ) : MolVal K → Py Unit
  | .none => .ok ()
  | x => match x.asInt with
    | Option.none => .error .type
    | some n =>
      if (m.atoms.length : ℤ) ≤ |n| then .error .index
      else if n ∈ indices then .error .index else .ok ()

/-- molecule.py:95-116, `remove_atoms(indices, new_origin_idx)`. -/
def removeAtoms (m : Mol K) (indices : List ℤ) (newOrigin : MolVal K) : Mol K × Py Unit :=
  match m.checkNewOrigin indices newOrigin with
  | .error e => (m, .error e)
  | .ok () =>
    let blocked : Py Bool :=
      if m.tracking then
        match m.originIdx with
        | none => .error .attribute
        | some i => .ok (decide (i ∈ indices))
      else .ok false
    match blocked with
    | .error e => (m, .error e)
    | .ok true => (m, .error .notImplemented)
    | .ok false =>
      match npDelete m.species indices with
      | .error e => (m, .error e)
      | .ok ss =>
        let m1 := { m with species := ss }
        match npDelete m1.atoms indices with
        | .error e => (m1, .error e)
        | .ok as => ({ m1 with atoms := as }, .ok ())

/-- molecule.py:123-128, `origin`. -/
def origin (m : Mol K) : Py (V3 K) :=
  if m.tracking then
    match m.originIdx with
    | none => .error .attribute
    | some i => do pyGet m.atoms (← normIdx m.atoms.length i)
  else match m.originPt with
    | none => .error .attribute
    | some p => .ok p

/-- molecule.py:144-152, the `_origin_idx` setter. -/
def setOriginIdx (m : Mol K) (x : MolVal K) : Mol K × Py Unit :=
  match x.asInt with
  | none => (m, .error .type)
  | some n => if |n| < (m.atoms.length : ℤ) then ({ m with originIdx := some n }, .ok ()) else (m, .error .index)

/-- molecule.py:185-197, `set_origin(point=...)`; the argument flattened. -/
def setOriginPoint (m : Mol K) : List K → Mol K × Py Unit
  | [x, y, z] => ({ m with tracking := false, originPt := some ⟨x, y, z⟩ }, .ok ())
  | _ => (m, .error .assertion)

/-- molecule.py:199-201, `set_origin(idx=...)`; tracking is switched on before the index is checked. -/
def setOriginByIdx (m : Mol K) : MolVal K → Mol K × Py Unit
  | .none => (m, .ok ())
  | x => setOriginIdx { m with tracking := true } x

/-- molecule.py:159-164, the `priority` setter. -/
def setPriority (m : Mol K) (x : MolVal K) : Mol K × Py Unit :=
  match x.asInt with
  | none => (m, .error .type)
  | some n => ({ m with priority := n }, .ok ())

/-- molecule.py:207-220, the `orientation` setter for a (3,3) matrix. -/
def setOrientation (m : Mol K) (M : M3 K) : Mol K × Py Unit :=
  if 1 / 10 ^ 6 < |M.det - 1| then (m, .error .value)
  else if 1 / 10 ^ 6 < Tr.sumAbs (M * M.transpose - 1) then (m, .error .value)
  else ({ m with orientation := M }, .ok ())

/-- molecule.py:223-225, `reset_orientation`. -/
def resetOrientation (m : Mol K) : Mol K × Py Unit := m.setOrientation 1

/-- molecule.py:166-182, `transform(transformation, transform_origin)`.  The text of the warning (line 180) reads
`_origin_idx`. -/
def transform (m : Mol K) (t : Tr K) (transformOrigin : Bool) : Mol K × Py Unit :=
  match m.setAtoms m.species (flat3 (m.atoms.map t.apply)) with
  | (m1, .error e) => (m1, .error e)
  | (m1, .ok ()) =>
    if transformOrigin then
      if m1.tracking then
        if m1.printWarnings ∧ m1.originIdx = none then (m1, .error .attribute) else (m1, .ok ())
      else match m1.origin with
        | .error e => (m1, .error e)
        | .ok o => let q := t.apply o; m1.setOriginPoint [q.x, q.y, q.z]
    else (m1, .ok ())

/-- molecule.py:41-46, the `origin` argument of the constructor. -/
def initOrigin (m : Mol K) : MolVal K → Mol K × Py Unit
  | .none => m.setOriginPoint [0, 0, 0]
  | .int n => m.setOriginByIdx (.int n)
  | .npInt n => m.setOriginByIdx (.npInt n)
  | .bool b => m.setOriginPoint [if b then 1 else 0]
  | .float x => m.setOriginPoint [x]
  | .arr xs => m.setOriginPoint xs

/-- molecule.py:33-49, `Molecule(species, positions, origin=..., orientation=...)`. -/
def make (species : List ℤ) (positions : List K) (origin : MolVal K) (orientation : Option (M3 K)) : Py (Mol K) :=
  match setAtoms ⟨[], [], 0, 1, false, none, none, true⟩ species positions with
  | (_, .error e) => .error e
  | (m1, .ok ()) =>
    match m1.initOrigin origin with
    | (_, .error e) => .error e
    | (m2, .ok ()) =>
      match orientation with
      | none => .ok m2
      | some M => match m2.setOrientation M with
        | (m, .ok ()) => .ok m
        | (_, .error e) => .error e

/-- molecule.py:253-267, `from_molecule(transformation=ts)`: a deep copy, transformed. -/
def fromMolecule (m : Mol K) : List (Tr K) → Py (Mol K)
  | [] => .ok m
  | t :: ts => match m.transform t true with
    | (m', .ok ()) => fromMolecule m' ts
    | (_, .error e) => .error e

/-- molecule.py:231-236, `checkIfInterior`. -/
def checkIfInterior (_ : Mol K) (ps : List (V3 K)) : List Bool := List.replicate ps.length false

/-- Everything a user can do to a molecule. -/
inductive Op (K : Type)
  | setAtoms (species : List ℤ) (positions : List K)
  | updatePositions (positions : List K)
  | updateSpecies (species : List ℤ)
  | removeAtoms (indices : List ℤ) (newOrigin : MolVal K)
  | setOriginPoint (xs : List K)
  | setOriginIdx (x : MolVal K)
  | setPriority (x : MolVal K)
  | setOrientation (M : M3 K)
  | resetOrientation
  | transform (t : Tr K) (transformOrigin : Bool)
  | printWarnings (b : Bool)

/-- One call; the molecule afterwards and whether it raised. -/
def step (m : Mol K) : Op K → Mol K × Py Unit
  | .setAtoms s p => m.setAtoms s p
  | .updatePositions p => m.updatePositions p
  | .updateSpecies s => m.updateSpecies s
  | .removeAtoms i n => m.removeAtoms i n
  | .setOriginPoint x => m.setOriginPoint x
  | .setOriginIdx x => m.setOriginByIdx x
  | .setPriority x => m.setPriority x
  | .setOrientation M => m.setOrientation M
  | .resetOrientation => m.resetOrientation
  | .transform t b => m.transform t b
  | .printWarnings b => ({ m with printWarnings := b }, .ok ())

/-- A history of calls, exceptions caught by the caller. -/
def run (m : Mol K) (ops : List (Op K)) : Mol K := ops.foldl (fun m o => (m.step o).1) m

end
end Mol

end CZ
