import Verif.Transform

/-!
# Assignments to transformation objects

Model of the property setters of `czone/transform/transform.py` over histories of assignments.  Values are numpy arrays of the
shapes (3,3), (3,1), (1,3), (3,) and lists or tuples of three numbers; other values are not modelled.  Arrays are values here: an
array changed in place after it was assigned is not modelled (`Rotation._matrix` is the array given).
-/

namespace CZ
namespace TrSet

/-- What is assigned to `shift`, `matrix` or `origin`. -/
inductive Arr
  | mat (M : M3 ℝ)
  | col (v : V3 ℝ)
  | row (v : V3 ℝ)
  | vec (v : V3 ℝ)
  | list (v : V3 ℝ)

/-- What is assigned to `Reflection.plane`. -/
inductive PlaneVal
  | plane (p : Plane)
  | other

/-- The attribute `_matrix`: None, a matrix of numbers, or a matrix with entries that are nan or infinite. -/
inductive MatVal
  | unset
  | num (M : M3 ℝ)
  | bad

/-- Attributes of MatrixTransform and its subclasses (transform.py:30-32, 164-178, 304-314). -/
structure MObj where
  kind : MatKind
  matrix : MatVal
  origin : Option (V3 ℝ)
  plane : Option Plane
  locked : Bool
  basisOnly : Bool

noncomputable section
open Classical

/-- The matrix of ones. -/
def ones : M3 ℝ := ⟨1, 1, 1, 1, 1, 1, 1, 1, 1⟩

/-- `(2.0 / A) * B` entry by entry for arrays of shape (3,3); none when an entry of A is 0. -/
def twoOver (A B : M3 ℝ) : Option (M3 ℝ) :=
  if A.m00 = 0 ∨ A.m01 = 0 ∨ A.m02 = 0 ∨ A.m10 = 0 ∨ A.m11 = 0 ∨ A.m12 = 0 ∨ A.m20 = 0 ∨ A.m21 = 0 ∨ A.m22 = 0 then none
  else some ⟨2 / A.m00 * B.m00, 2 / A.m01 * B.m01, 2 / A.m02 * B.m02, 2 / A.m10 * B.m10, 2 / A.m11 * B.m11, 2 / A.m12 * B.m12,
    2 / A.m20 * B.m20, 2 / A.m21 * B.m21, 2 / A.m22 * B.m22⟩

/-- transform.py:316-319, the value stored by the `matrix` setter of Reflection: `eye(3) - (2 / (normal.T @ normal)) * (normal @ normal.T)`.
For shape (3,) both products are the number `n·n`; for (1,3) the first one is a 3×3 array and the second one the number; for (3,3) both
are 3×3 arrays.  A list has no attribute `T`. -/
def reflStore : Arr → Py MatVal
  | .list _ => .error .attribute
  | .col n => .ok (if n.dot n = 0 then .bad else .num (1 - (2 / n.dot n) • Tr.outer n))
  | .vec n => .ok (if n.dot n = 0 then .bad else .num (1 - (2 / n.dot n * n.dot n) • ones))
  | .row n => .ok (match twoOver (Tr.outer n) (n.dot n • ones) with
    | none => .bad
    | some C => .num (1 - C))
  | .mat M => .ok (match twoOver (M.transpose * M) (M * M.transpose) with
    | none => .bad
    | some C => .num (1 - C))

/-- The `matrix` setters: transform.py:185-189 (MatrixTransform), 259-262 (Inversion: a property without setter), 282-291
(Rotation), 316-319 (Reflection).  A list has no attribute `shape`. -/
def matrixStore : MatKind → Arr → Py MatVal
  | .inversion, _ => .error .attribute
  | .reflection, a => reflStore a
  | _, .list _ => .error .attribute
  | .general, .mat M => .ok (.num M)
  | .rotation, .mat M =>
    if ¬ |M.det - 1| < 1 / 10 ^ 6 then .error .assertion
    else if ¬ Tr.sumAbs (M * M.transpose - 1) < 1 / 10 ^ 6 then .error .assertion
    else .ok (.num M)
  | _, _ => .error .assertion

/-- transform.py:196-202, the value stored by the `origin` setter; `reshape((3,))` of a (3,3) array raises ValueError. -/
def originStore : Arr → Py (V3 ℝ)
  | .mat _ => .error .value
  | .col v => .ok v
  | .row v => .ok v
  | .vec v => .ok v
  | .list v => .ok v

namespace MObj

/-- Assignment to `matrix`. -/
def setMatrix (o : MObj) (a : Arr) : MObj × Py Unit :=
  match matrixStore o.kind a with
  | .ok m => ({ o with matrix := m }, .ok ())
  | .error e => (o, .error e)

/-- Assignment to `origin`. -/
def setOrigin (o : MObj) (a : Arr) : MObj × Py Unit :=
  match originStore a with
  | .ok v => ({ o with origin := some v }, .ok ())
  | .error e => (o, .error e)

/-- transform.py:325-332, assignment to `plane` of a Reflection: the plane is stored, its normal goes to the matrix setter as a
column, its point to the origin setter.  Other classes have no such property: the attribute is stored and never read. -/
def setPlane (o : MObj) (v : PlaneVal) : MObj × Py Unit :=
  match o.kind with
  | .reflection => match v with
    | .plane p =>
      match ({ o with plane := some p }).setMatrix (.col p.normal) with
      | (o', .ok ()) => o'.setOrigin (.vec p.point)
      | (o', .error e) => (o', .error e)
    | .other => (o, .error .assertion)
  | _ => (o, .ok ())

/-- transform.py:82-86, assignment to `locked`; `none` stands for a value that is not a bool. -/
def setLocked (o : MObj) : Option Bool → MObj × Py Unit
  | some b => ({ o with locked := b }, .ok ())
  | none => (o, .error .assertion)

/-- transform.py:93-97, assignment to `basis_only`. -/
def setBasisOnly (o : MObj) : Option Bool → MObj × Py Unit
  | some b => ({ o with basisOnly := b }, .ok ())
  | none => (o, .error .assertion)

/-- Assignments. -/
inductive Op
  | matrix (a : Arr)
  | origin (a : Arr)
  | plane (v : PlaneVal)
  | locked (b : Option Bool)
  | basisOnly (b : Option Bool)

/-- One assignment. -/
def step (o : MObj) : Op → MObj × Py Unit
  | .matrix a => o.setMatrix a
  | .origin a => o.setOrigin a
  | .plane v => o.setPlane v
  | .locked b => o.setLocked b
  | .basisOnly b => o.setBasisOnly b

/-- A history of assignments; refused ones raise and the caller goes on. -/
def run (o : MObj) (ops : List Op) : MObj := ops.foldl (fun o op => (o.step op).1) o

/-- transform.py:30-32, 164-178, 272-280: `MatrixTransform(matrix, origin, locked, basis_only)`, `Rotation(...)`, `Inversion(...)`;
`none` means None.  The flags are assigned last. -/
def make (kind : MatKind) (matrix origin : Option Arr) (locked basisOnly : Option Bool) : Py MObj :=
  match (match matrix with
    | none => .ok .unset
    | some a => matrixStore kind a : Py MatVal) with
  | .error e => .error e
  | .ok m => match (match origin with
      | none => .ok none
      | some a => (originStore a).map some : Py (Option (V3 ℝ))) with
    | .error e => .error e
    | .ok p => match locked with
      | none => .error .assertion
      | some l => match basisOnly with
        | none => .error .assertion
        | some b => .ok ⟨kind, m, p, none, l, b⟩

/-- transform.py:304-314, `Reflection(plane, locked, basis_only)`. -/
def makeReflection (plane : Option PlaneVal) (locked basisOnly : Option Bool) : Py MObj := do
  let o ← make .reflection none none locked basisOnly
  match plane with
  | none => .ok o
  | some v => match o.setPlane v with
    | (o', .ok ()) => .ok o'
    | (_, .error e) => .error e

/-- The property `matrix` (transform.py:180-183, 259-262). -/
def matrixOf (o : MObj) : MatVal :=
  match o.kind with
  | .inversion => .num ((-1 : ℝ) • (1 : M3 ℝ))
  | _ => o.matrix

/-- transform.py:207-214, `applyTransformation` on an array of shape (N,3).  With matrix None the product of None and a number
raises TypeError (of no points: nothing). -/
def apply (o : MObj) (ps : List (V3 ℝ)) : Py (List (V3 ℝ)) :=
  match o.matrixOf with
  | .unset => if ps = [] then .ok [] else .error .type
  | .bad => .error .nan
  | .num M => .ok (ps.map (Tr.matApply M o.origin))

end MObj

/-- The attribute `_shift`: None, an array of shape (3,) or of shape (3,1). -/
inductive Shift
  | unset
  | vec (v : V3 ℝ)
  | col (v : V3 ℝ)

/-- transform.py:124-129, the `shift` setter: three entries, and the first axis has length 3. -/
def shiftSet (old : Shift) : Arr → Shift × Py Unit
  | .vec v => (.vec v, .ok ())
  | .list v => (.vec v, .ok ())
  | .col v => (.col v, .ok ())
  | .row _ => (old, .error .assertion)
  | .mat _ => (old, .error .assertion)

/-- transform.py:135-136, `points + self.shift` for an array of shape (N,3), with broadcasting.  A column of three numbers is added
to the rows of three points, or to three copies of one point. -/
def shiftApply : Shift → List (V3 ℝ) → Py (List (V3 ℝ))
  | .unset, ps => if ps = [] then .ok [] else .error .type
  | .vec v, ps => .ok (ps.map (· + v))
  | .col v, [p] => .ok [p + ⟨v.x, v.x, v.x⟩, p + ⟨v.y, v.y, v.y⟩, p + ⟨v.z, v.z, v.z⟩]
  | .col v, [p, q, r] => .ok [p + ⟨v.x, v.x, v.x⟩, q + ⟨v.y, v.y, v.y⟩, r + ⟨v.z, v.z, v.z⟩]
  | .col _, _ => .error .value

/-- A history of assignments to `shift`. -/
def shiftRun (s : Shift) (as : List Arr) : Shift := as.foldl (fun s a => (shiftSet s a).1) s

end
end TrSet
end CZ
