import Verif.Algebraic
import Mathlib.Analysis.SpecialFunctions.Trigonometric.Inverse

/-!
# Transformations

Model of `czone/transform/transform.py`.  Parameters (`shift`, `matrix`) are present: objects created without them
(`Translation()`) are not modelled.
-/

namespace CZ

/-- The subclasses of `MatrixTransform` (transform.py:152, 252, 265, 294). -/
inductive MatKind
  | general | inversion | rotation | reflection
  deriving DecidableEq, Repr

/-- Transformation objects: Translation (transform.py:100-122), MatrixTransform and subclasses
(transform.py:152-332), MultiTransform (transform.py:351-366). -/
inductive Tr (K : Type)
  | translation (shift : V3 K) (locked basisOnly : Bool)
  | matrix (kind : MatKind) (M : M3 K) (origin : Option (V3 K)) (locked basisOnly : Bool)
  | multi (ts : List (Tr K))

namespace Tr

section
variable {K : Type} [CommRing K]

/-- transform.py:207-214 (MatrixTransform.applyTransformation on one row; also used for Reflection). -/
def matApply (M : M3 K) (origin : Option (V3 K)) (p : V3 K) : V3 K :=
  match origin with
  | some o => M.mulVec (p - o) + o
  | none => M.mulVec p

mutual
/-- `applyTransformation` on one row: transform.py:135-136, 207-214, 411-414. -/
def apply : Tr K → V3 K → V3 K
  | .translation s _ _, p => p + s
  | .matrix _ M o _ _, p => matApply M o p
  | .multi ts, p => applyList ts p
/-- The loop of transform.py:412-413. -/
def applyList : List (Tr K) → V3 K → V3 K
  | [], p => p
  | t :: ts, p => applyList ts (apply t p)
end

mutual
/-- `applyTransformation_bases`: transform.py:138-139, 216-217, 416-419. -/
def bases : Tr K → M3 K → M3 K
  | .translation _ _ _, B => B
  | .matrix _ M _ _ _, B => M * B
  | .multi ts, B => basesList ts B
/-- The loop of transform.py:417-418. -/
def basesList : List (Tr K) → M3 K → M3 K
  | [], B => B
  | t :: ts, B => basesList ts (bases t B)
end

mutual
/-- `locked`: transform.py:77-80, 377-381 (`np.any` over the members). -/
def locked : Tr K → Bool
  | .translation _ l _ => l
  | .matrix _ _ _ l _ => l
  | .multi ts => lockedList ts
/-- `np.any([x.locked for x in self.transforms])`. -/
def lockedList : List (Tr K) → Bool
  | [] => false
  | t :: ts => locked t || lockedList ts
end

mutual
/-- `basis_only`: transform.py:88-91, 383-392. -/
def basisOnly : Tr K → Bool
  | .translation _ _ b => b
  | .matrix _ _ _ _ b => b
  | .multi ts => basisOnlyList ts
/-- `np.any([x.basis_only for x in self.transforms])`. -/
def basisOnlyList : List (Tr K) → Bool
  | [] => false
  | t :: ts => basisOnly t || basisOnlyList ts
end

/-- `Inversion(origin)`: transform.py:252-262, the matrix is fixed to -1. -/
def mkInversion (origin : Option (V3 K)) (locked basisOnly : Bool) : Tr K :=
  .matrix .inversion ((-1 : K) • (1 : M3 K)) origin locked basisOnly

end

section
variable {K : Type} [Field K] [LinearOrder K]

/-- Sum of absolute values of the entries, `np.sum(np.abs(A))`. -/
def sumAbs (A : M3 K) : K :=
  |A.m00| + |A.m01| + |A.m02| + |A.m10| + |A.m11| + |A.m12| + |A.m20| + |A.m21| + |A.m22|

/-- transform.py:265-291, `Rotation(matrix, origin)`: the two assertions of the matrix setter. -/
def mkRotation (M : M3 K) (origin : Option (V3 K)) (locked basisOnly : Bool) : Py (Tr K) :=
  if ¬ |M.det - 1| < 1 / 10 ^ 6 then .error .assertion
  else if ¬ sumAbs (M * M.transpose - 1) < 1 / 10 ^ 6 then .error .assertion
  else .ok (.matrix .rotation M origin locked basisOnly)

end

noncomputable section

open Classical

/-- `n @ n.T` for a column vector. -/
def outer (n : V3 ℝ) : M3 ℝ :=
  ⟨n.x * n.x, n.x * n.y, n.x * n.z, n.y * n.x, n.y * n.y, n.y * n.z, n.z * n.x, n.z * n.y, n.z * n.z⟩

/-- transform.py:316-319, the Householder matrix of a normal. -/
def reflMatrix (n : V3 ℝ) : M3 ℝ := 1 - (2 / n.dot n) • outer n

/-- transform.py:304-332, `Reflection(plane)`. -/
def mkReflection (pl : Plane) (locked basisOnly : Bool) : Tr ℝ :=
  .matrix .reflection (reflMatrix pl.normal) (some pl.point) locked basisOnly

/-- transform.py:219-249, `MatrixTransform.applyTransformation_alg` (in place).  The first component is the object
after the call, also when the call raises: for planes and cylinders the point is assigned before the normal or axis,
and the latter setter raises ValueError when the image of the vector is too short. -/
def matAlg (M : M3 ℝ) (origin : Option (V3 ℝ)) : Alg → Alg × Py Unit
  | .sphere s => (.sphere { s with center := matApply M origin s.center }, .ok ())
  | .plane p =>
    match Plane.normalSet (M.mulVec p.normal) with
    | .ok n => (.plane { p with point := matApply M origin p.point, normal := n }, .ok ())
    | .error e => (.plane { p with point := matApply M origin p.point }, .error e)
  | .cyl c =>
    match Cylinder.axisSet (M.mulVec c.axis) with
    | .ok a => (.cyl { c with point := matApply M origin c.point, axis := a }, .ok ())
    | .error e => (.cyl { c with point := matApply M origin c.point }, .error e)

mutual
/-- `applyTransformation_alg`: transform.py:141-149, 219-249, 338-348, 421-424.  For Reflection the first statement
`isinstance(alg_object)` raises TypeError. -/
def alg : Tr ℝ → Alg → Alg × Py Unit
  | .translation s _ _, .sphere a => (.sphere { a with center := a.center + s }, .ok ())
  | .translation s _ _, .plane a => (.plane { a with point := a.point + s }, .ok ())
  | .translation s _ _, .cyl a => (.cyl { a with point := a.point + s }, .ok ())
  | .matrix .reflection _ _ _ _, a => (a, .error .type)
  | .matrix _ M o _ _, a => matAlg M o a
  | .multi ts, a => algList ts a
/-- The loop of transform.py:422-423. -/
def algList : List (Tr ℝ) → Alg → Alg × Py Unit
  | [], a => (a, .ok ())
  | t :: ts, a =>
    match alg t a with
    | (a', .ok ()) => algList ts a'
    | (a', .error e) => (a', .error e)
end

/-- `np.argmin(v)`: first index of a minimal component. -/
def argmin3 (v : V3 ℝ) : Fin 3 :=
  if v.x ≤ v.y ∧ v.x ≤ v.z then 0 else if v.y ≤ v.z then 1 else 2

/-- `np.eye(3)[i]`. -/
def unitVec : Fin 3 → V3 ℝ
  | 0 => ⟨1, 0, 0⟩
  | 1 => ⟨0, 1, 0⟩
  | 2 => ⟨0, 0, 1⟩

/-- The cross-product matrix of transform.py:479-481. -/
def crossMat (a : V3 ℝ) : M3 ℝ := ⟨0, -a.z, a.y, a.z, 0, -a.x, -a.y, a.x, 0⟩

/-- transform.py:478-483: Rodrigues' formula for the (unnormalised) axis and the angle; a zero axis divides by zero. -/
def rodrigues (axis : V3 ℝ) (theta : ℝ) : Py (M3 ℝ) :=
  if norm3 axis = 0 then .error .nan
  else
    let A := crossMat ((norm3 axis)⁻¹ • axis)
    .ok (1 + Real.sin theta • A + (1 - Real.cos theta) • (A * A))

/-- transform.py:448-483, `rot_vtv`.  Exact arithmetic: `np.arccos` is `Real.arccos`, division by a zero norm is
`nan`. -/
def rotVtv (v vt : V3 ℝ) : Py (M3 ℝ) :=
  if norm3 v * norm3 vt = 0 then .error .nan
  else
    let theta := Real.arccos (v.dot vt / (norm3 v * norm3 vt))
    if theta < machEps then .ok 1
    else if Real.pi - theta < machEps then rodrigues (v.cross (unitVec (argmin3 v))) theta
    else rodrigues (v.cross vt) theta

/-- transform.py:432-445, `rot_v`: `from_rotvec(w).as_matrix()` is the rotation by `|w|` about `w` (scipy contract,
given by Rodrigues' formula; for angle 0 it is the identity). -/
def rotV (v : V3 ℝ) (theta : ℝ) : Py (M3 ℝ) :=
  if norm3 v = 0 then .error .nan
  else
    let w := (theta / norm3 v) • v
    if norm3 w = 0 then .ok 1 else rodrigues w (norm3 w)

/-- transform.py:284-291, `Rotation(matrix, origin)` for a computed matrix.  A matrix of NaN (a division by a zero norm in `rot_vtv` or
`rot_v`) fails the determinant test, so that AssertionError is raised. -/
def mkRotationOf (m : Py (M3 ℝ)) (origin : Option (V3 ℝ)) (locked basisOnly : Bool) : Py (Tr ℝ) :=
  match m with
  | .ok M => mkRotation M origin locked basisOnly
  | .error .nan => .error .assertion
  | .error e => .error e

/-- Elementary rotation about z (scipy convention, right handed). -/
def rotZ (a : ℝ) : M3 ℝ := ⟨Real.cos a, -Real.sin a, 0, Real.sin a, Real.cos a, 0, 0, 0, 1⟩
/-- Elementary rotation about x. -/
def rotX (a : ℝ) : M3 ℝ := ⟨1, 0, 0, 0, Real.cos a, -Real.sin a, 0, Real.sin a, Real.cos a⟩

/-- Contract of `scRotation.from_euler("ZXZ", [a,b,c])`: intrinsic, i.e. `Rz(a) Rx(b) Rz(c)`. -/
def eulerIntrinsicZXZ (a b c : ℝ) : M3 ℝ := rotZ a * rotX b * rotZ c
/-- Contract of `scRotation.from_euler("zxz", [a,b,c])`: extrinsic, first `a` about z, then `b` about x, then `c`
about z. -/
def eulerExtrinsicZXZ (a b c : ℝ) : M3 ℝ := rotZ c * rotX b * rotZ a

/-- transform.py:500-530, `rot_zxz`. -/
def rotZxz (alpha beta gamma : ℝ) (convention : String) : Py (M3 ℝ) :=
  if convention = "intrinsic" then .ok (eulerIntrinsicZXZ alpha beta gamma)
  else if convention = "extrinsic" then .ok (eulerExtrinsicZXZ gamma alpha beta)
  else .error .value

/-- transform.py:124-129, the `shift` setter for an argument of shape (N,3): it has size 3N and first dimension N. -/
def mkTranslationRows (rows : List (V3 ℝ)) : Py (Tr ℝ) :=
  if ¬ 3 * rows.length = 3 then .error .assertion
  else if ¬ rows.length = 3 then .error .assertion
  else .ok (.translation (rows.headD 0) true false)

/-- numpy broadcasting of `a - b` for shapes (N,3) and (M,3): equal lengths, or one of them 1. -/
def rowsSub (a b : List (V3 ℝ)) : Py (List (V3 ℝ)) :=
  if a.length = b.length then .ok (List.zipWith (· - ·) a b)
  else match a, b with
    | [x], _ => .ok (b.map (x - ·))
    | _, [y] => .ok (a.map (· - y))
    | _, _ => .error .value

/-- transform.py:533-571, `s2s_alignment`.  The first component is the moving plane after the call: line 562
transforms it in place. `M_point`, `T_point` have shape (3,) or (N,3). -/
def s2sAlignment (mp tp : Plane) (mPoint tPoint : PtArg) : Alg × Py (Tr ℝ) :=
  match mkRotationOf (rotVtv mp.normal ((-1 : ℝ) • tp.normal)) (some mp.point) true false with
  | .error e => (.plane mp, .error e)
  | .ok Rt =>
    match alg Rt (.plane mp) with
    | (mp', .error e) => (mp', .error e)
    | (mp', .ok ()) =>
      match tp.project mPoint with
      | .error e => (mp', .error e)
      | .ok pm =>
        match tp.project tPoint with
        | .error e => (mp', .error e)
        | .ok pt =>
          match rowsSub pt pm with
          | .error e => (mp', .error e)
          | .ok shift =>
            let mpPoint := match mp' with
              | .plane q => q.point
              | _ => mp.point
            match mkTranslationRows (shift.map fun s => tp.distFrom mpPoint • tp.normal + s) with
            | .error e => (mp', .error e)
            | .ok tt => (mp', .ok (.multi [Rt, tt]))

end

end Tr

end CZ
