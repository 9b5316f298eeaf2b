import Verif.Rounded
import Verif.Transform

/-!
# `rot_vtv` in rounded arithmetic

transform.py:448-483 with every operation rounded.  NaN is the error `nan`: once the angle or the axis is NaN every entry of the matrix
is (`np.sin(nan) * 0` is NaN as well).
-/

namespace CZ
namespace Fl

noncomputable section

/-- The functions of the C library `rot_vtv` calls, and `np.pi`, with their errors. -/
structure Trig where
  acos : ℝ → ℝ
  acos_near : ∀ q, |q| ≤ 1 → |acos q - Real.arccos q| ≤ 4 * unit
  acos_one : acos 1 = 0
  sin : ℝ → ℝ
  sin_near : ∀ t, |sin t - Real.sin t| ≤ 2 * unit
  cos : ℝ → ℝ
  cos_near : ∀ t, |cos t - Real.cos t| ≤ 2 * unit
  pi : ℝ
  pi_near : |pi - Real.pi| ≤ 4 * unit

variable (A : Arith) (T : Trig)

/-- `np.linalg.norm` of one vector: the root of its dot product with itself. -/
def norm (v : V3 ℝ) : ℝ := A.rnd (Real.sqrt (A.dot v v))

/-- transform.py:480-483: the matrix for the normalised axis `a`.  `np.eye(3) + s * K + (c * K) @ K`. -/
def rodriguesOf (a : V3 ℝ) (s c : ℝ) : M3 ℝ :=
  let K := Tr.crossMat a
  let e (i k : ℝ) (row col : V3 ℝ) : ℝ :=
    A.rnd (A.rnd (i + A.rnd (s * k)) + A.dot ⟨A.rnd (c * row.x), A.rnd (c * row.y), A.rnd (c * row.z)⟩ col)
  ⟨e 1 K.m00 K.row0 K.col0, e 0 K.m01 K.row0 K.col1, e 0 K.m02 K.row0 K.col2,
   e 0 K.m10 K.row1 K.col0, e 1 K.m11 K.row1 K.col1, e 0 K.m12 K.row1 K.col2,
   e 0 K.m20 K.row2 K.col0, e 0 K.m21 K.row2 K.col1, e 1 K.m22 K.row2 K.col2⟩

/-- transform.py:478-483; a zero norm gives NaN. -/
def rodrigues (axis : V3 ℝ) (theta : ℝ) : Py (M3 ℝ) :=
  let N := norm A axis
  if N = 0 then .error .nan
  else .ok (rodriguesOf A ⟨A.rnd (axis.x / N), A.rnd (axis.y / N), A.rnd (axis.z / N)⟩ (T.sin theta) (A.rnd (1 - T.cos theta)))

/-- transform.py:466-483, `rot_vtv`.  A zero norm, and a quotient outside [-1, 1], give a NaN angle. -/
def rotVtv (v vt : V3 ℝ) : Py (M3 ℝ) :=
  let D := A.rnd (norm A v * norm A vt)
  if D = 0 then .error .nan
  else
    let q := A.rnd (A.dot v vt / D)
    if 1 < |q| then .error .nan
    else
      let theta := T.acos q
      if theta < machEps then .ok 1
      else if A.rnd (T.pi - theta) < machEps then rodrigues A T (cross A v (Tr.unitVec (Tr.argmin3 v))) theta
      else rodrigues A T (cross A v vt) theta

end
end Fl
end CZ
