import Verif.Py
import Mathlib.Algebra.Module.Basic
import Mathlib.Algebra.Order.Field.Basic

/-!
# Vectors and 3x3 matrices with explicit components

`V3 K` stands for numpy arrays of shape (3,), `M3 K` for arrays of shape (3,3).  `M3.mulVec` is `M @ v`,
`M3.mul` is `A @ B`, `V3.dot` is `np.dot` of two vectors, `V3.cross` is `np.cross`.
-/

namespace CZ

/-- A point or vector in space. -/
@[ext] structure V3 (K : Type) where
  x : K
  y : K
  z : K
  deriving DecidableEq, Repr

/-- A 3x3 matrix, `mij` is row `i`, column `j`. -/
@[ext] structure M3 (K : Type) where
  m00 : K
  m01 : K
  m02 : K
  m10 : K
  m11 : K
  m12 : K
  m20 : K
  m21 : K
  m22 : K
  deriving DecidableEq, Repr

namespace V3

variable {K : Type}

instance [Zero K] : Zero (V3 K) := ⟨⟨0, 0, 0⟩⟩
instance [Add K] : Add (V3 K) := ⟨fun a b => ⟨a.x + b.x, a.y + b.y, a.z + b.z⟩⟩
instance [Sub K] : Sub (V3 K) := ⟨fun a b => ⟨a.x - b.x, a.y - b.y, a.z - b.z⟩⟩
instance [Neg K] : Neg (V3 K) := ⟨fun a => ⟨-a.x, -a.y, -a.z⟩⟩
instance [Mul K] : SMul K (V3 K) := ⟨fun c a => ⟨c * a.x, c * a.y, c * a.z⟩⟩

@[simp] theorem zero_x [Zero K] : (0 : V3 K).x = 0 := rfl
@[simp] theorem zero_y [Zero K] : (0 : V3 K).y = 0 := rfl
@[simp] theorem zero_z [Zero K] : (0 : V3 K).z = 0 := rfl
@[simp] theorem add_x [Add K] (a b : V3 K) : (a + b).x = a.x + b.x := rfl
@[simp] theorem add_y [Add K] (a b : V3 K) : (a + b).y = a.y + b.y := rfl
@[simp] theorem add_z [Add K] (a b : V3 K) : (a + b).z = a.z + b.z := rfl
@[simp] theorem sub_x [Sub K] (a b : V3 K) : (a - b).x = a.x - b.x := rfl
@[simp] theorem sub_y [Sub K] (a b : V3 K) : (a - b).y = a.y - b.y := rfl
@[simp] theorem sub_z [Sub K] (a b : V3 K) : (a - b).z = a.z - b.z := rfl
@[simp] theorem neg_x [Neg K] (a : V3 K) : (-a).x = -a.x := rfl
@[simp] theorem neg_y [Neg K] (a : V3 K) : (-a).y = -a.y := rfl
@[simp] theorem neg_z [Neg K] (a : V3 K) : (-a).z = -a.z := rfl
@[simp] theorem smul_x [Mul K] (c : K) (a : V3 K) : (c • a).x = c * a.x := rfl
@[simp] theorem smul_y [Mul K] (c : K) (a : V3 K) : (c • a).y = c * a.y := rfl
@[simp] theorem smul_z [Mul K] (c : K) (a : V3 K) : (c • a).z = c * a.z := rfl

instance instAddCommGroup [CommRing K] : AddCommGroup (V3 K) where
  add_assoc a b c := by ext <;> simp [add_assoc]
  zero_add a := by ext <;> simp
  add_zero a := by ext <;> simp
  add_comm a b := by ext <;> simp [add_comm]
  neg_add_cancel a := by ext <;> simp
  sub_eq_add_neg a b := by ext <;> simp [sub_eq_add_neg]
  nsmul := nsmulRec
  zsmul := zsmulRec

instance instModule [CommRing K] : Module K (V3 K) where
  smul := fun c a => ⟨c * a.x, c * a.y, c * a.z⟩
  one_smul a := by ext <;> show 1 * _ = _ <;> simp
  mul_smul c d a := by ext <;> show _ * _ * _ = _ * (_ * _) <;> ring
  smul_zero c := by ext <;> show c * 0 = 0 <;> simp
  smul_add c a b := by ext <;> show c * (_ + _) = c * _ + c * _ <;> ring
  add_smul c d a := by ext <;> show (c + d) * _ = c * _ + d * _ <;> ring
  zero_smul a := by ext <;> show 0 * _ = 0 <;> simp

section
variable [CommRing K]

/-- `np.dot(a, b)` for vectors. -/
def dot (a b : V3 K) : K := a.x * b.x + a.y * b.y + a.z * b.z

/-- `np.cross(a, b)`. -/
def cross (a b : V3 K) : V3 K :=
  ⟨a.y * b.z - a.z * b.y, a.z * b.x - a.x * b.z, a.x * b.y - a.y * b.x⟩

/-- `np.sum(a**2)`. -/
def normSq (a : V3 K) : K := a.dot a

end

end V3

namespace M3

variable {K : Type} [CommRing K]

/-- `np.eye(3)`. -/
instance : One (M3 K) := ⟨⟨1, 0, 0, 0, 1, 0, 0, 0, 1⟩⟩

/-- `A @ B`. -/
instance : Mul (M3 K) := ⟨fun A B =>
  ⟨A.m00 * B.m00 + A.m01 * B.m10 + A.m02 * B.m20, A.m00 * B.m01 + A.m01 * B.m11 + A.m02 * B.m21,
   A.m00 * B.m02 + A.m01 * B.m12 + A.m02 * B.m22,
   A.m10 * B.m00 + A.m11 * B.m10 + A.m12 * B.m20, A.m10 * B.m01 + A.m11 * B.m11 + A.m12 * B.m21,
   A.m10 * B.m02 + A.m11 * B.m12 + A.m12 * B.m22,
   A.m20 * B.m00 + A.m21 * B.m10 + A.m22 * B.m20, A.m20 * B.m01 + A.m21 * B.m11 + A.m22 * B.m21,
   A.m20 * B.m02 + A.m21 * B.m12 + A.m22 * B.m22⟩⟩

instance : Add (M3 K) := ⟨fun A B =>
  ⟨A.m00 + B.m00, A.m01 + B.m01, A.m02 + B.m02, A.m10 + B.m10, A.m11 + B.m11, A.m12 + B.m12,
   A.m20 + B.m20, A.m21 + B.m21, A.m22 + B.m22⟩⟩

instance : Sub (M3 K) := ⟨fun A B =>
  ⟨A.m00 - B.m00, A.m01 - B.m01, A.m02 - B.m02, A.m10 - B.m10, A.m11 - B.m11, A.m12 - B.m12,
   A.m20 - B.m20, A.m21 - B.m21, A.m22 - B.m22⟩⟩

instance : SMul K (M3 K) := ⟨fun c A =>
  ⟨c * A.m00, c * A.m01, c * A.m02, c * A.m10, c * A.m11, c * A.m12, c * A.m20, c * A.m21, c * A.m22⟩⟩

theorem one_def : (1 : M3 K) = ⟨1, 0, 0, 0, 1, 0, 0, 0, 1⟩ := rfl

theorem mul_def (A B : M3 K) : A * B =
  ⟨A.m00 * B.m00 + A.m01 * B.m10 + A.m02 * B.m20, A.m00 * B.m01 + A.m01 * B.m11 + A.m02 * B.m21,
   A.m00 * B.m02 + A.m01 * B.m12 + A.m02 * B.m22,
   A.m10 * B.m00 + A.m11 * B.m10 + A.m12 * B.m20, A.m10 * B.m01 + A.m11 * B.m11 + A.m12 * B.m21,
   A.m10 * B.m02 + A.m11 * B.m12 + A.m12 * B.m22,
   A.m20 * B.m00 + A.m21 * B.m10 + A.m22 * B.m20, A.m20 * B.m01 + A.m21 * B.m11 + A.m22 * B.m21,
   A.m20 * B.m02 + A.m21 * B.m12 + A.m22 * B.m22⟩ := rfl

theorem add_def (A B : M3 K) : A + B =
  ⟨A.m00 + B.m00, A.m01 + B.m01, A.m02 + B.m02, A.m10 + B.m10, A.m11 + B.m11, A.m12 + B.m12,
   A.m20 + B.m20, A.m21 + B.m21, A.m22 + B.m22⟩ := rfl

theorem sub_def (A B : M3 K) : A - B =
  ⟨A.m00 - B.m00, A.m01 - B.m01, A.m02 - B.m02, A.m10 - B.m10, A.m11 - B.m11, A.m12 - B.m12,
   A.m20 - B.m20, A.m21 - B.m21, A.m22 - B.m22⟩ := rfl

theorem smul_def (c : K) (A : M3 K) : c • A =
  ⟨c * A.m00, c * A.m01, c * A.m02, c * A.m10, c * A.m11, c * A.m12, c * A.m20, c * A.m21, c * A.m22⟩ := rfl

/-- `A.T`. -/
def transpose (A : M3 K) : M3 K := ⟨A.m00, A.m10, A.m20, A.m01, A.m11, A.m21, A.m02, A.m12, A.m22⟩

/-- `A @ v`. -/
def mulVec (A : M3 K) (v : V3 K) : V3 K :=
  ⟨A.m00 * v.x + A.m01 * v.y + A.m02 * v.z, A.m10 * v.x + A.m11 * v.y + A.m12 * v.z,
   A.m20 * v.x + A.m21 * v.y + A.m22 * v.z⟩

/-- `np.linalg.det(A)`. -/
def det (A : M3 K) : K :=
  A.m00 * (A.m11 * A.m22 - A.m12 * A.m21) - A.m01 * (A.m10 * A.m22 - A.m12 * A.m20)
    + A.m02 * (A.m10 * A.m21 - A.m11 * A.m20)

/-- Adjugate matrix (transposed cofactors). -/
def adj (A : M3 K) : M3 K :=
  ⟨A.m11 * A.m22 - A.m12 * A.m21, A.m02 * A.m21 - A.m01 * A.m22, A.m01 * A.m12 - A.m02 * A.m11,
   A.m12 * A.m20 - A.m10 * A.m22, A.m00 * A.m22 - A.m02 * A.m20, A.m02 * A.m10 - A.m00 * A.m12,
   A.m10 * A.m21 - A.m11 * A.m20, A.m01 * A.m20 - A.m00 * A.m21, A.m00 * A.m11 - A.m01 * A.m10⟩

/-- Row vectors `A[i, :]`. -/
def row0 (A : M3 K) : V3 K := ⟨A.m00, A.m01, A.m02⟩
def row1 (A : M3 K) : V3 K := ⟨A.m10, A.m11, A.m12⟩
def row2 (A : M3 K) : V3 K := ⟨A.m20, A.m21, A.m22⟩
/-- Column vectors `A[:, j]`. -/
def col0 (A : M3 K) : V3 K := ⟨A.m00, A.m10, A.m20⟩
def col1 (A : M3 K) : V3 K := ⟨A.m01, A.m11, A.m21⟩
def col2 (A : M3 K) : V3 K := ⟨A.m02, A.m12, A.m22⟩

theorem mulVec_mul (A B : M3 K) (v : V3 K) : (A * B).mulVec v = A.mulVec (B.mulVec v) := by
  ext <;> simp [mulVec, mul_def] <;> ring

theorem mulVec_one (v : V3 K) : (1 : M3 K).mulVec v = v := by
  ext <;> simp [mulVec, one_def]

theorem mulVec_add (A : M3 K) (v w : V3 K) : A.mulVec (v + w) = A.mulVec v + A.mulVec w := by
  ext <;> simp [mulVec] <;> ring

theorem mulVec_sub (A : M3 K) (v w : V3 K) : A.mulVec (v - w) = A.mulVec v - A.mulVec w := by
  ext <;> simp [mulVec] <;> ring

theorem mulVec_smul (A : M3 K) (c : K) (v : V3 K) : A.mulVec (c • v) = c • A.mulVec v := by
  ext <;> simp [mulVec] <;> ring

theorem mulVec_neg (A : M3 K) (v : V3 K) : A.mulVec (-v) = -A.mulVec v := by
  ext <;> simp [mulVec] <;> ring

theorem mulVec_zero (A : M3 K) : A.mulVec 0 = 0 := by
  ext <;> simp [mulVec]

theorem mul_assoc' (A B C : M3 K) : A * B * C = A * (B * C) := by
  ext <;> simp [mul_def] <;> ring

theorem mul_one' (A : M3 K) : A * 1 = A := by ext <;> simp [mul_def, one_def]

theorem one_mul' (A : M3 K) : 1 * A = A := by ext <;> simp [mul_def, one_def]

theorem det_mul (A B : M3 K) : (A * B).det = A.det * B.det := by
  simp only [det, mul_def]; ring

theorem det_transpose (A : M3 K) : A.transpose.det = A.det := by
  simp only [det, transpose]; ring

theorem det_one : (1 : M3 K).det = 1 := by simp [det, one_def]

theorem transpose_mul (A B : M3 K) : (A * B).transpose = B.transpose * A.transpose := by
  ext <;> simp [transpose, mul_def] <;> ring

theorem adj_mulVec_mulVec (A : M3 K) (v : V3 K) : A.adj.mulVec (A.mulVec v) = A.det • v := by
  ext <;> simp [adj, mulVec, det] <;> ring

theorem mulVec_adj_mulVec (A : M3 K) (v : V3 K) : A.mulVec (A.adj.mulVec v) = A.det • v := by
  ext <;> simp [adj, mulVec, det] <;> ring

theorem adj_mul (A : M3 K) : A.adj * A = A.det • (1 : M3 K) := by
  ext <;> simp only [adj, mul_def, smul_def, one_def, det] <;> ring

theorem mul_adj (A : M3 K) : A * A.adj = A.det • (1 : M3 K) := by
  ext <;> simp only [adj, mul_def, smul_def, one_def, det] <;> ring

theorem smul_mul' (c : K) (A B : M3 K) : (c • A) * B = c • (A * B) := by
  ext <;> simp only [mul_def, smul_def] <;> ring

theorem mul_smul' (c : K) (A B : M3 K) : A * (c • B) = c • (A * B) := by
  ext <;> simp only [mul_def, smul_def] <;> ring

theorem smul_mulVec (c : K) (A : M3 K) (v : V3 K) : (c • A).mulVec v = c • A.mulVec v := by
  ext <;> simp [mulVec, smul_def] <;> ring

theorem dot_mulVec (A : M3 K) (v w : V3 K) : (A.mulVec v).dot w = v.dot (A.transpose.mulVec w) := by
  simp only [V3.dot, mulVec, transpose]; ring

end M3

section Field
variable {K : Type} [Field K]

/-- `np.linalg.solve(A, b)`: LinAlgError on a singular matrix, else the unique solution (exact arithmetic). -/
def M3.solve [DecidableEq K] (A : M3 K) (b : V3 K) : Py (V3 K) :=
  if A.det = 0 then .error .linAlg else .ok ((A.det)⁻¹ • A.adj.mulVec b)

/-- `np.linalg.inv(A)`. -/
def M3.inv [DecidableEq K] (A : M3 K) : Py (M3 K) :=
  if A.det = 0 then .error .linAlg else .ok ((A.det)⁻¹ • A.adj)

/-- `solve` really solves: the result is the only `x` with `A @ x = b`. -/
theorem M3.solve_iff [DecidableEq K] (A : M3 K) (b x : V3 K) (h : A.det ≠ 0) :
    A.solve b = .ok x ↔ A.mulVec x = b := by
  simp only [M3.solve, if_neg h, Except.ok.injEq]
  constructor
  · rintro rfl
    rw [M3.mulVec_smul, M3.mulVec_adj_mulVec]
    ext <;> simp [h]
  · rintro rfl
    rw [M3.adj_mulVec_mulVec]
    ext <;> simp [h]

theorem M3.solve_ok [DecidableEq K] (A : M3 K) (b : V3 K) (h : A.det ≠ 0) :
    A.solve b = .ok ((A.det)⁻¹ • A.adj.mulVec b) := by simp [M3.solve, h]

theorem M3.inv_mul [DecidableEq K] (A B : M3 K) (hB : A.inv = .ok B) : B * A = 1 ∧ A * B = 1 := by
  unfold M3.inv at hB
  split at hB
  · cases hB
  · rename_i h
    have hB' := Except.ok.inj hB
    subst hB'
    rw [M3.smul_mul', M3.mul_smul', M3.adj_mul, M3.mul_adj]
    have : (A.det)⁻¹ • (A.det • (1 : M3 K)) = 1 := by
      ext <;> simp [M3.smul_def, M3.one_def, h]
    exact ⟨this, this⟩

end Field

end CZ
