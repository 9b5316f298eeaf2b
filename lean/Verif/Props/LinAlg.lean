import Verif.Geom
import Mathlib.LinearAlgebra.Matrix.Determinant.Basic
import Mathlib.LinearAlgebra.Matrix.NonsingularInverse
import Mathlib.LinearAlgebra.CrossProduct
import Mathlib.Data.Matrix.Mul

/-!
# The vectors and matrices of the model are those of Mathlib

Statements of properties use `mulVec`, `transpose`, `det`, `dot`, `cross` of `V3` and `M3`.  Here they are identified with
Mathlib's operations on `Fin 3 → K` and `Matrix (Fin 3) (Fin 3) K`.
-/

namespace CZ
variable {K : Type}

/-- Components as a function of the index. -/
def V3.toFun (v : V3 K) : Fin 3 → K := ![v.x, v.y, v.z]

/-- Entries as a Mathlib matrix. -/
def M3.toMatrix (M : M3 K) : Matrix (Fin 3) (Fin 3) K :=
  !![M.m00, M.m01, M.m02; M.m10, M.m11, M.m12; M.m20, M.m21, M.m22]

theorem V3.toFun_injective : Function.Injective (V3.toFun (K := K)) := by
  intro v w h
  have h0 := congrFun h 0
  have h1 := congrFun h 1
  have h2 := congrFun h 2
  simp [V3.toFun] at h0 h1 h2
  ext <;> assumption

theorem M3.toMatrix_injective : Function.Injective (M3.toMatrix (K := K)) := by
  intro A B h
  have e : ∀ i j, A.toMatrix i j = B.toMatrix i j := fun i j => by rw [h]
  have h00 := e 0 0; have h01 := e 0 1; have h02 := e 0 2
  have h10 := e 1 0; have h11 := e 1 1; have h12 := e 1 2
  have h20 := e 2 0; have h21 := e 2 1; have h22 := e 2 2
  simp [M3.toMatrix] at h00 h01 h02 h10 h11 h12 h20 h21 h22
  ext <;> assumption

section
variable [CommRing K]

theorem toFun_add (v w : V3 K) : (v + w).toFun = v.toFun + w.toFun := by
  funext i; fin_cases i <;> simp [V3.toFun]

theorem toFun_sub (v w : V3 K) : (v - w).toFun = v.toFun - w.toFun := by
  funext i; fin_cases i <;> simp [V3.toFun]

theorem toFun_smul (c : K) (v : V3 K) : (c • v).toFun = c • v.toFun := by
  funext i; fin_cases i <;> simp [V3.toFun]

theorem toFun_dot (v w : V3 K) : v.dot w = v.toFun ⬝ᵥ w.toFun := by
  simp [V3.toFun, V3.dot, dotProduct, Fin.sum_univ_three]

theorem toFun_cross (v w : V3 K) : (v.cross w).toFun = crossProduct v.toFun w.toFun := by
  rw [cross_apply]
  funext i; fin_cases i <;> simp [V3.toFun, V3.cross]

theorem toMatrix_mulVec (M : M3 K) (v : V3 K) : (M.mulVec v).toFun = M.toMatrix.mulVec v.toFun := by
  funext i; fin_cases i <;> simp [V3.toFun, M3.toMatrix, M3.mulVec, Matrix.mulVec, dotProduct, Fin.sum_univ_three]

theorem toMatrix_mul (A B : M3 K) : (A * B).toMatrix = A.toMatrix * B.toMatrix := by
  ext i j; fin_cases i <;> fin_cases j <;> simp [M3.toMatrix, M3.mul_def, Matrix.mul_apply, Fin.sum_univ_three]

theorem toMatrix_one : (1 : M3 K).toMatrix = 1 := by
  ext i j; fin_cases i <;> fin_cases j <;> simp [M3.toMatrix, M3.one_def]

theorem toMatrix_transpose (A : M3 K) : A.transpose.toMatrix = A.toMatrix.transpose := by
  ext i j; fin_cases i <;> fin_cases j <;> simp [M3.toMatrix, M3.transpose]

theorem toMatrix_det (A : M3 K) : A.det = A.toMatrix.det := by
  rw [Matrix.det_fin_three]; simp [M3.toMatrix, M3.det]; ring

theorem toMatrix_smul (c : K) (A : M3 K) : (c • A).toMatrix = c • A.toMatrix := by
  ext i j; fin_cases i <;> fin_cases j <;> simp [M3.toMatrix, M3.smul_def]

end

/-- `M3.inv` is the inverse of Mathlib where it exists, and raises exactly where Mathlib's matrix is not invertible. -/
theorem toMatrix_inv [Field K] [DecidableEq K] (A : M3 K) :
    (∀ B, A.inv = .ok B ↔ IsUnit A.toMatrix ∧ B.toMatrix = A.toMatrix⁻¹) ∧
    (A.inv = .error .linAlg ↔ ¬ IsUnit A.toMatrix) := by
  have hu : IsUnit A.toMatrix ↔ A.det ≠ 0 := by rw [Matrix.isUnit_iff_isUnit_det, ← toMatrix_det, isUnit_iff_ne_zero]
  rw [hu]
  by_cases h : A.det = 0
  · simp [M3.inv, h]
  · refine ⟨fun B => ⟨fun hB => ⟨h, ?_⟩, fun ⟨_, hB⟩ => ?_⟩, by simp [M3.inv, h]⟩
    · have := (M3.inv_mul A B hB).1
      refine (Matrix.inv_eq_left_inv ?_).symm
      rw [← toMatrix_mul, this, toMatrix_one]
    · have hok : A.inv = .ok ((A.det)⁻¹ • A.adj) := by simp [M3.inv, h]
      rw [hok]
      congr 1
      apply M3.toMatrix_injective
      rw [hB]
      refine (Matrix.inv_eq_left_inv ?_).symm
      rw [← toMatrix_mul, (M3.inv_mul A _ hok).1, toMatrix_one]

/-- A concrete case. -/
example : (⟨2, 0, 0, 0, 1, 1, 0, 0, 1⟩ : M3 ℚ).det = 2 ∧
    ((⟨2, 0, 0, 0, 1, 1, 0, 0, 1⟩ : M3 ℚ).mulVec ⟨1, 2, 3⟩).toFun = ![2, 5, 3] := by
  constructor
  · norm_num [M3.det]
  · norm_num [M3.mulVec, V3.toFun]

end CZ
