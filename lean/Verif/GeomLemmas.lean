import Verif.Algebraic
import Verif.Spec.Geometry

/-! Auxiliary lemmas on real vectors. -/

namespace CZ

theorem normSq_nonneg (v : V3 ℝ) : 0 ≤ v.normSq := by
  simp only [V3.normSq, V3.dot]; nlinarith [mul_self_nonneg v.x, mul_self_nonneg v.y, mul_self_nonneg v.z]

theorem norm3_nonneg (v : V3 ℝ) : 0 ≤ norm3 v := Real.sqrt_nonneg _

theorem norm3_sq (v : V3 ℝ) : norm3 v ^ 2 = v.normSq := Real.sq_sqrt (normSq_nonneg v)

theorem norm3_mul_self (v : V3 ℝ) : norm3 v * norm3 v = v.normSq := Real.mul_self_sqrt (normSq_nonneg v)

theorem normSq_eq_zero (v : V3 ℝ) : v.normSq = 0 ↔ v = 0 := by
  constructor
  · intro h
    simp only [V3.normSq, V3.dot] at h
    have hx := mul_self_nonneg v.x
    have hy := mul_self_nonneg v.y
    have hz := mul_self_nonneg v.z
    ext
    · exact mul_self_eq_zero.mp (by linarith)
    · exact mul_self_eq_zero.mp (by linarith)
    · exact mul_self_eq_zero.mp (by linarith)
  · rintro rfl; simp [V3.normSq, V3.dot]

theorem norm3_eq_zero (v : V3 ℝ) : norm3 v = 0 ↔ v = 0 := by
  rw [norm3, Real.sqrt_eq_zero (normSq_nonneg v), normSq_eq_zero]

theorem norm3_pos (v : V3 ℝ) : 0 < norm3 v ↔ v ≠ 0 := by
  rw [lt_iff_le_and_ne, and_iff_right (norm3_nonneg v), ne_comm, Ne, norm3_eq_zero]

theorem normSq_smul (c : ℝ) (v : V3 ℝ) : (c • v).normSq = c ^ 2 * v.normSq := by
  simp only [V3.normSq, V3.dot, V3.smul_x, V3.smul_y, V3.smul_z]; ring

theorem norm3_smul (c : ℝ) (v : V3 ℝ) : norm3 (c • v) = |c| * norm3 v := by
  rw [norm3, normSq_smul, Real.sqrt_mul (sq_nonneg c), Real.sqrt_sq_eq_abs]; rfl

theorem norm3_neg (v : V3 ℝ) : norm3 (-v) = norm3 v := by
  simp [norm3, V3.normSq, V3.dot]

theorem norm3_unit {v : V3 ℝ} (h : norm3 v ≠ 0) : norm3 ((norm3 v)⁻¹ • v) = 1 := by
  rw [norm3_smul, abs_of_nonneg (inv_nonneg.mpr (norm3_nonneg v)), inv_mul_cancel₀ h]

theorem norm3_eq_one {v : V3 ℝ} : norm3 v = 1 ↔ v.normSq = 1 := by
  rw [norm3, Real.sqrt_eq_one]

theorem dist_eq (p q : V3 ℝ) : Spec.dist p q = norm3 (p - q) := by
  simp only [Spec.dist, norm3, V3.normSq, V3.dot, V3.sub_x, V3.sub_y, V3.sub_z, pow_two]

theorem len_eq (p : V3 ℝ) : Spec.len p = norm3 p := by
  simp only [Spec.len, norm3, V3.normSq, V3.dot, pow_two]

theorem perp_iff (p q : V3 ℝ) : Spec.Perp p q ↔ p.dot q = 0 := Iff.rfl

theorem machEps_pos : 0 < machEps := by unfold machEps; positivity

theorem machEps_lt_one : machEps < 1 := by unfold machEps; norm_num

theorem dot_self (v : V3 ℝ) : v.dot v = v.normSq := rfl

theorem dot_comm (v w : V3 ℝ) : v.dot w = w.dot v := by simp only [V3.dot]; ring

theorem dot_add_left (u v w : V3 ℝ) : (u + v).dot w = u.dot w + v.dot w := by simp [V3.dot]; ring
theorem dot_sub_left (u v w : V3 ℝ) : (u - v).dot w = u.dot w - v.dot w := by simp [V3.dot]; ring
theorem dot_smul_left (c : ℝ) (v w : V3 ℝ) : (c • v).dot w = c * v.dot w := by simp [V3.dot]; ring
theorem dot_neg_left (v w : V3 ℝ) : (-v).dot w = -(v.dot w) := by simp [V3.dot]; ring
theorem dot_add_right (u v w : V3 ℝ) : u.dot (v + w) = u.dot v + u.dot w := by simp [V3.dot]; ring
theorem dot_sub_right (u v w : V3 ℝ) : u.dot (v - w) = u.dot v - u.dot w := by simp [V3.dot]; ring
theorem dot_smul_right (c : ℝ) (v w : V3 ℝ) : v.dot (c • w) = c * v.dot w := by simp [V3.dot]; ring
theorem dot_neg_right (v w : V3 ℝ) : v.dot (-w) = -(v.dot w) := by simp [V3.dot]; ring

/-- Lagrange's identity. -/
theorem normSq_cross (v w : V3 ℝ) : (v.cross w).normSq = v.normSq * w.normSq - (v.dot w) ^ 2 := by
  simp only [V3.normSq, V3.dot, V3.cross]; ring

/-- Cauchy-Schwarz. -/
theorem dot_sq_le (v w : V3 ℝ) : (v.dot w) ^ 2 ≤ v.normSq * w.normSq := by
  have := normSq_nonneg (v.cross w); rw [normSq_cross] at this; linarith

theorem abs_dot_le (v w : V3 ℝ) : |v.dot w| ≤ norm3 v * norm3 w := by
  apply abs_le_of_sq_le_sq _ (mul_nonneg (norm3_nonneg _) (norm3_nonneg _))
  rw [mul_pow, norm3_sq, norm3_sq]; exact dot_sq_le v w

theorem plane_normalSet_ok {n m : V3 ℝ} (h : Plane.normalSet n = .ok m) :
    norm3 m = 1 ∧ m = (norm3 n)⁻¹ • n ∧ machEps < norm3 n := by
  unfold Plane.normalSet at h
  split at h
  · rename_i hn
    cases h
    exact ⟨norm3_unit (by linarith [machEps_pos] : norm3 n ≠ 0).symm.symm, rfl, hn⟩
  · cases h

theorem plane_normalSet_unit {n : V3 ℝ} (h : norm3 n = 1) : Plane.normalSet n = .ok n := by
  unfold Plane.normalSet
  rw [h, if_pos machEps_lt_one]
  simp

theorem cyl_axisSet_ok {n m : V3 ℝ} (h : Cylinder.axisSet n = .ok m) :
    norm3 m = 1 ∧ m = (norm3 n)⁻¹ • n ∧ machEps < norm3 n := by
  unfold Cylinder.axisSet at h
  split at h
  · cases h
  · rename_i hn
    cases h
    push Not at hn
    exact ⟨norm3_unit (by linarith [machEps_pos] : norm3 n ≠ 0).symm.symm, rfl, hn⟩

theorem cyl_axisSet_unit {n : V3 ℝ} (h : norm3 n = 1) : Cylinder.axisSet n = .ok n := by
  unfold Cylinder.axisSet
  rw [h, if_neg (not_le.mpr machEps_lt_one)]
  simp

theorem Sphere.interior_iff (s : Sphere) (p : V3 ℝ) :
    s.interior p = true ↔ (p - s.center).normSq < (s.radius + s.tol) ^ 2 := by simp [Sphere.interior]

theorem Plane.interior_iff (pl : Plane) (p : V3 ℝ) : pl.interior p = true ↔ pl.sdist p < pl.tol := by
  simp [Plane.interior]

theorem Cylinder.interior_iff (c : Cylinder) (p : V3 ℝ) :
    c.interior p = true ↔ norm3 ((p - c.point).cross c.axis) < c.radius + c.tol ∧
      |(p - c.point).dot c.axis| < c.length / 2 + c.tol := by simp [Cylinder.interior]

end CZ
