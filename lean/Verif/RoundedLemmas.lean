import Verif.Rounded
import Verif.GeomLemmas
import Mathlib.Tactic.Positivity
import Mathlib.Tactic.LinearCombination

/-!
# Error bounds of rounded operations
-/

namespace CZ
namespace Fl

theorem unit_eq : unit = 1 / 9007199254740992 := by norm_num [unit]
theorem unit_pos : 0 < unit := by rw [unit_eq]; norm_num
theorem tiny_pos : 0 < tiny := by unfold tiny; positivity
theorem half_pow_le {m n : ℕ} (h : n ≤ m) : (1 / 2 : ℝ) ^ m ≤ (1 / 2) ^ n :=
  pow_le_pow_of_le_one (by norm_num) (by norm_num) h
/-- 2^75 times the absolute error is 2^-1000. -/
theorem tiny_le : tiny ≤ (1 / 2) ^ 75 * (1 / 2) ^ 1000 := by unfold tiny; rw [← pow_add]
theorem tiny_le_unit : tiny ≤ 1 / 2 ^ 60 := by
  have h : (1 / 2 : ℝ) ^ 1075 ≤ (1 / 2) ^ 60 := half_pow_le (by norm_num)
  have e : ((1 : ℝ) / 2) ^ 60 = 1 / 2 ^ 60 := by norm_num
  unfold tiny; exact h.trans e.le

theorem bound_nonneg {a : ℝ} (ha : 0 ≤ a) : 0 ≤ 4 * unit * a + 6 * tiny := by
  have := mul_nonneg unit_pos.le ha
  have := tiny_pos
  linarith

/-- Rounding a value known up to `e`. -/
theorem Arith.step (A : Arith) {x x0 e : ℝ} (h : |x - x0| ≤ e) : |A.rnd x - x0| ≤ (1 + unit) * e + unit * |x0| + tiny := by
  have h1 := A.near x
  have h2 : |x| ≤ |x0| + e := by have := abs_sub_abs_le_abs_sub x x0; linarith
  have h3 : |A.rnd x - x0| ≤ |A.rnd x - x| + |x - x0| := abs_sub_le _ _ _
  have h4 := mul_le_mul_of_nonneg_left h2 unit_pos.le
  linarith

theorem add_near {a b a0 b0 e f : ℝ} (h : |a - a0| ≤ e) (h' : |b - b0| ≤ f) : |a + b - (a0 + b0)| ≤ e + f := by
  have : a + b - (a0 + b0) = (a - a0) + (b - b0) := by ring
  rw [this]; exact (abs_add_le _ _).trans (add_le_add h h')

theorem sub_near {a b a0 b0 e f : ℝ} (h : |a - a0| ≤ e) (h' : |b - b0| ≤ f) : |a - b - (a0 - b0)| ≤ e + f := by
  have : a - b - (a0 - b0) = (a - a0) - (b - b0) := by ring
  rw [this]; exact (abs_sub _ _).trans (add_le_add h h')

/-- Products and sums rounded one by one keep within the bound for dot products. -/
theorem loopDot_near (rnd : ℝ → ℝ) (near : ∀ x, |rnd x - x| ≤ unit * |x| + tiny) (a b : V3 ℝ) :
    |loopDot rnd a b - a.dot b| ≤ 4 * unit * (|a.x * b.x| + |a.y * b.y| + |a.z * b.z|) + 6 * tiny := by
  obtain ⟨A, rfl⟩ : ∃ A : Arith, A.rnd = rnd := ⟨⟨rnd, near, fun a b => a.dot b, fun a b => by
    rw [sub_self, abs_zero]; exact bound_nonneg (by positivity)⟩, rfl⟩
  have h1 := add_near (A.near (a.x * b.x)) (A.near (a.y * b.y))
  have h2 := add_near (A.step h1) (A.near (a.z * b.z))
  have h3 := A.step h2
  have t1 := abs_add_le (a.x * b.x) (a.y * b.y)
  have t2 := abs_add_le (a.x * b.x + a.y * b.y) (a.z * b.z)
  have n1 := abs_nonneg (a.x * b.x)
  have n2 := abs_nonneg (a.y * b.y)
  have n3 := abs_nonneg (a.z * b.z)
  have hp := tiny_pos
  have e : a.dot b = a.x * b.x + a.y * b.y + a.z * b.z := rfl
  rw [e]
  refine le_trans h3 ?_
  simp only [unit_eq]
  generalize tiny = t at *
  generalize |a.x * b.x| = X at *
  generalize |a.y * b.y| = Y at *
  generalize |a.z * b.z| = Z at *
  generalize |a.x * b.x + a.y * b.y| = XY at *
  generalize |a.x * b.x + a.y * b.y + a.z * b.z| = XYZ at *
  linarith

theorem fmaDot_near (rnd : ℝ → ℝ) (near : ∀ x, |rnd x - x| ≤ unit * |x| + tiny) (a b : V3 ℝ) :
    |fmaDot rnd a b - a.dot b| ≤ 4 * unit * (|a.x * b.x| + |a.y * b.y| + |a.z * b.z|) + 6 * tiny := by
  obtain ⟨A, rfl⟩ : ∃ A : Arith, A.rnd = rnd := ⟨⟨rnd, near, fun a b => a.dot b, fun a b => by
    rw [sub_self, abs_zero]; exact bound_nonneg (by positivity)⟩, rfl⟩
  have z (x : ℝ) : |x - x| ≤ 0 := by simp
  have h1 := add_near (A.near (a.x * b.x)) (z (a.y * b.y))
  have h2 := add_near (A.step h1) (z (a.z * b.z))
  have h3 := A.step h2
  have t1 := abs_add_le (a.x * b.x) (a.y * b.y)
  have t2 := abs_add_le (a.x * b.x + a.y * b.y) (a.z * b.z)
  have n1 := abs_nonneg (a.x * b.x)
  have n2 := abs_nonneg (a.y * b.y)
  have n3 := abs_nonneg (a.z * b.z)
  have hp := tiny_pos
  have e : a.dot b = a.x * b.x + a.y * b.y + a.z * b.z := rfl
  rw [e]
  refine le_trans h3 ?_
  simp only [unit_eq]
  generalize tiny = t at *
  generalize |a.x * b.x| = X at *
  generalize |a.y * b.y| = Y at *
  generalize |a.z * b.z| = Z at *
  generalize |a.x * b.x + a.y * b.y| = XY at *
  generalize |a.x * b.x + a.y * b.y + a.z * b.z| = XYZ at *
  linarith

/-- Rounding to nearest in 64 bits has the errors assumed. -/
theorem rnd64_near (x : ℝ) : |rnd64 x - x| ≤ unit * |x| + tiny := by
  have ht := tiny_pos
  have hu := unit_pos
  rcases eq_or_ne x 0 with rfl | hx
  · have : rnd64 0 = 0 := by
      unfold rnd64
      have := npRound_int (K := ℝ) 0
      rw [zero_div]; push_cast at this; rw [this]; simp
    rw [this]; simp; exact ht.le
  have hk : (0 : ℝ) < 2 ^ exponent x := by positivity
  have h := npRound_near (x / 2 ^ exponent x)
  have e1 : rnd64 x - x = (npRound (x / 2 ^ exponent x) - x / 2 ^ exponent x) * 2 ^ exponent x := by
    unfold rnd64; field_simp
  have h1 : |rnd64 x - x| ≤ 1 / 2 * 2 ^ exponent x := by
    rw [e1, abs_mul, abs_of_pos hk]; exact mul_le_mul_of_nonneg_right h hk.le
  refine h1.trans ?_
  have hx' : 0 < |x| := abs_pos.mpr hx
  unfold exponent
  rcases max_choice (Int.log 2 |x| - 52) (-1074) with h | h <;> rw [h]
  · have h2 : (2 : ℝ) ^ Int.log 2 |x| ≤ |x| := by exact_mod_cast Int.zpow_log_le_self (b := 2) (by norm_num) hx'
    rw [zpow_sub₀ (by norm_num)]
    have : unit = 1 / 2 * (1 / 2 ^ (52 : ℤ)) := by rw [unit_eq]; norm_num
    rw [this]
    have h3 := mul_le_mul_of_nonneg_left h2 (show (0 : ℝ) ≤ 1 / 2 * (1 / 2 ^ (52 : ℤ)) by positivity)
    calc 1 / 2 * ((2 : ℝ) ^ Int.log 2 |x| / 2 ^ (52 : ℤ)) = 1 / 2 * (1 / 2 ^ (52 : ℤ)) * 2 ^ Int.log 2 |x| := by ring
      _ ≤ _ := by linarith
  · have : (1 / 2 : ℝ) * 2 ^ (-1074 : ℤ) = tiny := by
      unfold tiny
      rw [zpow_neg, pow_succ' _ 1074, one_div, inv_pow]
      norm_cast
    rw [this]
    have := mul_nonneg hu.le hx'.le
    linarith

/-- The arithmetic of 64-bit floats with dot products computed by a loop. -/
noncomputable def binary64 : Arith := ⟨rnd64, rnd64_near, loopDot rnd64, loopDot_near rnd64 rnd64_near⟩
/-- The arithmetic of 64-bit floats with fused dot products. -/
noncomputable def binary64Fma : Arith := ⟨rnd64, rnd64_near, fmaDot rnd64, fmaDot_near rnd64 rnd64_near⟩
/-- Exact arithmetic. -/
noncomputable def exact : Arith := ⟨id, fun x => by simpa using add_nonneg (mul_nonneg unit_pos.le (abs_nonneg x)) tiny_pos.le, V3.dot,
  fun a b => by rw [sub_self, abs_zero]; exact bound_nonneg (by positivity)⟩

/-! ## Differences, squares, sums of squares -/

variable (A : Arith)

theorem sq_near {d D e : ℝ} (h : |d - D| ≤ unit * |D| + e) (he : 0 ≤ e) (he' : e ≤ 1 / 2 ^ 55) :
    |d ^ 2 - D ^ 2| ≤ 3 * unit * D ^ 2 + 3 * e := by
  have e1 : d ^ 2 - D ^ 2 = (d - D) * (d - D) + 2 * D * (d - D) := by ring
  have h1 : |d ^ 2 - D ^ 2| ≤ |d - D| * |d - D| + 2 * |D| * |d - D| := by
    rw [e1]; refine (abs_add_le _ _).trans ?_
    rw [abs_mul, abs_mul, abs_mul, abs_two]
  have n0 := abs_nonneg (d - D)
  have n1 := abs_nonneg D
  have hs : D ^ 2 = |D| ^ 2 := (sq_abs D).symm
  refine h1.trans ?_
  rw [hs]
  generalize |d - D| = x at *
  generalize |D| = y at *
  have hx2 : x * x ≤ (unit * y + e) * (unit * y + e) := mul_self_le_mul_self n0 h
  have hyx : 2 * y * x ≤ 2 * y * (unit * y + e) := mul_le_mul_of_nonneg_left h (by linarith)
  rw [unit_eq] at *
  nlinarith [sq_nonneg (y - 1), mul_nonneg he n1, mul_nonneg he he, mul_nonneg he (sq_nonneg y), mul_nonneg he (sq_nonneg (y - 1)),
    mul_le_mul_of_nonneg_right he' he, mul_le_mul_of_nonneg_right he' (sq_nonneg y)]

/-- Sum of squares of a vector known up to relative rounding. -/
theorem sumSq_near {d D : V3 ℝ} {e : ℝ} (he : 0 ≤ e) (he' : e ≤ 1 / 2 ^ 55) (hx : |d.x - D.x| ≤ unit * |D.x| + e)
    (hy : |d.y - D.y| ≤ unit * |D.y| + e) (hz : |d.z - D.z| ≤ unit * |D.z| + e) :
    |sumSq A d - D.normSq| ≤ 9 * unit * D.normSq + 10 * e + 10 * tiny := by
  have sx := A.step (sq_near hx he he')
  have sy := A.step (sq_near hy he he')
  have sz := A.step (sq_near hz he he')
  have h := A.step (add_near (A.step (add_near sx sy)) sz)
  have nx : |D.x ^ 2| = D.x ^ 2 := abs_of_nonneg (sq_nonneg _)
  have ny : |D.y ^ 2| = D.y ^ 2 := abs_of_nonneg (sq_nonneg _)
  have nz : |D.z ^ 2| = D.z ^ 2 := abs_of_nonneg (sq_nonneg _)
  have nxy : |D.x ^ 2 + D.y ^ 2| = D.x ^ 2 + D.y ^ 2 := abs_of_nonneg (by positivity)
  have nxyz : |D.x ^ 2 + D.y ^ 2 + D.z ^ 2| = D.x ^ 2 + D.y ^ 2 + D.z ^ 2 := abs_of_nonneg (by positivity)
  rw [nx, ny, nz, nxy, nxyz] at h
  have hn : D.normSq = D.x ^ 2 + D.y ^ 2 + D.z ^ 2 := by simp only [V3.normSq, V3.dot]; ring
  rw [hn]
  refine le_trans h ?_
  have px := sq_nonneg D.x
  have py := sq_nonneg D.y
  have pz := sq_nonneg D.z
  have ht := tiny_pos
  simp only [unit_eq]
  generalize D.x ^ 2 = X at *
  generalize D.y ^ 2 = Y at *
  generalize D.z ^ 2 = Z at *
  generalize tiny = t at *
  linarith

theorem diff_near (p q : V3 ℝ) : |(sub A p q).x - (p - q).x| ≤ unit * |(p - q).x| + tiny ∧
    |(sub A p q).y - (p - q).y| ≤ unit * |(p - q).y| + tiny ∧ |(sub A p q).z - (p - q).z| ≤ unit * |(p - q).z| + tiny :=
  ⟨A.near _, A.near _, A.near _⟩

theorem tiny_le' : tiny ≤ 1 / 2 ^ 55 := tiny_le_unit.trans (by norm_num)

/-! ## Spheres -/

theorem small_sq {S : ℝ} (h : (1 / 2) ^ 500 ≤ S) : 1000 * tiny ≤ unit * S ^ 2 := by
  have h1 : ((1 / 2 : ℝ) ^ 500) ^ 2 ≤ S ^ 2 := pow_le_pow_left₀ (by positivity) h 2
  rw [← pow_mul] at h1
  have h2 := tiny_le
  norm_num only at h1
  have h3 : (0 : ℝ) ≤ (1 / 2) ^ 1000 := by positivity
  rw [unit_eq]
  have h4 : (1 / 2 : ℝ) ^ 75 = 1 / 37778931862957161709568 := by norm_num
  rw [h4] at h2
  generalize (1 / 2 : ℝ) ^ 1000 = w at *
  generalize S ^ 2 = T at *
  linarith

/-- The computed test of a sphere accepts whatever is closer to the centre than (radius + tol) (1 - 2^-49). -/
theorem sphere_accepts (s : Sphere) (p : V3 ℝ) (hS : (1 / 2) ^ 500 ≤ s.radius + s.tol)
    (h : norm3 (p - s.center) ≤ (s.radius + s.tol) * (1 - 16 * unit)) : sphere A s p = true := by
  have hp := diff_near A p s.center
  have h1 := sumSq_near A tiny_pos.le tiny_le' hp.1 hp.2.1 hp.2.2
  have h2 := A.step (sq_near (A.near (s.radius + s.tol)) tiny_pos.le tiny_le')
  have h3 := small_sq hS
  have hS0 : 0 ≤ s.radius + s.tol := le_trans (by positivity) hS
  have h4 : (p - s.center).normSq ≤ (s.radius + s.tol) ^ 2 * (1 - 16 * unit) ^ 2 := by
    rw [← norm3_sq, ← mul_pow]; exact pow_le_pow_left₀ (norm3_nonneg _) h 2
  have n2 := sq_nonneg (s.radius + s.tol)
  have ht := tiny_pos
  unfold sphere
  rw [decide_eq_true_iff]
  have a1 := (abs_le.mp h1).2
  have a2 := (abs_le.mp h2).1
  rw [abs_of_nonneg n2] at a2
  simp only [unit_eq] at *
  generalize (s.radius + s.tol) ^ 2 = T at *
  generalize sumSq A (sub A p s.center) = L at *
  generalize A.rnd (A.rnd (s.radius + s.tol) ^ 2) = R at *
  generalize (p - s.center).normSq = N at *
  generalize tiny = t at *
  linarith

/-- It refuses whatever is farther than (radius + tol) (1 + 2^-49). -/
theorem sphere_refuses (s : Sphere) (p : V3 ℝ) (hS : (1 / 2) ^ 500 ≤ s.radius + s.tol)
    (h : (s.radius + s.tol) * (1 + 16 * unit) ≤ norm3 (p - s.center)) : sphere A s p = false := by
  have hp := diff_near A p s.center
  have h1 := sumSq_near A tiny_pos.le tiny_le' hp.1 hp.2.1 hp.2.2
  have h2 := A.step (sq_near (A.near (s.radius + s.tol)) tiny_pos.le tiny_le')
  have h3 := small_sq hS
  have hS0 : 0 ≤ s.radius + s.tol := le_trans (by positivity) hS
  have h4 : (s.radius + s.tol) ^ 2 * (1 + 16 * unit) ^ 2 ≤ (p - s.center).normSq := by
    rw [← norm3_sq, ← mul_pow]
    exact pow_le_pow_left₀ (mul_nonneg hS0 (by have := unit_pos; linarith)) h 2
  have n2 := sq_nonneg (s.radius + s.tol)
  have ht := tiny_pos
  unfold sphere
  rw [decide_eq_false_iff_not, not_lt]
  have a1 := (abs_le.mp h1).1
  have a2 := (abs_le.mp h2).2
  rw [abs_of_nonneg n2] at a2
  simp only [unit_eq] at *
  generalize (s.radius + s.tol) ^ 2 = T at *
  generalize sumSq A (sub A p s.center) = L at *
  generalize A.rnd (A.rnd (s.radius + s.tol) ^ 2) = R at *
  generalize (p - s.center).normSq = N at *
  generalize tiny = t at *
  linarith

/-! ## Planes -/

/-- Sum of the absolute values of the products. -/
theorem abs_products_le (a b : V3 ℝ) : |a.x * b.x| + |a.y * b.y| + |a.z * b.z| ≤ norm3 a * norm3 b := by
  have h := abs_dot_le ⟨|a.x|, |a.y|, |a.z|⟩ ⟨|b.x|, |b.y|, |b.z|⟩
  have e (v : V3 ℝ) : norm3 ⟨|v.x|, |v.y|, |v.z|⟩ = norm3 v := by
    unfold norm3; congr 1; simp only [V3.normSq, V3.dot, abs_mul_abs_self]
  rw [e, e] at h
  refine le_trans (le_of_eq ?_) ((le_abs_self _).trans h)
  simp only [V3.dot, abs_mul]

theorem dot_near' (a b : V3 ℝ) (hb : norm3 b ≤ 2) : |A.dot a b - a.dot b| ≤ 8 * unit * norm3 a + 6 * tiny := by
  have h := A.dot_near a b
  have h2 := abs_products_le a b
  have h3 := mul_le_mul_of_nonneg_left hb (norm3_nonneg a)
  rw [unit_eq] at *
  linarith

theorem sdist_near (pl : Plane) (p : V3 ℝ) (hn : norm3 pl.normal ≤ 2) :
    |A.rnd (A.dot p pl.normal - A.dot pl.point pl.normal) - pl.sdist p| ≤
      16 * unit * (norm3 p + norm3 pl.point) + 16 * tiny := by
  have h := A.step (sub_near (dot_near' A p pl.normal hn) (dot_near' A pl.point pl.normal hn))
  have h1 := abs_dot_le p pl.normal
  have h2 := abs_dot_le pl.point pl.normal
  have h3 := abs_sub (p.dot pl.normal) (pl.point.dot pl.normal)
  have h4 := mul_le_mul_of_nonneg_left hn (norm3_nonneg p)
  have h5 := mul_le_mul_of_nonneg_left hn (norm3_nonneg pl.point)
  have n1 := norm3_nonneg p
  have n2 := norm3_nonneg pl.point
  have ht := tiny_pos
  unfold Plane.sdist
  refine h.trans ?_
  have hb : |p.dot pl.normal - pl.point.dot pl.normal| ≤ 2 * (norm3 p + norm3 pl.point) := by linarith
  rw [unit_eq] at *
  generalize |p.dot pl.normal - pl.point.dot pl.normal| = s at *
  generalize tiny = t at *
  linarith

/-! ## Cylinders -/

theorem comp_le (v : V3 ℝ) : |v.x| ≤ norm3 v ∧ |v.y| ≤ norm3 v ∧ |v.z| ≤ norm3 v := by
  have h : v.normSq = v.x ^ 2 + v.y ^ 2 + v.z ^ 2 := by simp only [V3.normSq, V3.dot]; ring
  refine ⟨Real.abs_le_sqrt ?_, Real.abs_le_sqrt ?_, Real.abs_le_sqrt ?_⟩ <;> rw [h] <;>
    nlinarith [sq_nonneg v.x, sq_nonneg v.y, sq_nonneg v.z]

/-- A product with a factor of absolute value at most 2. -/
theorem mul_near {d D a M e : ℝ} (h : |d - D| ≤ unit * |D| + e) (ha : |a| ≤ 2) (hD : |D| ≤ M) (he : 0 ≤ e) :
    |A.rnd (d * a) - D * a| ≤ 5 * unit * M + 3 * e + tiny := by
  have hM : 0 ≤ M := (abs_nonneg D).trans hD
  have e1 : d * a - D * a = (d - D) * a := by ring
  have h1 : |d * a - D * a| ≤ 2 * unit * M + 2 * e := by
    rw [e1, abs_mul]
    have hu := unit_pos
    have h' : |d - D| ≤ unit * M + e := h.trans (by have := mul_le_mul_of_nonneg_left hD hu.le; linarith)
    have := mul_le_mul h' ha (abs_nonneg _) (by positivity)
    linarith
  have h2 := A.step h1
  have h3 : |D * a| ≤ 2 * M := by
    rw [abs_mul]; have := mul_le_mul hD ha (abs_nonneg _) hM; linarith
  refine h2.trans ?_
  rw [unit_eq] at *
  generalize tiny = t at *
  linarith

theorem minor_near {d1 D1 d2 D2 a1 a2 M : ℝ} (h1 : |d1 - D1| ≤ unit * |D1| + tiny) (h2 : |d2 - D2| ≤ unit * |D2| + tiny)
    (ha1 : |a1| ≤ 2) (ha2 : |a2| ≤ 2) (hD1 : |D1| ≤ M) (hD2 : |D2| ≤ M) :
    |A.rnd (A.rnd (d1 * a1) - A.rnd (d2 * a2)) - (D1 * a1 - D2 * a2)| ≤ 15 * unit * M + 10 * tiny := by
  have ht := tiny_pos
  have hM : 0 ≤ M := (abs_nonneg D1).trans hD1
  have h := A.step (sub_near (mul_near A h1 ha1 hD1 ht.le) (mul_near A h2 ha2 hD2 ht.le))
  have h3 : |D1 * a1 - D2 * a2| ≤ 4 * M := by
    refine (abs_sub _ _).trans ?_
    rw [abs_mul, abs_mul]
    have i1 := mul_le_mul hD1 ha1 (abs_nonneg _) hM
    have i2 := mul_le_mul hD2 ha2 (abs_nonneg _) hM
    linarith
  refine h.trans ?_
  rw [unit_eq] at *
  generalize |D1 * a1 - D2 * a2| = s at *
  generalize tiny = t at *
  linarith

theorem norm3_le_of_comp {v : V3 ℝ} {E : ℝ} (hx : |v.x| ≤ E) (hy : |v.y| ≤ E) (hz : |v.z| ≤ E) : norm3 v ≤ 2 * E := by
  have hE : 0 ≤ E := (abs_nonneg _).trans hx
  unfold norm3
  rw [Real.sqrt_le_left (by linarith)]
  have h : v.normSq = v.x ^ 2 + v.y ^ 2 + v.z ^ 2 := by simp only [V3.normSq, V3.dot]; ring
  rw [h]
  have i1 := sq_le_sq' (abs_le.mp hx).1 (abs_le.mp hx).2
  have i2 := sq_le_sq' (abs_le.mp hy).1 (abs_le.mp hy).2
  have i3 := sq_le_sq' (abs_le.mp hz).1 (abs_le.mp hz).2
  nlinarith

theorem norm3_add_le (v w : V3 ℝ) : norm3 (v + w) ≤ norm3 v + norm3 w := by
  have h := (abs_dot_le v w)
  have h' := (le_abs_self _).trans h
  unfold norm3
  rw [Real.sqrt_le_left (add_nonneg (Real.sqrt_nonneg _) (Real.sqrt_nonneg _))]
  have e : (v + w).normSq = v.normSq + w.normSq + 2 * v.dot w := by simp [V3.normSq, V3.dot]; ring
  rw [e]
  have s1 := norm3_sq v
  have s2 := norm3_sq w
  unfold norm3 at *
  nlinarith

theorem abs_norm3_sub (v w : V3 ℝ) : |norm3 v - norm3 w| ≤ norm3 (v - w) := by
  have h1 := norm3_add_le (v - w) w
  have h2 := norm3_add_le (w - v) v
  have e1 : v - w + w = v := by ext <;> simp
  have e2 : w - v + v = w := by ext <;> simp
  have e3 : norm3 (w - v) = norm3 (v - w) := by
    rw [← norm3_neg (v - w)]; congr 1; ext <;> simp
  rw [e1] at h1
  rw [e2, e3] at h2
  rw [abs_le]; constructor <;> linarith

theorem root_key {S n τ k : ℝ} (hn : 0 ≤ n) (hτ : 0 ≤ τ) (hk : 0 ≤ k) (hk1 : k ≤ 1) (h : |S - n ^ 2| ≤ k * n ^ 2 + τ ^ 2) :
    |Real.sqrt S - n| ≤ k * n + τ := by
  have a1 := (abs_le.mp h).1
  have a2 := (abs_le.mp h).2
  rw [abs_le]
  constructor
  · by_contra hlt
    push Not at hlt
    have hlt' : Real.sqrt S < n * (1 - k) - τ := by linarith
    have hpos := (Real.sqrt_nonneg S).trans_lt hlt'
    rw [Real.sqrt_lt' hpos] at hlt'
    have i1 : 0 ≤ n ^ 2 * (k * (1 - k)) := mul_nonneg (sq_nonneg n) (mul_nonneg hk (by linarith))
    have i2 : 0 ≤ τ * (n * (1 - k) - τ) := mul_nonneg hτ hpos.le
    nlinarith
  · have hb : 0 ≤ n * (1 + k) + τ := by positivity
    have : Real.sqrt S ≤ n * (1 + k) + τ := by
      rw [Real.sqrt_le_left hb]
      nlinarith [mul_nonneg hn hτ, mul_nonneg (sq_nonneg n) hk, mul_nonneg (sq_nonneg n) (mul_nonneg hk hk),
        mul_nonneg (mul_nonneg hn hτ) hk]
    linarith

/-- Root of a sum of squares. -/
theorem root_near {v : V3 ℝ} {τ : ℝ} (hτ : 0 ≤ τ) (hτ2 : 10 * tiny ≤ τ ^ 2) :
    |A.rnd (Real.sqrt (sumSq A v)) - norm3 v| ≤ 11 * unit * norm3 v + 2 * τ + tiny := by
  have z (x : ℝ) : |x - x| ≤ unit * |x| + 0 := by
    rw [sub_self, abs_zero, add_zero]; exact mul_nonneg unit_pos.le (abs_nonneg x)
  have h := sumSq_near A le_rfl (by norm_num) (z v.x) (z v.y) (z v.z)
  rw [← norm3_sq] at h
  have hn := norm3_nonneg v
  have key := root_key (k := 9 * unit) hn hτ (by have := unit_pos; linarith) (by rw [unit_eq]; norm_num) (h.trans (by linarith))
  have h2 := A.step key
  rw [abs_of_nonneg hn] at h2
  refine h2.trans ?_
  rw [unit_eq] at *
  linarith

theorem ten_tiny : 10 * tiny ≤ ((1 / 2 : ℝ) ^ 530) ^ 2 := by
  rw [← pow_mul]
  have : tiny = (1 / 2 : ℝ) ^ 15 * (1 / 2) ^ 1060 := by unfold tiny; rw [← pow_add]
  norm_num only
  rw [this]
  have h0 : (0 : ℝ) ≤ (1 / 2) ^ 1060 := by positivity
  have h1 : (10 : ℝ) * (1 / 2) ^ 15 ≤ 1 := by norm_num
  rw [← mul_assoc]
  exact mul_le_of_le_one_left h0 h1

theorem hundred_tiny : 100 * tiny ≤ (1 / 2) ^ 530 := by
  have : tiny = (1 / 2 : ℝ) ^ 545 * (1 / 2) ^ 530 := by unfold tiny; rw [← pow_add]
  have h1 : (1 / 2 : ℝ) ^ 545 ≤ (1 / 2) ^ 7 := half_pow_le (by norm_num)
  have h2 : (100 : ℝ) * (1 / 2) ^ 7 ≤ 1 := by norm_num
  rw [this, ← mul_assoc]
  exact mul_le_of_le_one_left (by positivity) ((mul_le_mul_of_nonneg_left h1 (by norm_num)).trans h2)

theorem radial_near (c : Cylinder) (p : V3 ℝ) (ha : norm3 c.axis ≤ 2) :
    |A.rnd (Real.sqrt (sumSq A (cross A (sub A p c.point) c.axis))) - norm3 ((p - c.point).cross c.axis)| ≤
      64 * unit * norm3 (p - c.point) + 3 * (1 / 2) ^ 530 := by
  obtain ⟨hx, hy, hz⟩ := diff_near A p c.point
  obtain ⟨ax, ay, az⟩ := comp_le c.axis
  obtain ⟨dx, dy, dz⟩ := comp_le (p - c.point)
  have m1 := minor_near A hy hz (az.trans ha) (ay.trans ha) dy dz
  have m2 := minor_near A hz hx (ax.trans ha) (az.trans ha) dz dx
  have m3 := minor_near A hx hy (ay.trans ha) (ax.trans ha) dx dy
  have hv : norm3 (cross A (sub A p c.point) c.axis - (p - c.point).cross c.axis) ≤
      2 * (15 * unit * norm3 (p - c.point) + 10 * tiny) := norm3_le_of_comp m1 m2 m3
  have hd := (abs_norm3_sub _ _).trans hv
  have hτ : (0 : ℝ) ≤ (1 / 2) ^ 530 := by positivity
  have hτ2 := ten_tiny
  have hr := root_near A (v := cross A (sub A p c.point) c.axis) hτ hτ2
  have hc : norm3 ((p - c.point).cross c.axis) ≤ 2 * norm3 (p - c.point) := by
    unfold norm3
    rw [Real.sqrt_le_left (by positivity), normSq_cross, mul_pow, Real.sq_sqrt (normSq_nonneg _)]
    have h4 : c.axis.normSq ≤ 4 := by
      rw [← norm3_sq]; nlinarith [norm3_nonneg c.axis]
    nlinarith [sq_nonneg ((p - c.point).dot c.axis), normSq_nonneg (p - c.point), normSq_nonneg c.axis]
  have ht := tiny_pos
  have htτ := hundred_tiny
  have tri := abs_sub_le (A.rnd (Real.sqrt (sumSq A (cross A (sub A p c.point) c.axis))))
    (norm3 (cross A (sub A p c.point) c.axis)) (norm3 ((p - c.point).cross c.axis))
  have hd2 := (abs_le.mp hd).2
  have hn := norm3_nonneg (p - c.point)
  refine tri.trans ?_
  rw [unit_eq] at *
  generalize norm3 (cross A (sub A p c.point) c.axis) = n1 at *
  generalize norm3 ((p - c.point).cross c.axis) = n2 at *
  generalize norm3 (p - c.point) = M at *
  generalize tiny = t at *
  generalize (1 / 2 : ℝ) ^ 530 = τ at *
  linarith

theorem axial_near (c : Cylinder) (p : V3 ℝ) (ha : norm3 c.axis ≤ 2) :
    |A.dot (sub A p c.point) c.axis - (p - c.point).dot c.axis| ≤ 20 * unit * norm3 (p - c.point) + 20 * tiny := by
  obtain ⟨hx, hy, hz⟩ := diff_near A p c.point
  have h := dot_near' A (sub A p c.point) c.axis ha
  obtain ⟨ax, ay, az⟩ := comp_le c.axis
  have hn := norm3_nonneg (p - c.point)
  have ht := tiny_pos
  -- the difference of the two exact products
  have h1 : |(sub A p c.point).dot c.axis - (p - c.point).dot c.axis| ≤ 2 * unit * norm3 (p - c.point) + 6 * tiny := by
    have e : (sub A p c.point).dot c.axis - (p - c.point).dot c.axis =
        ((sub A p c.point).x - (p - c.point).x) * c.axis.x + ((sub A p c.point).y - (p - c.point).y) * c.axis.y +
        ((sub A p c.point).z - (p - c.point).z) * c.axis.z := by simp only [V3.dot]; ring
    have i (x a : ℝ) (X : ℝ) (hx : |x| ≤ unit * |X| + tiny) (ha : |a| ≤ 2) : |x * a| ≤ unit * |X * a| + 2 * tiny := by
      rw [abs_mul, abs_mul]
      have := mul_le_mul_of_nonneg_right hx (abs_nonneg a)
      nlinarith
    have j1 := i _ _ _ hx (ax.trans ha)
    have j2 := i _ _ _ hy (ay.trans ha)
    have j3 := i _ _ _ hz (az.trans ha)
    have s := abs_products_le (p - c.point) c.axis
    have s' := mul_le_mul_of_nonneg_left ha hn
    rw [e]
    refine (abs_add_three _ _ _).trans ?_
    have hu := mul_le_mul_of_nonneg_left (s.trans s') unit_pos.le
    linarith
  -- the computed difference is not much longer
  have h2 : norm3 (sub A p c.point) ≤ 2 * norm3 (p - c.point) + 2 * tiny := by
    have k (x X : ℝ) (hx : |x - X| ≤ unit * |X| + tiny) (hX : |X| ≤ norm3 (p - c.point)) :
        |x - X| ≤ unit * norm3 (p - c.point) + tiny := by
      have := mul_le_mul_of_nonneg_left hX unit_pos.le; linarith
    obtain ⟨dx, dy, dz⟩ := comp_le (p - c.point)
    have := norm3_le_of_comp (v := sub A p c.point - (p - c.point)) (k _ _ hx dx) (k _ _ hy dy) (k _ _ hz dz)
    have h3 := (abs_le.mp ((abs_norm3_sub (sub A p c.point) (p - c.point)).trans this)).2
    rw [unit_eq] at *
    linarith
  have tri := abs_sub_le (A.dot (sub A p c.point) c.axis) ((sub A p c.point).dot c.axis) ((p - c.point).dot c.axis)
  refine tri.trans ?_
  rw [unit_eq] at *
  linarith

/-! ## Normalised vectors -/

theorem norm_near (n : V3 ℝ) : |A.rnd (Real.sqrt (A.dot n n)) - norm3 n| ≤ 6 * unit * norm3 n + 2 * (1 / 2) ^ 530 := by
  have hd := A.dot_near n n
  have e : |n.x * n.x| + |n.y * n.y| + |n.z * n.z| = norm3 n ^ 2 := by
    rw [norm3_sq, abs_mul_self, abs_mul_self, abs_mul_self]; rfl
  have e' : n.dot n = norm3 n ^ 2 := (norm3_sq n).symm
  rw [e, e'] at hd
  have h10 := ten_tiny
  have h100 := hundred_tiny
  have ht := tiny_pos
  have hn := norm3_nonneg n
  have key := root_key (k := 4 * unit) (τ := (1 / 2) ^ 530) hn (by positivity) (by have := unit_pos; linarith)
    (by rw [unit_eq]; norm_num) (hd.trans (by linarith))
  have h := A.step key
  rw [abs_of_nonneg hn] at h
  refine h.trans ?_
  rw [unit_eq] at *
  generalize (1 / 2 : ℝ) ^ 530 = τ at *
  generalize tiny = t at *
  linarith

theorem tau_le : (1 / 2 : ℝ) ^ 530 ≤ 1 / 2 ^ 120 := by
  have h : (1 / 2 : ℝ) ^ 530 ≤ (1 / 2) ^ 120 := half_pow_le (by norm_num)
  have e : ((1 : ℝ) / 2) ^ 120 = 1 / 2 ^ 120 := by norm_num
  exact h.trans e.le

/-- The vector stored is the normalised one up to 2^-48. -/
theorem unit_near {n : V3 ℝ} (h : machEps < A.rnd (Real.sqrt (A.dot n n))) :
    norm3 n ≠ 0 ∧ norm3 ((⟨A.rnd (n.x / A.rnd (Real.sqrt (A.dot n n))), A.rnd (n.y / A.rnd (Real.sqrt (A.dot n n))),
      A.rnd (n.z / A.rnd (Real.sqrt (A.dot n n)))⟩ : V3 ℝ) - (norm3 n)⁻¹ • n) ≤ (1 / 2) ^ 48 := by
  have hN := norm_near A n
  have hτ := tau_le
  have hn := norm3_nonneg n
  have ht := tiny_le_unit
  have ht0 := tiny_pos
  generalize A.rnd (Real.sqrt (A.dot n n)) = N at *
  generalize (1 / 2 : ℝ) ^ 530 = τ at *
  have hm : machEps = 1 / 4503599627370496 := by unfold machEps; norm_num
  rw [hm] at h
  have h2 := (abs_le.mp hN).2
  have h1 := (abs_le.mp hN).1
  have hlow : 1 / 2 ^ 53 ≤ norm3 n := by rw [unit_eq] at *; norm_num at *; linarith
  have hpos : 0 < norm3 n := lt_of_lt_of_le (by norm_num) hlow
  refine ⟨hpos.ne', ?_⟩
  have hN' : |N - norm3 n| ≤ 7 * unit * norm3 n := by rw [unit_eq] at *; norm_num at *; linarith
  have hNpos : 0 < N := lt_trans (by norm_num) h
  have hcomp (c : ℝ) (hc : |c| ≤ norm3 n) : |A.rnd (c / N) - (norm3 n)⁻¹ * c| ≤ 11 * unit := by
    have e : c / N - (norm3 n)⁻¹ * c = (c / norm3 n) * ((norm3 n - N) / N) := by field_simp
    have b1 : |c / norm3 n| ≤ 1 := by rw [abs_div, abs_of_pos hpos, div_le_one hpos]; exact hc
    have b2 : |(norm3 n - N) / N| ≤ 8 * unit := by
      rw [abs_div, abs_of_pos hNpos, div_le_iff₀ hNpos, abs_sub_comm]
      have := (abs_le.mp hN').1
      rw [unit_eq] at *
      linarith
    have b3 : |c / N - (norm3 n)⁻¹ * c| ≤ 8 * unit := by
      rw [e, abs_mul]
      have := mul_le_mul b1 b2 (abs_nonneg _) zero_le_one
      linarith
    have b4 := A.step b3
    have b5 : |(norm3 n)⁻¹ * c| ≤ 1 := by rw [inv_mul_eq_div]; exact b1
    refine b4.trans ?_
    rw [unit_eq]
    norm_num at *
    linarith
  obtain ⟨cx, cy, cz⟩ := comp_le n
  have := norm3_le_of_comp (v := (⟨A.rnd (n.x / N), A.rnd (n.y / N), A.rnd (n.z / N)⟩ : V3 ℝ) - (norm3 n)⁻¹ • n)
    (hcomp _ cx) (hcomp _ cy) (hcomp _ cz)
  refine this.trans ?_
  rw [unit_eq]; norm_num

end Fl
end CZ
