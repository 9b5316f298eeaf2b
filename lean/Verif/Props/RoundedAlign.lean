import Verif.RoundedAlign
import Verif.Props.RoundedMolecule
import Verif.Props.RoundedAmorphous
import Verif.Props.Rotation
import Mathlib.Analysis.SpecialFunctions.Trigonometric.Bounds

/-!
# Property C143: `rot_vtv` in floats

C45 is about exact arithmetic.  In floats the angle between parallel vectors comes out as NaN or about 10^-8, which is not below
machine epsilon.
-/

namespace CZ
namespace Fl
open Spec

noncomputable section

variable (A : Arith) (T : Trig)

/-- Zero is represented. -/
def Zeroed : Prop := A.rnd 0 = 0 ∧ A.dot 0 0 = 0

theorem rnd64_zero : rnd64 0 = 0 := by
  unfold rnd64
  have := npRound_int (K := ℝ) 0
  rw [zero_div]; push_cast at this; rw [this]; simp

theorem binary64_zeroed : Zeroed binary64 ∧ Zeroed binary64Fma := by
  refine ⟨⟨rnd64_zero, ?_⟩, ⟨rnd64_zero, ?_⟩⟩
  · show loopDot rnd64 0 0 = 0
    simp [loopDot, rnd64_zero]
  · show fmaDot rnd64 0 0 = 0
    simp [fmaDot, rnd64_zero]

theorem cross_same (hA : Zeroed A) (v : V3 ℝ) : cross A v v = 0 := by
  unfold cross
  have h1 (a b : ℝ) : A.rnd (A.rnd (a * b) - A.rnd (b * a)) = 0 := by rw [mul_comm b a, sub_self, hA.1]
  rw [h1, h1, h1]
  rfl

theorem cross_opposite (hA : Zeroed A) (v : V3 ℝ) : cross A v (-v) = 0 := by
  unfold cross
  have h1 (a b : ℝ) : A.rnd (A.rnd (a * -b) - A.rnd (b * -a)) = 0 := by
    rw [show b * -a = a * -b by ring, sub_self, hA.1]
  simp only [V3.neg_x, V3.neg_y, V3.neg_z]
  rw [h1, h1, h1]
  rfl

theorem rodrigues_zero (hA : Zeroed A) (theta : ℝ) : rodrigues A T 0 theta = .error .nan := by
  unfold rodrigues norm
  simp [hA.1, hA.2]

/-! ## The cosine -/

theorem norm_rel {n : V3 ℝ} (h : (1 / 2) ^ 450 ≤ norm3 n) : |norm A n - norm3 n| ≤ 7 * unit * norm3 n := by
  have h1 := norm_near A n
  unfold norm
  refine h1.trans ?_
  have e : (1 / 2 : ℝ) ^ 530 = (1 / 2) ^ 80 * (1 / 2) ^ 450 := by rw [← pow_add]
  have h0 : (0 : ℝ) < (1 / 2) ^ 450 := by positivity
  rw [e]
  generalize (1 / 2 : ℝ) ^ 450 = τ at *
  rw [unit_eq]
  norm_num
  linarith

theorem tiny_400 {P : ℝ} (h : (1 / 2) ^ 400 ≤ P) : 100 * tiny ≤ unit * P := by
  have e := tiny_le
  have e2 : (1 / 2 : ℝ) ^ 1000 = (1 / 2) ^ 600 * (1 / 2) ^ 400 := by rw [← pow_add]
  have e3 : (1 / 2 : ℝ) ^ 600 ≤ 1 := pow_le_one₀ (by norm_num) (by norm_num)
  have e4 : (1 / 2 : ℝ) ^ 1000 ≤ (1 / 2) ^ 400 := by rw [e2]; exact mul_le_of_le_one_left (by positivity) e3
  have h0 : (0 : ℝ) < (1 / 2) ^ 1000 := by positivity
  generalize (1 / 2 : ℝ) ^ 400 = τ at *
  generalize (1 / 2 : ℝ) ^ 1000 = σ at *
  rw [unit_eq]
  norm_num at *
  linarith

/-- The computed cosine of the angle between two vectors that are not tiny. -/
theorem cosine_near {v w : V3 ℝ} (hv : (1 / 2) ^ 200 ≤ norm3 v) (hw : (1 / 2) ^ 200 ≤ norm3 w) :
    A.rnd (norm A v * norm A w) ≠ 0 ∧
      |A.rnd (A.dot v w / A.rnd (norm A v * norm A w)) - v.dot w / (norm3 v * norm3 w)| ≤ 26 * unit := by
  have p200 : (0 : ℝ) < (1 / 2) ^ 200 := by positivity
  have hPlow : (1 / 2) ^ 400 ≤ norm3 v * norm3 w := by
    rw [show (400 : ℕ) = 200 + 200 by norm_num, pow_add]
    exact mul_le_mul hv hw p200.le (norm3_nonneg _)
  have h450 : (1 / 2 : ℝ) ^ 450 ≤ (1 / 2) ^ 200 := half_pow_le (by norm_num)
  have n1 := norm_rel A (h450.trans hv)
  have n2 := norm_rel A (h450.trans hw)
  have hLv : 0 < norm3 v := lt_of_lt_of_le p200 hv
  have hLw : 0 < norm3 w := lt_of_lt_of_le p200 hw
  have hPpos : 0 < norm3 v * norm3 w := mul_pos hLv hLw
  have ht := tiny_400 hPlow
  have ht0 := tiny_pos
  have hdot := abs_dot_le v w
  have hd := A.dot_near v w
  have hs := abs_products_le v w
  have hu := unit_pos
  have hd' : |A.dot v w - v.dot w| ≤ 5 * unit * (norm3 v * norm3 w) := by
    refine hd.trans ?_
    have := mul_le_mul_of_nonneg_left hs (by positivity : 0 ≤ 4 * unit)
    linarith
  have hprod : |norm A v * norm A w - norm3 v * norm3 w| ≤ 15 * unit * (norm3 v * norm3 w) := by
    rw [show norm A v * norm A w - norm3 v * norm3 w = (norm A v - norm3 v) * norm3 w + norm3 v * (norm A w - norm3 w)
      + (norm A v - norm3 v) * (norm A w - norm3 w) by ring]
    have t1 := abs_add_le ((norm A v - norm3 v) * norm3 w + norm3 v * (norm A w - norm3 w)) ((norm A v - norm3 v) * (norm A w - norm3 w))
    have t2 := abs_add_le ((norm A v - norm3 v) * norm3 w) (norm3 v * (norm A w - norm3 w))
    rw [abs_mul, abs_mul, abs_of_pos hLv, abs_of_pos hLw] at t2
    rw [abs_mul (norm A v - norm3 v) (norm A w - norm3 w)] at t1
    have m1 := mul_le_mul_of_nonneg_right n1 hLw.le
    have m2 := mul_le_mul_of_nonneg_left n2 hLv.le
    have m3 := mul_le_mul n1 n2 (abs_nonneg _) (by positivity)
    rw [show 7 * unit * norm3 v * (7 * unit * norm3 w) = 49 * unit * unit * (norm3 v * norm3 w) by ring] at m3
    rw [unit_eq] at *
    norm_num at *
    linarith
  have hD := A.step hprod
  rw [abs_of_pos hPpos] at hD
  generalize A.rnd (norm A v * norm A w) = D at *
  generalize norm3 v * norm3 w = P at *
  have hD' : |D - P| ≤ 17 * unit * P := by
    refine hD.trans ?_
    rw [unit_eq] at *
    norm_num at *
    linarith
  have hDpos : P / 2 ≤ D := by
    have := (abs_le.mp hD').1
    rw [unit_eq] at *
    norm_num at *
    linarith
  have hD0 : 0 < D := by linarith
  refine ⟨hD0.ne', ?_⟩
  have hphi : |v.dot w / P| ≤ 1 := by rw [abs_div, abs_of_pos hPpos, div_le_one hPpos]; exact hdot
  have hq : |A.dot v w / D - v.dot w / P| ≤ 23 * unit := by
    have e : A.dot v w / D - v.dot w / P = ((A.dot v w - v.dot w) + v.dot w / P * (P - D)) / D := by
      field_simp
      ring
    rw [e, abs_div, abs_of_pos hD0, div_le_iff₀ hD0]
    have t1 := abs_add_le (A.dot v w - v.dot w) (v.dot w / P * (P - D))
    rw [abs_mul, abs_sub_comm P D] at t1
    have m := mul_le_mul hphi hD' (abs_nonneg _) zero_le_one
    have := (abs_le.mp hD').1
    rw [unit_eq] at *
    norm_num at *
    linarith
  refine (A.step hq).trans ?_
  have := tiny_le_unit
  rw [unit_eq] at *
  norm_num at *
  linarith

/-! ## The branches -/

theorem machEps_eq : machEps = 1 / 4503599627370496 := by unfold machEps; norm_num

theorem arccos_ge (q : ℝ) : Real.sqrt (1 - q ^ 2) ≤ Real.arccos q ∧ Real.sqrt (1 - q ^ 2) ≤ Real.pi - Real.arccos q := by
  rw [← Real.sin_arccos]
  refine ⟨Real.sin_le (Real.arccos_nonneg _), ?_⟩
  rw [← Real.sin_pi_sub]
  exact Real.sin_le (by linarith [Real.arccos_le_pi q])

/-- Away from the poles neither special branch is taken. -/
theorem not_parallel {q : ℝ} (h : |q| ≤ 1) (hy : (1 / 2) ^ 27 ≤ Real.sqrt (1 - q ^ 2)) : ¬ T.acos q < machEps := by
  have h1 := (arccos_ge q).1
  have h2 := (abs_le.mp (T.acos_near q h)).1
  rw [machEps_eq]
  rw [unit_eq] at *
  norm_num at *
  linarith

theorem not_opposite {q y : ℝ} (h : |q| ≤ 1) (hy : (1 / 2) ^ 27 ≤ y) (hy2 : y ≤ Real.pi - Real.arccos q) : ¬ A.rnd (T.pi - T.acos q) < machEps := by
  have h2 := (abs_le.mp (T.acos_near q h)).2
  have h3 := (abs_le.mp T.pi_near).1
  have hx : (1 / 2) ^ 28 ≤ T.pi - T.acos q := by
    rw [unit_eq] at *
    norm_num at *
    linarith
  have h4 := A.near (T.pi - T.acos q)
  have ht := tiny_le_unit
  generalize T.pi - T.acos q = x at *
  rw [abs_of_nonneg (le_trans (by positivity) hx)] at h4
  have := (abs_le.mp h4).1
  rw [machEps_eq]
  rw [unit_eq] at *
  norm_num at *
  linarith

/-- **C143 (equal vectors).** For a vector that is not tiny `rot_vtv(v, v)` is the identity or NaN, never anything else. -/
theorem C143_same (hA : Zeroed A) {v : V3 ℝ} (hv : (1 / 2) ^ 200 ≤ len v) : rotVtv A T v v = .ok 1 ∨ rotVtv A T v v = .error .nan := by
  rw [len_eq] at hv
  have hq := (cosine_near A hv hv).2
  have hv0 : norm3 v ≠ 0 := (lt_of_lt_of_le (by positivity) hv).ne'
  have e : v.dot v / (norm3 v * norm3 v) = 1 := by
    rw [← sq, show v.dot v = norm3 v ^ 2 from (norm3_sq v).symm]
    exact div_self (pow_ne_zero 2 hv0)
  rw [e] at hq
  unfold rotVtv
  simp only
  rw [cross_same A hA, rodrigues_zero A T hA]
  generalize A.rnd (A.dot v v / A.rnd (norm A v * norm A v)) = q at *
  split_ifs with h1 h2 h3 h4
  · simp
  · simp
  · simp
  · exfalso
    have hq1 : |q| ≤ 1 := not_lt.mp h2
    refine not_opposite A T hq1 (y := 1) (by norm_num) ?_ h4
    have : 0 ≤ q := by
      have := (abs_le.mp hq).1
      rw [unit_eq] at this
      norm_num at this
      linarith
    have := Real.arccos_le_pi_div_two.mpr this
    linarith [Real.two_le_pi]
  · simp

/-! ## The general case -/

theorem small_unit : tiny ≤ unit / 64 := by
  have := tiny_le_unit
  rw [unit_eq] at *
  norm_num at *
  linarith

theorem normalised_near {n : V3 ℝ} (h : (1 / 2) ^ 450 ≤ norm3 n) :
    norm A n ≠ 0 ∧ |A.rnd (n.x / norm A n) - ((norm3 n)⁻¹ • n).x| ≤ 11 * unit ∧ |A.rnd (n.y / norm A n) - ((norm3 n)⁻¹ • n).y| ≤ 11 * unit ∧
      |A.rnd (n.z / norm A n) - ((norm3 n)⁻¹ • n).z| ≤ 11 * unit := by
  have hN' := norm_rel A h
  have hpos : 0 < norm3 n := lt_of_lt_of_le (by positivity) h
  have ht := small_unit
  have hu := unit_pos
  generalize norm A n = N at *
  have hNpos : 0 < N := by
    have := (abs_le.mp hN').1
    rw [unit_eq] at *
    norm_num at *
    linarith
  have hcomp (c : ℝ) (hc : |c| ≤ norm3 n) : |A.rnd (c / N) - (norm3 n)⁻¹ * c| ≤ 11 * unit := by
    have e : c / N - (norm3 n)⁻¹ * c = (c / norm3 n) * ((norm3 n - N) / N) := by field_simp
    have b1 : |c / norm3 n| ≤ 1 := by rw [abs_div, abs_of_pos hpos, div_le_one hpos]; exact hc
    have b2 : |(norm3 n - N) / N| ≤ 8 * unit := by
      rw [abs_div, abs_of_pos hNpos, div_le_iff₀ hNpos, abs_sub_comm]
      have := (abs_le.mp hN').1
      rw [unit_eq] at *
      linarith
    have b3 : |c / N - (norm3 n)⁻¹ * c| ≤ 8 * unit := by
      rw [e, abs_mul]
      have := mul_le_mul b1 b2 (abs_nonneg _) zero_le_one
      linarith
    have b4 := A.step b3
    have b5 : |(norm3 n)⁻¹ * c| ≤ 1 := by rw [inv_mul_eq_div]; exact b1
    refine b4.trans ?_
    rw [unit_eq] at *
    norm_num at *
    linarith
  obtain ⟨cx, cy, cz⟩ := comp_le n
  exact ⟨hNpos.ne', hcomp _ cx, hcomp _ cy, hcomp _ cz⟩

/-- A product of two numbers with absolute errors. -/
theorem prod_near {a b a0 b0 e f B C : ℝ} (ha : |a - a0| ≤ e) (hb : |b - b0| ≤ f) (hB : |a0| ≤ B) (hC : |b| ≤ C) :
    |a * b - a0 * b0| ≤ e * C + B * f := by
  rw [show a * b - a0 * b0 = (a - a0) * b + a0 * (b - b0) by ring]
  refine (abs_add_le _ _).trans (add_le_add ?_ ?_)
  · rw [abs_mul]; exact mul_le_mul ha hC (abs_nonneg _) ((abs_nonneg _).trans ha)
  · rw [abs_mul]; exact mul_le_mul hB hb (abs_nonneg _) ((abs_nonneg _).trans hB)

/-- One entry of the matrix. -/
theorem entry_near {i s' s c' g k' k : ℝ} {r' r l' l : V3 ℝ} (hi : |i| ≤ 1) (hs : |s' - s| ≤ 2 * unit) (hs1 : |s| ≤ 1)
    (hc : |c' - g| ≤ 5 * unit) (hg : |g| ≤ 2) (hk : |k' - k| ≤ 11 * unit) (hk1 : |k| ≤ 1)
    (rx : |r'.x - r.x| ≤ 11 * unit) (ry : |r'.y - r.y| ≤ 11 * unit) (rz : |r'.z - r.z| ≤ 11 * unit)
    (rx1 : |r.x| ≤ 1) (ry1 : |r.y| ≤ 1) (rz1 : |r.z| ≤ 1)
    (lx : |l'.x - l.x| ≤ 11 * unit) (ly : |l'.y - l.y| ≤ 11 * unit) (lz : |l'.z - l.z| ≤ 11 * unit)
    (lx1 : |l.x| ≤ 1) (ly1 : |l.y| ≤ 1) (lz1 : |l.z| ≤ 1) :
    |A.rnd (A.rnd (i + A.rnd (s' * k')) + A.dot ⟨A.rnd (c' * r'.x), A.rnd (c' * r'.y), A.rnd (c' * r'.z)⟩ l')
      - (i + s * k + g * r.dot l)| ≤ 1024 * unit := by
  have ht := small_unit
  have ht0 := tiny_pos
  have hu := unit_pos
  have hbig {a b : ℝ} (h : |a - b| ≤ 11 * unit) (h1 : |b| ≤ 1) : |a| ≤ 2 := by
    have := abs_add_le (a - b) b
    rw [sub_add_cancel] at this
    rw [unit_eq] at *
    linarith
  have a1 := prod_near hs hk hs1 (hbig hk hk1)
  have a2 := A.step a1
  have hsk : |s * k| ≤ 1 := by rw [abs_mul]; exact mul_le_one₀ hs1 (abs_nonneg _) hk1
  have a3 : |A.rnd (s' * k') - s * k| ≤ 20 * unit := by
    refine a2.trans ?_
    rw [unit_eq] at *
    norm_num at *
    linarith
  have a4 : |i + A.rnd (s' * k') - (i + s * k)| ≤ 20 * unit := by
    rw [show i + A.rnd (s' * k') - (i + s * k) = A.rnd (s' * k') - s * k by ring]; exact a3
  have hik := abs_add_le i (s * k)
  have a5 : |A.rnd (i + A.rnd (s' * k')) - (i + s * k)| ≤ 24 * unit := by
    refine (A.step a4).trans ?_
    rw [unit_eq] at *
    norm_num at *
    linarith
  have row {x' x : ℝ} (hx : |x' - x| ≤ 11 * unit) (hx1 : |x| ≤ 1) : |A.rnd (c' * x') - g * x| ≤ 40 * unit ∧ |g * x| ≤ 2 ∧ |A.rnd (c' * x')| ≤ 3 := by
    have b1 := A.step (prod_near hc hx hg (hbig hx hx1))
    have b2 : |g * x| ≤ 2 := by
      rw [abs_mul]; exact (mul_le_mul hg hx1 (abs_nonneg _) (by norm_num)).trans (by norm_num)
    have b3 : |A.rnd (c' * x') - g * x| ≤ 40 * unit := by
      refine b1.trans ?_
      rw [unit_eq] at *
      norm_num at *
      linarith
    refine ⟨b3, b2, ?_⟩
    have := abs_add_le (A.rnd (c' * x') - g * x) (g * x)
    rw [sub_add_cancel] at this
    rw [unit_eq] at *
    linarith
  obtain ⟨x1, x2, x3⟩ := row rx rx1
  obtain ⟨y1, y2, y3⟩ := row ry ry1
  obtain ⟨z1, z2, z3⟩ := row rz rz1
  have hd := A.dot_near ⟨A.rnd (c' * r'.x), A.rnd (c' * r'.y), A.rnd (c' * r'.z)⟩ l'
  simp only [V3.dot] at hd ⊢
  have px := prod_near x1 lx x2 (hbig lx lx1)
  have py := prod_near y1 ly y2 (hbig ly ly1)
  have pz := prod_near z1 lz z2 (hbig lz lz1)
  have qx : |A.rnd (c' * r'.x) * l'.x| ≤ 6 := by
    rw [abs_mul]; exact (mul_le_mul x3 (hbig lx lx1) (abs_nonneg _) (by norm_num)).trans (by norm_num)
  have qy : |A.rnd (c' * r'.y) * l'.y| ≤ 6 := by
    rw [abs_mul]; exact (mul_le_mul y3 (hbig ly ly1) (abs_nonneg _) (by norm_num)).trans (by norm_num)
  have qz : |A.rnd (c' * r'.z) * l'.z| ≤ 6 := by
    rw [abs_mul]; exact (mul_le_mul z3 (hbig lz lz1) (abs_nonneg _) (by norm_num)).trans (by norm_num)
  have gx : |g * r.x * l.x| ≤ 2 := by
    rw [abs_mul]; exact (mul_le_mul x2 lx1 (abs_nonneg _) (by norm_num)).trans (by norm_num)
  have gy : |g * r.y * l.y| ≤ 2 := by
    rw [abs_mul]; exact (mul_le_mul y2 ly1 (abs_nonneg _) (by norm_num)).trans (by norm_num)
  have gz : |g * r.z * l.z| ≤ 2 := by
    rw [abs_mul]; exact (mul_le_mul z2 lz1 (abs_nonneg _) (by norm_num)).trans (by norm_num)
  generalize A.dot ⟨A.rnd (c' * r'.x), A.rnd (c' * r'.y), A.rnd (c' * r'.z)⟩ l' = d at *
  generalize A.rnd (i + A.rnd (s' * k')) = m at *
  generalize A.rnd (c' * r'.x) * l'.x = X at *
  generalize A.rnd (c' * r'.y) * l'.y = Y at *
  generalize A.rnd (c' * r'.z) * l'.z = Z at *
  rw [show i + s * k + g * (r.x * l.x + r.y * l.y + r.z * l.z) = (i + s * k) + (g * r.x * l.x + g * r.y * l.y + g * r.z * l.z) by ring]
  generalize g * r.x * l.x = X0 at *
  generalize g * r.y * l.y = Y0 at *
  generalize g * r.z * l.z = Z0 at *
  generalize i + s * k = m0 at *
  have s1 := add_near (add_near px py) pz
  have s2 : |d - (X0 + Y0 + Z0)| ≤ 700 * unit := by
    have := abs_sub_le d (X + Y + Z) (X0 + Y0 + Z0)
    rw [unit_eq] at *
    norm_num at *
    linarith
  have s3 := A.step (add_near a5 s2)
  have s4 := abs_add_le m0 (X0 + Y0 + Z0)
  have s5 := abs_add_le (X0 + Y0) Z0
  have s6 := abs_add_le X0 Y0
  refine s3.trans ?_
  rw [unit_eq] at *
  norm_num at *
  linarith

/-- Entry by entry. -/
def Close (η : ℝ) (M R : M3 ℝ) : Prop :=
  |M.m00 - R.m00| ≤ η ∧ |M.m01 - R.m01| ≤ η ∧ |M.m02 - R.m02| ≤ η ∧ |M.m10 - R.m10| ≤ η ∧ |M.m11 - R.m11| ≤ η ∧ |M.m12 - R.m12| ≤ η ∧
    |M.m20 - R.m20| ≤ η ∧ |M.m21 - R.m21| ≤ η ∧ |M.m22 - R.m22| ≤ η

set_option maxHeartbeats 1000000 in
theorem rodrigues_near {a k : V3 ℝ} {s c s' c' : ℝ} (hk : norm3 k = 1) (hx : |a.x - k.x| ≤ 11 * unit) (hy : |a.y - k.y| ≤ 11 * unit)
    (hz : |a.z - k.z| ≤ 11 * unit) (hs : |s' - s| ≤ 2 * unit) (hc : |c' - (1 - c)| ≤ 5 * unit) (hs1 : |s| ≤ 1) (hc1 : |c| ≤ 1) :
    Close (1024 * unit) (rodriguesOf A a s' c') (rodMat k s c) := by
  obtain ⟨kx, ky, kz⟩ := comp_le k
  rw [hk] at kx ky kz
  have hg : |1 - c| ≤ 2 := by have := abs_sub (1 : ℝ) c; rw [abs_one] at this; linarith
  have neg {x y : ℝ} (h : |x - y| ≤ 11 * unit) : |-x - -y| ≤ 11 * unit := by rw [← abs_neg]; convert h using 2; ring
  have neg1 {x : ℝ} (h : |x| ≤ 1) : |-x| ≤ 1 := by rwa [abs_neg]
  have z0 : |(0 : ℝ) - 0| ≤ 11 * unit := by have := unit_pos; simp; linarith
  have z1 : |(0 : ℝ)| ≤ 1 := by norm_num
  have o1 : |(1 : ℝ)| ≤ 1 := by norm_num
  have hnx := neg hx
  have hny := neg hy
  have hnz := neg hz
  have nx := neg1 kx
  have ny := neg1 ky
  have nz := neg1 kz
  unfold Close rodriguesOf rodMat
  simp only [Tr.crossMat, M3.row0, M3.row1, M3.row2, M3.col0, M3.col1, M3.col2, M3.add_def, M3.smul_def, M3.mul_def, M3.one_def]
  refine ⟨?_, ?_, ?_, ?_, ?_, ?_, ?_, ?_, ?_⟩
  · simpa only [V3.dot] using entry_near A (r' := ⟨0, -a.z, a.y⟩) (r := ⟨0, -k.z, k.y⟩) (l' := ⟨0, a.z, -a.y⟩) (l := ⟨0, k.z, -k.y⟩) o1 hs hs1 hc hg z0 z1 z0 hnz hy z1 nz ky z0 hz hny z1 kz ny
  · simpa only [V3.dot] using entry_near A (r' := ⟨0, -a.z, a.y⟩) (r := ⟨0, -k.z, k.y⟩) (l' := ⟨-a.z, 0, a.x⟩) (l := ⟨-k.z, 0, k.x⟩) z1 hs hs1 hc hg hnz nz z0 hnz hy z1 nz ky hnz z0 hx nz z1 kx
  · simpa only [V3.dot] using entry_near A (r' := ⟨0, -a.z, a.y⟩) (r := ⟨0, -k.z, k.y⟩) (l' := ⟨a.y, -a.x, 0⟩) (l := ⟨k.y, -k.x, 0⟩) z1 hs hs1 hc hg hy ky z0 hnz hy z1 nz ky hy hnx z0 ky nx z1
  · simpa only [V3.dot] using entry_near A (r' := ⟨a.z, 0, -a.x⟩) (r := ⟨k.z, 0, -k.x⟩) (l' := ⟨0, a.z, -a.y⟩) (l := ⟨0, k.z, -k.y⟩) z1 hs hs1 hc hg hz kz hz z0 hnx kz z1 nx z0 hz hny z1 kz ny
  · simpa only [V3.dot] using entry_near A (r' := ⟨a.z, 0, -a.x⟩) (r := ⟨k.z, 0, -k.x⟩) (l' := ⟨-a.z, 0, a.x⟩) (l := ⟨-k.z, 0, k.x⟩) o1 hs hs1 hc hg z0 z1 hz z0 hnx kz z1 nx hnz z0 hx nz z1 kx
  · simpa only [V3.dot] using entry_near A (r' := ⟨a.z, 0, -a.x⟩) (r := ⟨k.z, 0, -k.x⟩) (l' := ⟨a.y, -a.x, 0⟩) (l := ⟨k.y, -k.x, 0⟩) z1 hs hs1 hc hg hnx nx hz z0 hnx kz z1 nx hy hnx z0 ky nx z1
  · simpa only [V3.dot] using entry_near A (r' := ⟨-a.y, a.x, 0⟩) (r := ⟨-k.y, k.x, 0⟩) (l' := ⟨0, a.z, -a.y⟩) (l := ⟨0, k.z, -k.y⟩) z1 hs hs1 hc hg hny ny hny hx z0 ny kx z1 z0 hz hny z1 kz ny
  · simpa only [V3.dot] using entry_near A (r' := ⟨-a.y, a.x, 0⟩) (r := ⟨-k.y, k.x, 0⟩) (l' := ⟨-a.z, 0, a.x⟩) (l := ⟨-k.z, 0, k.x⟩) z1 hs hs1 hc hg hx kx hny hx z0 ny kx z1 hnz z0 hx nz z1 kx
  · simpa only [V3.dot] using entry_near A (r' := ⟨-a.y, a.x, 0⟩) (r := ⟨-k.y, k.x, 0⟩) (l' := ⟨a.y, -a.x, 0⟩) (l := ⟨k.y, -k.x, 0⟩) o1 hs hs1 hc hg z0 z1 hny hx z0 ny kx z1 hy hnx z0 ky nx z1

theorem Close.mulVec {η : ℝ} {M R : M3 ℝ} (h : Close η M R) (v : V3 ℝ) : norm3 (M.mulVec v - R.mulVec v) ≤ 6 * η * norm3 v := by
  obtain ⟨h1, h2, h3, h4, h5, h6, h7, h8, h9⟩ := h
  obtain ⟨vx, vy, vz⟩ := comp_le v
  have hη : 0 ≤ η := (abs_nonneg _).trans h1
  have row {a b c a' b' c' : ℝ} (ha : |a - a'| ≤ η) (hb : |b - b'| ≤ η) (hc : |c - c'| ≤ η) :
      |(a * v.x + b * v.y + c * v.z) - (a' * v.x + b' * v.y + c' * v.z)| ≤ 3 * η * norm3 v := by
    rw [show (a * v.x + b * v.y + c * v.z) - (a' * v.x + b' * v.y + c' * v.z) = (a - a') * v.x + (b - b') * v.y + (c - c') * v.z by ring]
    have t1 := abs_add_le ((a - a') * v.x + (b - b') * v.y) ((c - c') * v.z)
    have t2 := abs_add_le ((a - a') * v.x) ((b - b') * v.y)
    rw [abs_mul, abs_mul] at t2
    rw [abs_mul (c - c')] at t1
    have m1 := mul_le_mul ha vx (abs_nonneg _) hη
    have m2 := mul_le_mul hb vy (abs_nonneg _) hη
    have m3 := mul_le_mul hc vz (abs_nonneg _) hη
    linarith
  have := norm3_le_of_comp (v := M.mulVec v - R.mulVec v) (E := 3 * η * norm3 v) (row h1 h2 h3) (row h4 h5 h6) (row h7 h8 h9)
  linarith

theorem Close.keeps {M R : M3 ℝ} (h : Close (1024 * unit) M R) (hR : Orthogonal R) : Keeps ((1 / 2) ^ 39) M := by
  intro v w
  rw [len_eq, len_eq]
  have hSn (v : V3 ℝ) : norm3 (R.mulVec v) = norm3 v := by
    have h1 : norm3 (R.mulVec v) ^ 2 = norm3 v ^ 2 := by
      have := orth_dot hR v v
      rw [norm3_sq, norm3_sq]; exact this
    exact (pow_left_inj₀ (norm3_nonneg _) (norm3_nonneg _) (by norm_num)).mp h1
  have dv := h.mulVec v
  have dw := h.mulVec w
  have sv := hSn v
  have sw := hSn w
  have hvw := orth_dot hR v w
  have p1 := norm3_nonneg v
  have p2 := norm3_nonneg w
  have hu := unit_pos
  generalize M.mulVec v = V at *
  generalize M.mulVec w = W at *
  generalize R.mulVec v = X at *
  generalize R.mulVec w = Y at *
  have e : V.dot W - v.dot w = (V - X).dot Y + (W - Y).dot X + (V - X).dot (W - Y) := by
    rw [← hvw]
    simp only [V3.dot, V3.sub_x, V3.sub_y, V3.sub_z]; ring
  rw [e]
  have b1 := abs_dot_le (V - X) Y
  have b2 := abs_dot_le (W - Y) X
  have b3 := abs_dot_le (V - X) (W - Y)
  rw [sw] at b1
  rw [sv] at b2
  have c1 := mul_le_mul_of_nonneg_right dv p2
  have c2 := mul_le_mul_of_nonneg_right dw p1
  have c3 : norm3 (V - X) * norm3 (W - Y) ≤ 6 * (1024 * unit) * norm3 v * (6 * (1024 * unit) * norm3 w) :=
    mul_le_mul dv dw (norm3_nonneg _) (by positivity)
  have t2 := abs_add_le ((V - X).dot Y + (W - Y).dot X) ((V - X).dot (W - Y))
  have t3 := abs_add_le ((V - X).dot Y) ((W - Y).dot X)
  have hvw0 := mul_nonneg p1 p2
  rw [unit_eq] at *
  rw [show (6 * (1024 * (1 / 9007199254740992)) * norm3 v * (6 * (1024 * (1 / 9007199254740992)) * norm3 w) : ℝ) =
    6 * (1024 * (1 / 9007199254740992)) * (6 * (1024 * (1 / 9007199254740992))) * (norm3 v * norm3 w) by ring] at c3
  norm_num at *
  linarith

theorem entries_le {R : M3 ℝ} (hR : Orthogonal R) : |R.m00| ≤ 1 ∧ |R.m01| ≤ 1 ∧ |R.m02| ≤ 1 ∧ |R.m10| ≤ 1 ∧ |R.m11| ≤ 1 ∧ |R.m12| ≤ 1 ∧
    |R.m20| ≤ 1 ∧ |R.m21| ≤ 1 ∧ |R.m22| ≤ 1 := by
  have h0 := congrArg M3.m00 hR
  have h1 := congrArg M3.m11 hR
  have h2 := congrArg M3.m22 hR
  simp only [M3.transpose, M3.mul_def, M3.one_def] at h0 h1 h2
  refine ⟨?_, ?_, ?_, ?_, ?_, ?_, ?_, ?_, ?_⟩ <;> rw [← sq_le_one_iff_abs_le_one] <;> nlinarith [sq_nonneg R.m00, sq_nonneg R.m01, sq_nonneg R.m02,
    sq_nonneg R.m10, sq_nonneg R.m11, sq_nonneg R.m12, sq_nonneg R.m20, sq_nonneg R.m21, sq_nonneg R.m22]

/-- The constructor of Rotation accepts what is so close to a rotation. -/
theorem Close.accepted {M R : M3 ℝ} (h : Close (1024 * unit) M R) (hR : ProperRotation R) (origin : Option (V3 ℝ)) (locked basisOnly : Bool) :
    Tr.mkRotation M origin locked basisOnly = .ok (.matrix .rotation M origin locked basisOnly) := by
  obtain ⟨e1, e2, e3, e4, e5, e6, e7, e8, e9⟩ := entries_le hR.1
  have hRR := orth_right hR.1
  have hdet := hR.2
  obtain ⟨h1, h2, h3, h4, h5, h6, h7, h8, h9⟩ := h
  have hη : 1024 * unit ≤ 1 / 2 ^ 43 := by rw [unit_eq]; norm_num
  generalize 1024 * unit = η at *
  have hη0 : 0 ≤ η := (abs_nonneg _).trans h1
  have big {a a0 : ℝ} (h : |a - a0| ≤ η) (h0 : |a0| ≤ 1) : |a| ≤ 2 := by
    have := abs_add_le (a - a0) a0
    rw [sub_add_cancel] at this
    norm_num at *
    linarith
  have two {a b a0 b0 : ℝ} (ha : |a - a0| ≤ η) (hb : |b - b0| ≤ η) (ha0 : |a0| ≤ 1) (hb0 : |b0| ≤ 1) :
      |a * b - a0 * b0| ≤ 3 * η ∧ |a0 * b0| ≤ 1 := by
    refine ⟨?_, ?_⟩
    · have := prod_near ha hb ha0 (big hb hb0)
      linarith
    · rw [abs_mul]; exact mul_le_one₀ ha0 (abs_nonneg _) hb0
  have three {a b c a0 b0 c0 : ℝ} (ha : |a - a0| ≤ η) (hb : |b - b0| ≤ η) (hc : |c - c0| ≤ η) (ha0 : |a0| ≤ 1) (hb0 : |b0| ≤ 1) (hc0 : |c0| ≤ 1) :
      |a * b * c - a0 * b0 * c0| ≤ 7 * η := by
    obtain ⟨k1, k2⟩ := two ha hb ha0 hb0
    have := prod_near k1 hc k2 (big hc hc0)
    linarith
  have dotc {a b c a' b' c' a0 b0 c0 a0' b0' c0' : ℝ} (ha : |a - a0| ≤ η) (hb : |b - b0| ≤ η) (hc : |c - c0| ≤ η) (ha0 : |a0| ≤ 1) (hb0 : |b0| ≤ 1) (hc0 : |c0| ≤ 1)
      (ha' : |a' - a0'| ≤ η) (hb' : |b' - b0'| ≤ η) (hc' : |c' - c0'| ≤ η) (ha0' : |a0'| ≤ 1) (hb0' : |b0'| ≤ 1) (hc0' : |c0'| ≤ 1) :
      |(a * a' + b * b' + c * c') - (a0 * a0' + b0 * b0' + c0 * c0')| ≤ 9 * η := by
    have := add_near (add_near (two ha ha' ha0 ha0').1 (two hb hb' hb0 hb0').1) (two hc hc' hc0 hc0').1
    linarith
  have d : |M.det - 1| < 1 / 10 ^ 6 := by
    rw [← hdet]
    have s1 := sub_near (three h1 h5 h9 e1 e5 e9) (three h1 h6 h8 e1 e6 e8)
    have s2 := sub_near (three h2 h4 h9 e2 e4 e9) (three h2 h6 h7 e2 e6 e7)
    have s3 := sub_near (three h3 h4 h8 e3 e4 e8) (three h3 h5 h7 e3 e5 e7)
    have s4 := add_near (sub_near s1 s2) s3
    refine lt_of_le_of_lt (le_trans (le_of_eq ?_) s4) ?_
    · congr 1
      simp only [M3.det]
      ring
    · norm_num at *
      linarith
  have r0 := congrArg M3.m00 hRR
  have r1 := congrArg M3.m01 hRR
  have r2 := congrArg M3.m02 hRR
  have r3 := congrArg M3.m10 hRR
  have r4 := congrArg M3.m11 hRR
  have r5 := congrArg M3.m12 hRR
  have r6 := congrArg M3.m20 hRR
  have r7 := congrArg M3.m21 hRR
  have r8 := congrArg M3.m22 hRR
  simp only [M3.transpose, M3.mul_def, M3.one_def] at r0 r1 r2 r3 r4 r5 r6 r7 r8
  have m0 := dotc h1 h2 h3 e1 e2 e3 h1 h2 h3 e1 e2 e3
  have m1 := dotc h1 h2 h3 e1 e2 e3 h4 h5 h6 e4 e5 e6
  have m2 := dotc h1 h2 h3 e1 e2 e3 h7 h8 h9 e7 e8 e9
  have m3 := dotc h4 h5 h6 e4 e5 e6 h1 h2 h3 e1 e2 e3
  have m4 := dotc h4 h5 h6 e4 e5 e6 h4 h5 h6 e4 e5 e6
  have m5 := dotc h4 h5 h6 e4 e5 e6 h7 h8 h9 e7 e8 e9
  have m6 := dotc h7 h8 h9 e7 e8 e9 h1 h2 h3 e1 e2 e3
  have m7 := dotc h7 h8 h9 e7 e8 e9 h4 h5 h6 e4 e5 e6
  have m8 := dotc h7 h8 h9 e7 e8 e9 h7 h8 h9 e7 e8 e9
  rw [r0] at m0
  rw [r1] at m1
  rw [r2] at m2
  rw [r3] at m3
  rw [r4] at m4
  rw [r5] at m5
  rw [r6] at m6
  rw [r7] at m7
  rw [r8] at m8
  have o : Tr.sumAbs (M * M.transpose - 1) < 1 / 10 ^ 6 := by
    simp only [Tr.sumAbs, M3.transpose, M3.mul_def, M3.one_def, M3.sub_def]
    norm_num at *
    linarith
  unfold Tr.mkRotation
  rw [if_neg (not_not.mpr d), if_neg (not_not.mpr o)]

/-- The computed cross product. -/
theorem cross_near {v w : V3 ℝ} (hP : (1 / 2) ^ 400 ≤ norm3 v * norm3 w) :
    norm3 (cross A v w - v.cross w) ≤ 8 * unit * (norm3 v * norm3 w) := by
  obtain ⟨vx, vy, vz⟩ := comp_le v
  obtain ⟨wx, wy, wz⟩ := comp_le w
  have ht := tiny_400 hP
  have ht0 := tiny_pos
  have hC := norm3_cross_le v w
  obtain ⟨cx, cy, cz⟩ := comp_le (v.cross w)
  have hm {a b : ℝ} (ha : |a| ≤ norm3 v) (hb : |b| ≤ norm3 w) : |a * b| ≤ norm3 v * norm3 w := by
    rw [abs_mul]; exact mul_le_mul ha hb (abs_nonneg _) (norm3_nonneg _)
  have hu := unit_pos
  have comp {a b c d : ℝ} (h1 : |a * b| ≤ norm3 v * norm3 w) (h2 : |c * d| ≤ norm3 v * norm3 w) (h3 : |a * b - c * d| ≤ norm3 v * norm3 w) :
      |A.rnd (A.rnd (a * b) - A.rnd (c * d)) - (a * b - c * d)| ≤ 4 * unit * (norm3 v * norm3 w) := by
    have s := A.step (sub_near (A.near (a * b)) (A.near (c * d)))
    have m1 := mul_le_mul_of_nonneg_left h1 hu.le
    have m2 := mul_le_mul_of_nonneg_left h2 hu.le
    have m3 := mul_le_mul_of_nonneg_left h3 hu.le
    have m4 : unit * (unit * |a * b| + tiny + (unit * |c * d| + tiny)) ≤ unit * (unit * (norm3 v * norm3 w) + tiny + (unit * (norm3 v * norm3 w) + tiny)) :=
      mul_le_mul_of_nonneg_left (by linarith) hu.le
    have hP0 : 0 ≤ norm3 v * norm3 w := mul_nonneg (norm3_nonneg _) (norm3_nonneg _)
    generalize norm3 v * norm3 w = P at *
    rw [unit_eq] at *
    norm_num at *
    linarith
  have := norm3_le_of_comp (v := cross A v w - v.cross w) (E := 4 * unit * (norm3 v * norm3 w))
    (comp (hm vy wz) (hm vz wy) (cx.trans hC)) (comp (hm vz wx) (hm vx wz) (cy.trans hC)) (comp (hm vx wy) (hm vy wx) (cz.trans hC))
  linarith

/-- Directions of two close vectors. -/
theorem direction_close {c d : V3 ℝ} {ε : ℝ} (hc : 0 < norm3 c) (hd : 0 < norm3 d) (h : norm3 (d - c) ≤ ε * norm3 c) :
    norm3 ((norm3 d)⁻¹ • d - (norm3 c)⁻¹ • c) ≤ 2 * ε := by
  have e : (norm3 d)⁻¹ • d - (norm3 c)⁻¹ • c = (norm3 c)⁻¹ • (d - c) + ((norm3 d)⁻¹ * ((norm3 c)⁻¹ * (norm3 c - norm3 d))) • d := by
    ext <;> simp <;> field_simp <;> ring
  have h1 : norm3 ((norm3 c)⁻¹ • (d - c)) ≤ ε := by
    rw [norm3_smul, abs_of_pos (inv_pos.mpr hc), inv_mul_le_iff₀ hc]; linarith
  have h2 : norm3 (((norm3 d)⁻¹ * ((norm3 c)⁻¹ * (norm3 c - norm3 d))) • d) ≤ ε := by
    have h3 := abs_norm3_sub d c
    rw [norm3_smul, abs_mul, abs_mul, abs_of_pos (inv_pos.mpr hc), abs_of_pos (inv_pos.mpr hd), abs_sub_comm,
      show (norm3 d)⁻¹ * ((norm3 c)⁻¹ * |norm3 d - norm3 c|) * norm3 d = (norm3 c)⁻¹ * |norm3 d - norm3 c| by field_simp,
      inv_mul_le_iff₀ hc]
    linarith
  rw [e]
  have := norm3_add_le ((norm3 c)⁻¹ • (d - c)) (((norm3 d)⁻¹ * ((norm3 c)⁻¹ * (norm3 c - norm3 d))) • d)
  linarith

/-- Two turns about close axes by close angles. -/
theorem rod_close {k n v : V3 ℝ} {s c s0 c0 : ℝ} (hk : norm3 k = 1) (hn : norm3 n = 1) (hs0 : |s0| ≤ 1) (hc0 : |c0| ≤ 1) :
    norm3 ((rodMat k s c).mulVec v - (rodMat n s0 c0).mulVec v) ≤ (|s - s0| + |c - c0| + 5 * norm3 (k - n)) * norm3 v := by
  rw [rodMat_mulVec, rodMat_mulVec]
  have e : v + s • k.cross v + (1 - c) • k.cross (k.cross v) - (v + s0 • n.cross v + (1 - c0) • n.cross (n.cross v)) =
      ((s - s0) • k.cross v + s0 • (k - n).cross v) + ((c0 - c) • k.cross (k.cross v) + ((1 - c0) • (k - n).cross (k.cross v)
        + (1 - c0) • n.cross ((k - n).cross v))) := by
    ext <;> simp [V3.cross] <;> ring
  rw [e]
  have hv := norm3_nonneg v
  have k1 : norm3 (k.cross v) ≤ norm3 v := by have := norm3_cross_le k v; rwa [hk, one_mul] at this
  have k2 : norm3 (k.cross (k.cross v)) ≤ norm3 v := by have := norm3_cross_le k (k.cross v); rw [hk, one_mul] at this; linarith
  have k3 := norm3_cross_le (k - n) v
  have k4 : norm3 ((k - n).cross (k.cross v)) ≤ norm3 (k - n) * norm3 v :=
    (norm3_cross_le _ _).trans (mul_le_mul_of_nonneg_left k1 (norm3_nonneg _))
  have k5 : norm3 (n.cross ((k - n).cross v)) ≤ norm3 (k - n) * norm3 v := by
    have := norm3_cross_le n ((k - n).cross v); rw [hn, one_mul] at this; linarith
  have g : |1 - c0| ≤ 2 := by have := abs_sub (1 : ℝ) c0; rw [abs_one] at this; linarith
  have t1 : norm3 ((s - s0) • k.cross v) ≤ |s - s0| * norm3 v := by rw [norm3_smul]; exact mul_le_mul_of_nonneg_left k1 (abs_nonneg _)
  have t2 : norm3 (s0 • (k - n).cross v) ≤ norm3 (k - n) * norm3 v := by
    rw [norm3_smul]
    exact (mul_le_mul hs0 k3 (norm3_nonneg _) zero_le_one).trans (by rw [one_mul])
  have t3 : norm3 ((c0 - c) • k.cross (k.cross v)) ≤ |c - c0| * norm3 v := by
    rw [norm3_smul, abs_sub_comm]; exact mul_le_mul_of_nonneg_left k2 (abs_nonneg _)
  have t4 : norm3 ((1 - c0) • (k - n).cross (k.cross v)) ≤ 2 * (norm3 (k - n) * norm3 v) := by
    rw [norm3_smul]; exact mul_le_mul g k4 (norm3_nonneg _) (by norm_num)
  have t5 : norm3 ((1 - c0) • n.cross ((k - n).cross v)) ≤ 2 * (norm3 (k - n) * norm3 v) := by
    rw [norm3_smul]; exact mul_le_mul g k5 (norm3_nonneg _) (by norm_num)
  have a1 := norm3_add_le ((s - s0) • k.cross v + s0 • (k - n).cross v) ((c0 - c) • k.cross (k.cross v) + ((1 - c0) • (k - n).cross (k.cross v)
        + (1 - c0) • n.cross ((k - n).cross v)))
  have a2 := norm3_add_le ((s - s0) • k.cross v) (s0 • (k - n).cross v)
  have a3 := norm3_add_le ((c0 - c) • k.cross (k.cross v)) ((1 - c0) • (k - n).cross (k.cross v) + (1 - c0) • n.cross ((k - n).cross v))
  have a4 := norm3_add_le ((1 - c0) • (k - n).cross (k.cross v)) ((1 - c0) • n.cross ((k - n).cross v))
  linarith

/-- The computed sine: the root of a difference of close squares. -/
theorem sine_near {q φ S : ℝ} (hS : (1 / 2) ^ 20 ≤ S) (h1 : S ^ 2 + φ ^ 2 = 1) (hq : |q - φ| ≤ 26 * unit) :
    |q| ≤ 1 ∧ |Real.sqrt (1 - q ^ 2) - S| ≤ (1 / 2) ^ 27 := by
  have hS0 : 0 < S := lt_of_lt_of_le (by positivity) hS
  have hS2 : (1 / 2) ^ 40 ≤ S ^ 2 := by
    rw [show (40 : ℕ) = 20 * 2 by norm_num, pow_mul]
    exact pow_le_pow_left₀ (by positivity) hS 2
  have hφ : |φ| ≤ 1 - (1 / 2) ^ 41 := by
    apply abs_le_of_sq_le_sq (by norm_num at *; linarith) (by norm_num)
  have hqa : |q| ≤ 1 := by
    have := abs_add_le (q - φ) φ
    rw [sub_add_cancel] at this
    rw [unit_eq] at *
    norm_num at *
    linarith
  refine ⟨hqa, ?_⟩
  have hq2 : q ^ 2 ≤ 1 := (sq_le_one_iff_abs_le_one q).mpr hqa
  have hy := Real.sq_sqrt (by linarith : 0 ≤ 1 - q ^ 2)
  have hy0 := Real.sqrt_nonneg (1 - q ^ 2)
  generalize Real.sqrt (1 - q ^ 2) = y at *
  have d : |y ^ 2 - S ^ 2| ≤ 52 * unit := by
    rw [show y ^ 2 - S ^ 2 = -((q - φ) * (q + φ)) by linarith [mul_comm q φ, sq q, sq φ, sub_mul q φ (q + φ), mul_add q q φ, mul_add φ q φ], abs_neg, abs_mul]
    have : |q + φ| ≤ 2 := (abs_add_le _ _).trans (by norm_num at *; linarith)
    have := mul_le_mul hq this (abs_nonneg _) (by have := unit_pos; positivity)
    linarith
  have f : |y - S| * (y + S) = |y ^ 2 - S ^ 2| := by
    rw [← abs_of_nonneg (by linarith : 0 ≤ y + S), ← abs_mul]
    congr 1
    ring
  have g : |y - S| * (1 / 2) ^ 20 ≤ |y - S| * (y + S) := mul_le_mul_of_nonneg_left (by linarith) (abs_nonneg _)
  rw [f] at g
  rw [unit_eq] at *
  norm_num at *
  linarith

/-- **C143 (aligning).** If the angle between two vectors, neither of them tiny, is at least about 10^-6 away from 0 and from half a turn,
`rot_vtv` returns a matrix that the constructor of Rotation accepts, that keeps inner products up to 2^-39, and that takes the first
vector into the direction of the second up to 2^-24 of its length. -/
theorem C143_aligns_partial {v w : V3 ℝ} (hv : (1 / 2) ^ 200 ≤ len v) (hw : (1 / 2) ^ 200 ≤ len w)
    (hc : (1 / 2) ^ 20 * (len v * len w) ≤ len (v.cross w)) (origin : Option (V3 ℝ)) (locked basisOnly : Bool) :
    ∃ M, rotVtv A T v w = .ok M ∧ Keeps ((1 / 2) ^ 39) M ∧
      Tr.mkRotationOf (rotVtv A T v w) origin locked basisOnly = .ok (.matrix .rotation M origin locked basisOnly) ∧
      len (M.mulVec v - (len v / len w) • w) ≤ (1 / 2) ^ 24 * len v := by
  simp only [len_eq] at *
  have p200 : (0 : ℝ) < (1 / 2) ^ 200 := by positivity
  have hLv : 0 < norm3 v := lt_of_lt_of_le p200 hv
  have hLw : 0 < norm3 w := lt_of_lt_of_le p200 hw
  have hv0 : v ≠ 0 := (norm3_pos v).mp hLv
  have hw0 : w ≠ 0 := (norm3_pos w).mp hLw
  have hPlow : (1 / 2) ^ 400 ≤ norm3 v * norm3 w := by
    rw [show (400 : ℕ) = 200 + 200 by norm_num, pow_add]
    exact mul_le_mul hv hw p200.le (norm3_nonneg _)
  have hP : 0 < norm3 v * norm3 w := mul_pos hLv hLw
  obtain ⟨hD, hq⟩ := cosine_near A hv hw
  have hu := unit_pos
  have ht := small_unit
  -- sine and cosine
  have hCpos : 0 < norm3 (v.cross w) := lt_of_lt_of_le (by positivity) hc
  have hc0 : v.cross w ≠ 0 := (norm3_pos _).mp hCpos
  have es := sin_angle v w hv0 hw0
  have ec := cos_angle v w hv0 hw0
  have hS : (1 / 2) ^ 20 ≤ Real.sin (angle v w) := by rw [es, le_div_iff₀ hP]; exact hc
  rw [← ec] at hq
  have hx := cross_near A hPlow
  have maps := rod_maps hv0 hw0 hc0
  have s1 := Real.abs_sin_le_one (angle v w)
  have c1 := Real.abs_cos_le_one (angle v w)
  have pyth := Real.sin_sq_add_cos_sq (angle v w)
  generalize Real.sin (angle v w) = S at *
  generalize Real.cos (angle v w) = φ at *
  obtain ⟨hq1, hy⟩ := sine_near hS pyth hq
  -- the axis
  have hrel : norm3 (cross A v w - v.cross w) ≤ (1 / 2) ^ 30 * norm3 (v.cross w) := by
    refine hx.trans ?_
    rw [unit_eq]
    norm_num at *
    linarith
  have hbig : norm3 (v.cross w) / 2 ≤ norm3 (cross A v w) := by
    have := (abs_le.mp (abs_norm3_sub (cross A v w) (v.cross w))).1
    norm_num at *
    linarith
  have h450 : (1 / 2) ^ 450 ≤ norm3 (cross A v w) := by
    have e : (1 / 2 : ℝ) ^ 450 = (1 / 2) ^ 50 * (1 / 2) ^ 400 := by rw [← pow_add]
    rw [e]
    have : (0 : ℝ) < (1 / 2) ^ 400 := by positivity
    generalize (1 / 2 : ℝ) ^ 400 = τ at *
    norm_num at *
    linarith
  have hd : 0 < norm3 (cross A v w) := lt_of_lt_of_le (by positivity) h450
  obtain ⟨hN, ax, ay, az⟩ := normalised_near A h450
  have hdir := direction_close hCpos hd hrel
  have hk1 := norm3_unit hd.ne'
  have hn1 := norm3_unit hCpos.ne'
  -- the computation
  generalize hqd : A.rnd (A.dot v w / A.rnd (norm A v * norm A w)) = q at *
  have hy27 : (1 / 2) ^ 27 ≤ Real.sqrt (1 - q ^ 2) := by
    have := (abs_le.mp hy).1
    norm_num at *
    linarith
  have b1 := not_parallel T hq1 hy27
  have b2 := not_opposite A T hq1 hy27 (arccos_ge q).2
  have hacos := T.acos_near q hq1
  have hrot : rotVtv A T v w = .ok (rodriguesOf A ⟨A.rnd ((cross A v w).x / norm A (cross A v w)), A.rnd ((cross A v w).y / norm A (cross A v w)),
      A.rnd ((cross A v w).z / norm A (cross A v w))⟩ (T.sin (T.acos q)) (A.rnd (1 - T.cos (T.acos q)))) := by
    unfold rotVtv
    simp only [hqd]
    rw [if_neg hD, if_neg (not_lt.mpr hq1), if_neg b1, if_neg b2]
    unfold rodrigues
    simp only
    rw [if_neg hN]
  have hsin := T.sin_near (T.acos q)
  have hcos := T.cos_near (T.acos q)
  have hsc := Real.abs_sin_sub_sin_le (T.acos q) (Real.arccos q)
  have hcc := Real.abs_cos_sub_cos_le (T.acos q) (Real.arccos q)
  rw [Real.sin_arccos] at hsc
  rw [Real.cos_arccos (abs_le.mp hq1).1 (abs_le.mp hq1).2] at hcc
  have p2 := Real.sin_sq_add_cos_sq (T.acos q)
  have s2 := Real.abs_sin_le_one (T.acos q)
  have c2 := Real.abs_cos_le_one (T.acos q)
  generalize Real.sin (T.acos q) = s at *
  generalize Real.cos (T.acos q) = c at *
  have hc' : |A.rnd (1 - T.cos (T.acos q)) - (1 - c)| ≤ 5 * unit := by
    have h1 : |1 - T.cos (T.acos q) - (1 - c)| ≤ 2 * unit := by
      rw [← abs_neg]; convert hcos using 2; ring
    have h2 : |1 - c| ≤ 2 := by have := abs_sub (1 : ℝ) c; rw [abs_one] at this; linarith
    refine (A.step h1).trans ?_
    rw [unit_eq] at *
    norm_num at *
    linarith
  have hclose := rodrigues_near A (a := ⟨A.rnd ((cross A v w).x / norm A (cross A v w)), A.rnd ((cross A v w).y / norm A (cross A v w)),
    A.rnd ((cross A v w).z / norm A (cross A v w))⟩) hk1 ax ay az hsin hc' s2 c2
  have hku := norm3_eq_one.mp hk1
  have hprop : ProperRotation (rodMat ((norm3 (cross A v w))⁻¹ • cross A v w) s c) := ⟨rodMat_orth hku p2, rodMat_det hku p2⟩
  refine ⟨_, hrot, hclose.keeps hprop.1, ?_, ?_⟩
  · rw [hrot]
    exact hclose.accepted hprop origin locked basisOnly
  · have g1 := hclose.mulVec v
    have g2 := rod_close (v := v) (s := s) (c := c) hk1 hn1 s1 c1
    rw [maps] at g2
    refine (norm3_tri _ ((rodMat ((norm3 (cross A v w))⁻¹ • cross A v w) s c).mulVec v) _).trans ?_
    have k1 := abs_sub_le s (Real.sqrt (1 - q ^ 2)) S
    have k2 := abs_sub_le c q φ
    have g3 : (|s - S| + |c - φ| + 5 * norm3 ((norm3 (cross A v w))⁻¹ • cross A v w - (norm3 (v.cross w))⁻¹ • v.cross w)) * norm3 v ≤
        (1 / 2) ^ 25 * norm3 v := by
      refine mul_le_mul_of_nonneg_right ?_ hLv.le
      rw [unit_eq] at *
      norm_num at *
      linarith
    rw [unit_eq] at *
    norm_num at *
    linarith

/-! ## 64-bit floats -/

theorem rnd64_one : rnd64 1 = 1 := by
  rw [Amo.rnd64_eq (-52) (2 ^ 52) (by norm_num) (by norm_num) (by norm_num) (by norm_num)]; norm_num

theorem rnd64_two : rnd64 2 = 2 := by
  rw [Amo.rnd64_eq (-51) (2 ^ 52) (by norm_num) (by norm_num) (by norm_num) (by norm_num)]; norm_num

theorem rnd64_three : rnd64 3 = 3 := by
  rw [Amo.rnd64_eq (-51) (3 * 2 ^ 51) (by norm_num) (by norm_num) (by norm_num) (by norm_num)]; norm_num

theorem sqrt_between {x a b : ℝ} (hb : 0 < b) (h1 : a ^ 2 < x) (h2 : x < b ^ 2) : a < Real.sqrt x ∧ Real.sqrt x < b :=
  ⟨Real.lt_sqrt_of_sq_lt h1, (Real.sqrt_lt' hb).mpr h2⟩

theorem rnd64_sqrt3 : rnd64 (Real.sqrt 3) = 7800463371553962 / 2 ^ 52 := by
  obtain ⟨h1, h2⟩ := sqrt_between (x := 3) (a := (7800463371553962 - 49 / 100) / 2 ^ 52) (b := (7800463371553962 + 49 / 100) / 2 ^ 52)
    (by norm_num) (by norm_num) (by norm_num)
  rw [Amo.rnd64_eq (-52) 7800463371553962 (by norm_num) (le_trans (by norm_num) h1.le) (lt_trans h2 (by norm_num))
    (by rw [abs_lt]; norm_num at h1 h2 ⊢; constructor <;> linarith)]
  norm_num

theorem rnd64_sqrt2 : rnd64 (Real.sqrt 2) = 6369051672525773 / 2 ^ 52 := by
  obtain ⟨h1, h2⟩ := sqrt_between (x := 2) (a := (6369051672525773 - 49 / 100) / 2 ^ 52) (b := (6369051672525773 + 49 / 100) / 2 ^ 52)
    (by norm_num) (by norm_num) (by norm_num)
  rw [Amo.rnd64_eq (-52) 6369051672525773 (by norm_num) (le_trans (by norm_num) h1.le) (lt_trans h2 (by norm_num))
    (by rw [abs_lt]; norm_num at h1 h2 ⊢; constructor <;> linarith)]
  norm_num

theorem ones_dot : binary64.dot ⟨1, 1, 1⟩ ⟨1, 1, 1⟩ = 3 := by
  show loopDot rnd64 _ _ = 3
  unfold loopDot
  norm_num [rnd64_one]
  rw [rnd64_two]; norm_num [rnd64_three]

theorem ones_norm : rnd64 (norm binary64 ⟨1, 1, 1⟩ * norm binary64 ⟨1, 1, 1⟩) = 3 - 1 / 2 ^ 51 := by
  unfold norm
  rw [ones_dot]
  show rnd64 (rnd64 _ * rnd64 _) = _
  rw [rnd64_sqrt3, Amo.rnd64_eq (-51) (3 * 2 ^ 51 - 1) (by norm_num) (by norm_num) (by norm_num) (by norm_num [abs_lt])]
  norm_num

theorem diag_dot : binary64.dot ⟨1, 1, 0⟩ ⟨1, 1, 0⟩ = 2 := by
  show loopDot rnd64 _ _ = 2
  unfold loopDot
  norm_num [rnd64_one, rnd64_zero]
  rw [rnd64_two]; norm_num [rnd64_two]

theorem diag_norm : rnd64 (norm binary64 ⟨1, 1, 0⟩ * norm binary64 ⟨1, 1, 0⟩) = 2 + 1 / 2 ^ 51 := by
  unfold norm
  rw [diag_dot]
  show rnd64 (rnd64 _ * rnd64 _) = _
  rw [rnd64_sqrt2, Amo.rnd64_eq (-51) (2 ^ 52 + 1) (by norm_num) (by norm_num) (by norm_num) (by norm_num [abs_lt])]
  norm_num

/-- **C143 (refutation).** With 64-bit floats and any libraries for the functions: aligning (1,1,1) with itself is NaN, because the
computed cosine is above 1; aligning (1,1,0) with itself is NaN, because the computed cosine is below 1 and the cross product vanishes.
The constructor of Rotation refuses both. -/
theorem C143_parallel_refuted : rotVtv binary64 T ⟨1, 1, 1⟩ ⟨1, 1, 1⟩ = .error .nan ∧ rotVtv binary64 T ⟨1, 1, 0⟩ ⟨1, 1, 0⟩ = .error .nan ∧
    Tr.mkRotationOf (rotVtv binary64 T ⟨1, 1, 1⟩ ⟨1, 1, 1⟩) none true false = .error .assertion ∧
    Tr.mkRotationOf (rotVtv binary64 T ⟨1, 1, 0⟩ ⟨1, 1, 0⟩) none true false = .error .assertion := by
  have h1 : rotVtv binary64 T ⟨1, 1, 1⟩ ⟨1, 1, 1⟩ = .error .nan := by
    unfold rotVtv
    simp only
    rw [ones_dot]
    show (if rnd64 _ = 0 then _ else if 1 < |rnd64 (_ / rnd64 _)| then _ else _) = _
    rw [ones_norm, if_neg (by norm_num), if_pos]
    rw [Amo.rnd64_eq (-52) (2 ^ 52 + 1) (by norm_num) (by norm_num) (by norm_num) (by norm_num [abs_lt])]
    norm_num
  have h2 : rotVtv binary64 T ⟨1, 1, 0⟩ ⟨1, 1, 0⟩ = .error .nan := by
    have hq : rnd64 (2 / (2 + 1 / 2 ^ 51)) = 1 - 1 / 2 ^ 52 := by
      rw [Amo.rnd64_eq (-53) (2 ^ 53 - 2) (by norm_num) (by norm_num) (by norm_num) (by norm_num [abs_lt])]
      norm_num
    unfold rotVtv
    simp only
    rw [diag_dot, cross_same _ binary64_zeroed.1, rodrigues_zero _ T binary64_zeroed.1]
    show (if rnd64 _ = 0 then _ else if 1 < |rnd64 (_ / rnd64 _)| then _ else if T.acos (rnd64 (_ / rnd64 _)) < _ then _ else
      if binary64.rnd (T.pi - T.acos (rnd64 (_ / rnd64 _))) < _ then _ else _) = _
    rw [diag_norm, hq, if_neg (by norm_num), if_neg (by norm_num [abs_le]), if_neg, if_neg]
    · exact not_opposite _ T (by norm_num [abs_le]) (y := 1) (by norm_num)
        (by
          have := Real.arccos_le_pi_div_two.mpr (by norm_num : (0 : ℝ) ≤ 1 - 1 / 2 ^ 52)
          linarith [Real.two_le_pi])
    · exact not_parallel T (by norm_num [abs_le]) (Real.le_sqrt_of_sq_le (by norm_num))
  refine ⟨h1, h2, ?_, ?_⟩
  · rw [h1]; rfl
  · rw [h2]; rfl

/-- What a number of either sign is rounded to. -/
theorem rnd64_at {x : ℝ} (e k : ℤ) (he : -1074 ≤ e) (h0 : 2 ^ (e + 52) ≤ |x|) (h1 : |x| < 2 ^ (e + 53)) (h : |x - k * 2 ^ e| < 2 ^ e / 2) :
    rnd64 x = k * 2 ^ e := by
  have hx : 0 < |x| := lt_of_lt_of_le (by positivity) h0
  have hp : (0 : ℝ) < 2 ^ e := by positivity
  have l0 : e + 52 ≤ Int.log 2 |x| := (Int.zpow_le_iff_le_log (by norm_num) hx).mp (by exact_mod_cast h0)
  have l1 : Int.log 2 |x| < e + 53 := (Int.lt_zpow_iff_log_lt (by norm_num) hx).mp (by exact_mod_cast h1)
  have hex : exponent x = e := by unfold exponent; omega
  unfold rnd64
  rw [hex]
  congr 2
  have n := npRound_near (x / 2 ^ e)
  have h2 : |x / 2 ^ e - k| < 1 / 2 := by
    rw [show x / 2 ^ e - k = (x - k * 2 ^ e) / 2 ^ e by field_simp, abs_div, abs_of_pos hp, div_lt_iff₀ hp]
    linarith
  have n' := abs_le.mp n
  have h2' := abs_lt.mp h2
  generalize npRound (x / 2 ^ e) = r at *
  have a1 : ((r - k : ℤ) : ℝ) < 1 := by push_cast; linarith
  have a2 : (-1 : ℝ) < ((r - k : ℤ) : ℝ) := by push_cast; linarith
  have b1 : r - k < 1 := by exact_mod_cast a1
  have b2 : -1 < r - k := by exact_mod_cast a2
  omega

/-- Ties go to the even neighbour. -/
theorem rnd64_tie {x : ℝ} (e k : ℤ) (he : -1074 ≤ e) (h0 : 2 ^ (e + 52) ≤ |x|) (h1 : |x| < 2 ^ (e + 53)) (h : |x - k * 2 ^ e| ≤ 2 ^ e / 2) (hk : Even k) :
    rnd64 x = k * 2 ^ e := by
  have hx : 0 < |x| := lt_of_lt_of_le (by positivity) h0
  have hp : (0 : ℝ) < 2 ^ e := by positivity
  have l0 : e + 52 ≤ Int.log 2 |x| := (Int.zpow_le_iff_le_log (by norm_num) hx).mp (by exact_mod_cast h0)
  have l1 : Int.log 2 |x| < e + 53 := (Int.lt_zpow_iff_log_lt (by norm_num) hx).mp (by exact_mod_cast h1)
  have hex : exponent x = e := by unfold exponent; omega
  unfold rnd64
  rw [hex]
  congr 2
  have n := npRound_near (x / 2 ^ e)
  have ev := npRound_even (x / 2 ^ e)
  have h2 : |x / 2 ^ e - k| ≤ 1 / 2 := by
    rw [show x / 2 ^ e - k = (x - k * 2 ^ e) / 2 ^ e by field_simp, abs_div, abs_of_pos hp, div_le_iff₀ hp]
    linarith
  have n' := abs_le.mp n
  have h2' := abs_le.mp h2
  generalize npRound (x / 2 ^ e) = r at *
  by_contra hne
  have a1 : ((r - k : ℤ) : ℝ) ≤ 1 := by push_cast; linarith
  have a2 : (-1 : ℝ) ≤ ((r - k : ℤ) : ℝ) := by push_cast; linarith
  have b1 : r - k ≤ 1 := by exact_mod_cast a1
  have b2 : -1 ≤ r - k := by exact_mod_cast a2
  have hr : r = k + 1 ∨ r = k - 1 := by omega
  have hev : Even r := by
    refine ev ?_
    rcases hr with hr | hr
    · have : (r : ℝ) = k + 1 := by exact_mod_cast hr
      rw [abs_eq (by norm_num)]; left; linarith
    · have : (r : ℝ) = k - 1 := by exact_mod_cast hr
      rw [abs_eq (by norm_num)]; right; linarith
  obtain ⟨a, ha⟩ := hk
  obtain ⟨b, hb⟩ := hev
  omega

theorem wit1 : rnd64 (9 * (-(7093169413108531 / 2 ^ 50))) = (-(7979815589747097 / 2 ^ 47)) := by
  rw [rnd64_at (-47) (-7979815589747097) (by norm_num) (by norm_num) (by norm_num) (by norm_num [abs_lt])]
  norm_num

theorem wit2 : rnd64 (5 * (-(7 / 2 ^ 1))) = (-(35 / 2 ^ 1)) := by
  rw [rnd64_at (-48) (-4925812092436480) (by norm_num) (by norm_num) (by norm_num) (by norm_num [abs_lt])]
  norm_num

theorem wit3 : rnd64 (3 * (-(1182194902184755 / 2 ^ 49))) = (-(3546584706554265 / 2 ^ 49)) := by
  rw [rnd64_at (-50) (-7093169413108530) (by norm_num) (by norm_num) (by norm_num) (by norm_num [abs_lt])]
  norm_num

theorem wit4 : rnd64 ((-(7979815589747097 / 2 ^ 47)) + (-(35 / 2 ^ 1))) = (-(1305340204495667 / 2 ^ 44)) := by
  rw [rnd64_tie (-46) (-5221360817982668) (by norm_num) (by norm_num) (by norm_num) (by norm_num [abs_le]) ⟨-2610680408991334, by norm_num⟩]
  norm_num

theorem wit5 : rnd64 ((-(1305340204495667 / 2 ^ 44)) + (-(3546584706554265 / 2 ^ 49))) = (-(5664683906301951 / 2 ^ 46)) := by
  rw [rnd64_at (-46) (-5664683906301951) (by norm_num) (by norm_num) (by norm_num) (by norm_num [abs_lt])]
  norm_num

theorem wit_vw : binary64.dot ⟨9, 5, 3⟩ ⟨(-(7093169413108531 / 2 ^ 50)), (-(7 / 2 ^ 1)), (-(1182194902184755 / 2 ^ 49))⟩ = (-(5664683906301951 / 2 ^ 46)) := by
  show loopDot rnd64 _ _ = _
  simp only [loopDot]
  rw [wit1, wit2, wit3, wit4, wit5]

theorem wit6 : rnd64 (9 * 9) = 81 := by
  rw [rnd64_at (-46) (5699868278390784) (by norm_num) (by norm_num) (by norm_num) (by norm_num [abs_lt])]
  norm_num

theorem wit7 : rnd64 (5 * 5) = 25 := by
  rw [rnd64_at (-48) (7036874417766400) (by norm_num) (by norm_num) (by norm_num) (by norm_num [abs_lt])]
  norm_num

theorem wit8 : rnd64 (3 * 3) = 9 := by
  rw [rnd64_at (-49) (5066549580791808) (by norm_num) (by norm_num) (by norm_num) (by norm_num [abs_lt])]
  norm_num

theorem wit9 : rnd64 (81 + 25) = 106 := by
  rw [rnd64_at (-46) (7459086882832384) (by norm_num) (by norm_num) (by norm_num) (by norm_num [abs_lt])]
  norm_num

theorem wit10 : rnd64 (106 + 9) = 115 := by
  rw [rnd64_at (-46) (8092405580431360) (by norm_num) (by norm_num) (by norm_num) (by norm_num [abs_lt])]
  norm_num

theorem wit_vv : binary64.dot ⟨9, 5, 3⟩ ⟨9, 5, 3⟩ = 115 := by
  show loopDot rnd64 _ _ = _
  simp only [loopDot]
  rw [wit6, wit7, wit8, wit9, wit10]

theorem wit11 : rnd64 ((-(7093169413108531 / 2 ^ 50)) * (-(7093169413108531 / 2 ^ 50))) = (698233864102871 / 2 ^ 44) := by
  rw [rnd64_at (-47) (5585870912822968) (by norm_num) (by norm_num) (by norm_num) (by norm_num [abs_lt])]
  norm_num

theorem wit12 : rnd64 ((-(7 / 2 ^ 1)) * (-(7 / 2 ^ 1))) = (49 / 2 ^ 2) := by
  rw [rnd64_at (-49) (6896136929411072) (by norm_num) (by norm_num) (by norm_num) (by norm_num [abs_lt])]
  norm_num

theorem wit13 : rnd64 ((-(1182194902184755 / 2 ^ 49)) * (-(1182194902184755 / 2 ^ 49))) = (2482609294587985 / 2 ^ 49) := by
  rw [rnd64_at (-50) (4965218589175970) (by norm_num) (by norm_num) (by norm_num) (by norm_num [abs_lt])]
  norm_num

theorem wit14 : rnd64 ((698233864102871 / 2 ^ 44) + (49 / 2 ^ 2)) = (913738143146967 / 2 ^ 44) := by
  rw [rnd64_at (-47) (7309905145175736) (by norm_num) (by norm_num) (by norm_num) (by norm_num [abs_lt])]
  norm_num

theorem wit15 : rnd64 ((913738143146967 / 2 ^ 44) + (2482609294587985 / 2 ^ 49)) = (1982639367205683 / 2 ^ 45) := by
  rw [rnd64_at (-47) (7930557468822732) (by norm_num) (by norm_num) (by norm_num) (by norm_num [abs_lt])]
  norm_num

theorem wit_ww : binary64.dot ⟨(-(7093169413108531 / 2 ^ 50)), (-(7 / 2 ^ 1)), (-(1182194902184755 / 2 ^ 49))⟩ ⟨(-(7093169413108531 / 2 ^ 50)), (-(7 / 2 ^ 1)), (-(1182194902184755 / 2 ^ 49))⟩ = (1982639367205683 / 2 ^ 45) := by
  show loopDot rnd64 _ _ = _
  simp only [loopDot]
  rw [wit11, wit12, wit13, wit14, wit15]

theorem wit_rv : rnd64 (Real.sqrt 115) = (754620711398299 / 2 ^ 46) := by
  obtain ⟨h1, h2⟩ := sqrt_between (x := 115) (a := (6036965691186392 - 49 / 100) / 2 ^ 49) (b := (6036965691186392 + 49 / 100) / 2 ^ 49)
    (by norm_num) (by norm_num) (by norm_num)
  have h0 := Real.sqrt_nonneg 115
  rw [rnd64_at (-49) 6036965691186392 (by norm_num) (by rw [abs_of_nonneg h0]; exact le_trans (by norm_num) h1.le)
    (by rw [abs_of_nonneg h0]; exact lt_trans h2 (by norm_num)) (by
      generalize Real.sqrt 115 = r at *
      rw [abs_lt]; norm_num at h1 h2 ⊢; constructor <;> linarith)]
  norm_num

theorem wit_rw : rnd64 (Real.sqrt (1982639367205683 / 2 ^ 45)) = (8451751967660949 / 2 ^ 50) := by
  obtain ⟨h1, h2⟩ := sqrt_between (x := (1982639367205683 / 2 ^ 45)) (a := (8451751967660949 - 49 / 100) / 2 ^ 50) (b := (8451751967660949 + 49 / 100) / 2 ^ 50)
    (by norm_num) (by norm_num) (by norm_num)
  have h0 := Real.sqrt_nonneg (1982639367205683 / 2 ^ 45)
  rw [rnd64_at (-50) 8451751967660949 (by norm_num) (by rw [abs_of_nonneg h0]; exact le_trans (by norm_num) h1.le)
    (by rw [abs_of_nonneg h0]; exact lt_trans h2 (by norm_num)) (by
      generalize Real.sqrt (1982639367205683 / 2 ^ 45) = r at *
      rw [abs_lt]; norm_num at h1 h2 ⊢; constructor <;> linarith)]
  norm_num

theorem wit16 : rnd64 ((754620711398299 / 2 ^ 46) * (8451751967660949 / 2 ^ 50)) = (161 / 2 ^ 1) := by
  rw [rnd64_at (-46) (5664683906301952) (by norm_num) (by norm_num) (by norm_num) (by norm_num [abs_lt])]
  norm_num

theorem wit17 : rnd64 ((-(5664683906301951 / 2 ^ 46)) / (161 / 2 ^ 1)) = (-(4503599627370495 / 2 ^ 52)) := by
  rw [rnd64_at (-53) (-9007199254740990) (by norm_num) (by norm_num) (by norm_num) (by norm_num [abs_lt])]
  norm_num

theorem wit18 : rnd64 (5 * (-(1182194902184755 / 2 ^ 49))) = (-(5910974510923775 / 2 ^ 49)) := by
  rw [rnd64_at (-49) (-5910974510923775) (by norm_num) (by norm_num) (by norm_num) (by norm_num [abs_lt])]
  norm_num

theorem wit19 : rnd64 (3 * (-(7 / 2 ^ 1))) = (-(21 / 2 ^ 1)) := by
  rw [rnd64_at (-49) (-5910974510923776) (by norm_num) (by norm_num) (by norm_num) (by norm_num [abs_lt])]
  norm_num

theorem wit20 : rnd64 ((-(5910974510923775 / 2 ^ 49)) - (-(21 / 2 ^ 1))) = (1 / 2 ^ 49) := by
  rw [rnd64_at (-101) (4503599627370496) (by norm_num) (by norm_num) (by norm_num) (by norm_num [abs_lt])]
  norm_num

theorem wit21 : rnd64 (3 * (-(7093169413108531 / 2 ^ 50))) = (-(2659938529915699 / 2 ^ 47)) := by
  rw [rnd64_at (-48) (-5319877059831398) (by norm_num) (by norm_num) (by norm_num) (by norm_num [abs_lt])]
  norm_num

theorem wit22 : rnd64 (9 * (-(1182194902184755 / 2 ^ 49))) = (-(2659938529915699 / 2 ^ 47)) := by
  rw [rnd64_tie (-48) (-5319877059831398) (by norm_num) (by norm_num) (by norm_num) (by norm_num [abs_le]) ⟨-2659938529915699, by norm_num⟩]
  norm_num

theorem wit23 : rnd64 ((-(2659938529915699 / 2 ^ 47)) - (-(2659938529915699 / 2 ^ 47))) = 0 := by
  rw [show ((-(2659938529915699 / 2 ^ 47)) - (-(2659938529915699 / 2 ^ 47)) : ℝ) = 0 by norm_num, rnd64_zero]

theorem wit24 : rnd64 (9 * (-(7 / 2 ^ 1))) = (-(63 / 2 ^ 1)) := by
  rw [rnd64_at (-48) (-8866461766385664) (by norm_num) (by norm_num) (by norm_num) (by norm_num [abs_lt])]
  norm_num

theorem wit25 : rnd64 (5 * (-(7093169413108531 / 2 ^ 50))) = (-(63 / 2 ^ 1)) := by
  rw [rnd64_at (-48) (-8866461766385664) (by norm_num) (by norm_num) (by norm_num) (by norm_num [abs_lt])]
  norm_num

theorem wit26 : rnd64 ((-(63 / 2 ^ 1)) - (-(63 / 2 ^ 1))) = 0 := by
  rw [show ((-(63 / 2 ^ 1)) - (-(63 / 2 ^ 1)) : ℝ) = 0 by norm_num, rnd64_zero]

/-- A vector and another one, which is minus seven tenths of it up to rounding. -/
def off : V3 ℝ := ⟨9, 5, 3⟩
/-- See `off`. -/
def back : V3 ℝ := ⟨(-(7093169413108531 / 2 ^ 50)), (-(7 / 2 ^ 1)), (-(1182194902184755 / 2 ^ 49))⟩

theorem wit_cross : cross binary64 off back = ⟨(1 / 2 ^ 49), 0, 0⟩ := by
  unfold cross off back
  simp only [show binary64.rnd = rnd64 from rfl]
  rw [wit18, wit19, wit20, wit21, wit22, wit23, wit24, wit25, wit26]

theorem wit_norms : binary64.rnd (norm binary64 off * norm binary64 back) = (161 / 2 ^ 1) := by
  unfold norm off back
  rw [wit_vv, wit_ww]
  show rnd64 (rnd64 _ * rnd64 _) = _
  rw [wit_rv, wit_rw, wit16]

theorem wit_cosine : binary64.rnd (binary64.dot off back / binary64.rnd (norm binary64 off * norm binary64 back)) = (-(4503599627370495 / 2 ^ 52)) := by
  rw [wit_norms]
  unfold off back
  rw [wit_vw]
  exact wit17


/-- **C143 (refutation, opposite vectors).** With 64-bit floats and any libraries for the functions: `back` is minus seven tenths of `off` up to
rounding, and the matrix computed for these two is accepted as a rotation, but it takes `off` far from the direction of `back` (about 110
degrees): the axis is made of rounding errors. -/
theorem C143_opposite_refuted : len (back - (-(7 / 10) : ℝ) • off) ≤ (1 / 2) ^ 49 ∧ ∃ M, rotVtv binary64 T off back = .ok M ∧
    (∀ origin locked basisOnly, Tr.mkRotationOf (rotVtv binary64 T off back) origin locked basisOnly = .ok (.matrix .rotation M origin locked basisOnly)) ∧
    8 / 5 * len off ≤ len (M.mulVec off - (len off / len back) • back) := by
  simp only [len_eq]
  refine ⟨?_, ?_⟩
  · have := norm3_le_of_comp (v := back - (-(7 / 10) : ℝ) • off) (E := (1 / 2) ^ 50) (by simp only [V3.sub_x, V3.smul_x, off, back]; norm_num [abs_le])
      (by simp only [V3.sub_y, V3.smul_y, off, back]; norm_num [abs_le]) (by simp only [V3.sub_z, V3.smul_z, off, back]; norm_num [abs_le])
    norm_num at *
    linarith
  have hu := unit_pos
  have ht := small_unit
  have hn : norm3 (⟨1 / 2 ^ 49, 0, 0⟩ : V3 ℝ) = 1 / 2 ^ 49 := by
    unfold norm3
    rw [show (⟨1 / 2 ^ 49, 0, 0⟩ : V3 ℝ).normSq = (1 / 2 ^ 49) ^ 2 by simp [V3.normSq, V3.dot]; norm_num]
    exact Real.sqrt_sq (by norm_num)
  have h450 : (1 / 2) ^ 450 ≤ norm3 (⟨1 / 2 ^ 49, 0, 0⟩ : V3 ℝ) := by
    rw [hn, show (1 : ℝ) / 2 ^ 49 = (1 / 2) ^ 49 by norm_num]
    exact half_pow_le (by norm_num)
  obtain ⟨hN, ax, ay, az⟩ := normalised_near binary64 h450
  have hk1 := norm3_unit (v := (⟨1 / 2 ^ 49, 0, 0⟩ : V3 ℝ)) (by rw [hn]; norm_num)
  have hk : (norm3 (⟨1 / 2 ^ 49, 0, 0⟩ : V3 ℝ))⁻¹ • (⟨1 / 2 ^ 49, 0, 0⟩ : V3 ℝ) = ⟨1, 0, 0⟩ := by
    rw [hn]; ext <;> simp
  rw [hk] at ax ay az hk1
  have hq := wit_cosine
  have hx := wit_cross
  have hD : binary64.rnd (norm binary64 off * norm binary64 back) ≠ 0 := by rw [wit_norms]; norm_num
  have hq1 : |(-(4503599627370495 / 2 ^ 52) : ℝ)| ≤ 1 := by norm_num
  have y1 : (1 / 2) ^ 27 ≤ Real.sqrt (1 - (-(4503599627370495 / 2 ^ 52) : ℝ) ^ 2) := Real.le_sqrt_of_sq_le (by norm_num)
  have y2 : Real.sqrt (1 - (-(4503599627370495 / 2 ^ 52) : ℝ) ^ 2) ≤ (1 / 2) ^ 25 := (Real.sqrt_le_left (by norm_num)).mpr (by norm_num)
  have qn : (-(4503599627370495 / 2 ^ 52) : ℝ) ≤ -1 + 2 * unit := by rw [unit_eq]; norm_num
  generalize (-(4503599627370495 / 2 ^ 52) : ℝ) = q at *
  have b1 := not_parallel T hq1 y1
  have b2 := not_opposite binary64 T hq1 y1 (arccos_ge q).2
  have hacos := T.acos_near q hq1
  have hrot : rotVtv binary64 T off back = .ok (rodriguesOf binary64 ⟨binary64.rnd (1 / 2 ^ 49 / norm binary64 ⟨1 / 2 ^ 49, 0, 0⟩),
      binary64.rnd (0 / norm binary64 ⟨1 / 2 ^ 49, 0, 0⟩), binary64.rnd (0 / norm binary64 ⟨1 / 2 ^ 49, 0, 0⟩)⟩ (T.sin (T.acos q))
      (binary64.rnd (1 - T.cos (T.acos q)))) := by
    unfold rotVtv
    simp only [hq]
    rw [if_neg hD, if_neg (not_lt.mpr hq1), if_neg b1, if_neg b2, hx]
    unfold rodrigues
    simp only
    rw [if_neg hN]
  have hsin := T.sin_near (T.acos q)
  have hcos := T.cos_near (T.acos q)
  have hsc := Real.abs_sin_sub_sin_le (T.acos q) (Real.arccos q)
  have hcc := Real.abs_cos_sub_cos_le (T.acos q) (Real.arccos q)
  rw [Real.sin_arccos] at hsc
  rw [Real.cos_arccos (abs_le.mp hq1).1 (abs_le.mp hq1).2] at hcc
  have p2 := Real.sin_sq_add_cos_sq (T.acos q)
  have s2 := Real.abs_sin_le_one (T.acos q)
  have c2 := Real.abs_cos_le_one (T.acos q)
  generalize Real.sin (T.acos q) = s at *
  generalize Real.cos (T.acos q) = c at *
  have hc' : |binary64.rnd (1 - T.cos (T.acos q)) - (1 - c)| ≤ 5 * unit := by
    have h1 : |1 - T.cos (T.acos q) - (1 - c)| ≤ 2 * unit := by
      rw [← abs_neg]; convert hcos using 2; ring
    have h2 : |1 - c| ≤ 2 := by have := abs_sub (1 : ℝ) c; rw [abs_one] at this; linarith
    refine (binary64.step h1).trans ?_
    rw [unit_eq] at *
    norm_num at *
    linarith
  have hclose := rodrigues_near binary64 (a := ⟨binary64.rnd (1 / 2 ^ 49 / norm binary64 ⟨1 / 2 ^ 49, 0, 0⟩),
    binary64.rnd (0 / norm binary64 ⟨1 / 2 ^ 49, 0, 0⟩), binary64.rnd (0 / norm binary64 ⟨1 / 2 ^ 49, 0, 0⟩)⟩) hk1 ax ay az hsin hc' s2 c2
  have hku := norm3_eq_one.mp hk1
  have hprop : ProperRotation (rodMat ⟨1, 0, 0⟩ s c) := ⟨rodMat_orth hku p2, rodMat_det hku p2⟩
  refine ⟨_, hrot, fun origin locked basisOnly => ?_, ?_⟩
  · rw [hrot]
    exact hclose.accepted hprop origin locked basisOnly
  · have g1 := hclose.mulVec off
    have g2 := rod_close (v := off) (s := s) (c := c) (s0 := 0) (c0 := -1) hk1 hk1 (by norm_num) (by norm_num)
    have e0 : norm3 ((⟨1, 0, 0⟩ : V3 ℝ) - ⟨1, 0, 0⟩) = 0 := by rw [norm3_eq_zero]; ext <;> simp
    have emap : (rodMat ⟨1, 0, 0⟩ 0 (-1)).mulVec off = ⟨9, -5, -3⟩ := by
      rw [rodMat_mulVec]; ext <;> simp [off, V3.cross] <;> norm_num
    rw [e0, emap] at g2
    generalize (rodriguesOf binary64 _ _ _).mulVec off = V at *
    generalize (rodMat ⟨1, 0, 0⟩ s c).mulVec off = W at *
    have lo1 : 1072 / 100 ≤ norm3 off := Real.le_sqrt_of_sq_le (by simp [off, V3.normSq, V3.dot]; norm_num)
    have lo2 : norm3 off ≤ 1073 / 100 := (Real.sqrt_le_left (by norm_num)).mpr (by simp [off, V3.normSq, V3.dot]; norm_num)
    have lb1 : 1 ≤ norm3 back := Real.le_sqrt_of_sq_le (by simp [back, V3.normSq, V3.dot]; norm_num)
    have lb2 : norm3 back ≤ 751 / 100 := (Real.sqrt_le_left (by norm_num)).mpr (by simp [back, V3.normSq, V3.dot]; norm_num)
    have k1 := (comp_le (V - W)).1
    have k2 := (comp_le (W - ⟨9, -5, -3⟩)).1
    have k3 := (comp_le (V - (norm3 off / norm3 back) • back)).1
    simp only [V3.sub_x, V3.smul_x] at k1 k2 k3
    have hr' : 1427 / 1000 ≤ norm3 off / norm3 back := by rw [le_div_iff₀ (by linarith)]; linarith
    generalize norm3 off / norm3 back = r at *
    have bx : back.x ≤ -(629 / 100) := by simp only [back]; norm_num
    have hbx : r * back.x ≤ -(890 / 100) := by nlinarith
    have t1 := abs_le.mp (k1.trans g1)
    have sc : |s - 0| + |c - -1| + 5 * 0 ≤ (1 / 2) ^ 24 := by
      have a1 := abs_sub_le s (Real.sqrt (1 - q ^ 2)) 0
      have a2 := abs_sub_le c q (-1)
      have a3 : |q - -1| ≤ 2 * unit := by
        rw [abs_le]
        have := (abs_le.mp hq1).1
        constructor <;> linarith
      rw [sub_zero (Real.sqrt (1 - q ^ 2)), abs_of_nonneg (Real.sqrt_nonneg _)] at a1
      rw [unit_eq] at *
      norm_num at *
      linarith
    have t2 := abs_le.mp (k2.trans (g2.trans (mul_le_mul_of_nonneg_right sc (norm3_nonneg _))))
    have t3 := (le_abs_self _).trans k3
    rw [unit_eq] at *
    norm_num at *
    linarith

/-! ## Examples -/

/-- The exact functions. -/
def Trig.exact : Trig where
  acos := Real.arccos
  acos_near := fun q _ => by rw [sub_self, abs_zero]; have := unit_pos; positivity
  acos_one := Real.arccos_one
  sin := Real.sin
  sin_near := fun t => by rw [sub_self, abs_zero]; have := unit_pos; positivity
  cos := Real.cos
  cos_near := fun t => by rw [sub_self, abs_zero]; have := unit_pos; positivity
  pi := Real.pi
  pi_near := by rw [sub_self, abs_zero]; have := unit_pos; positivity

/-- Along an axis the answer is the identity. -/
example : rotVtv binary64 T ⟨1, 0, 0⟩ ⟨1, 0, 0⟩ = .ok 1 := by
  have hd : binary64.dot ⟨1, 0, 0⟩ ⟨1, 0, 0⟩ = 1 := by
    show loopDot rnd64 _ _ = 1
    simp [loopDot, rnd64_one, rnd64_zero]
  have hN : norm binary64 ⟨1, 0, 0⟩ = 1 := by
    unfold norm
    rw [hd, Real.sqrt_one]
    exact rnd64_one
  have h1 : binary64.rnd 1 = 1 := rnd64_one
  unfold rotVtv
  simp only [hd, hN]
  norm_num [h1, T.acos_one, machEps]

/-- A right angle, in floats. -/
example : ∃ M, rotVtv binary64 T ⟨1, 0, 0⟩ ⟨0, 3, 4⟩ = .ok M ∧ len (M.mulVec ⟨1, 0, 0⟩ - ⟨0, 3 / 5, 4 / 5⟩) ≤ (1 / 2) ^ 24 := by
  have l1 : len (⟨1, 0, 0⟩ : V3 ℝ) = 1 := by simp [len]
  have l2 : len (⟨0, 3, 4⟩ : V3 ℝ) = 5 := by
    unfold len
    rw [show (0 : ℝ) ^ 2 + 3 ^ 2 + 4 ^ 2 = 5 ^ 2 by norm_num]
    exact Real.sqrt_sq (by norm_num)
  have l3 : len ((⟨1, 0, 0⟩ : V3 ℝ).cross ⟨0, 3, 4⟩) = 5 := by
    unfold len
    simp only [V3.cross]
    rw [show ((0 : ℝ) * 4 - 0 * 3) ^ 2 + (0 * 0 - 1 * 4) ^ 2 + (1 * 3 - 0 * 0) ^ 2 = 5 ^ 2 by norm_num]
    exact Real.sqrt_sq (by norm_num)
  have p : (1 / 2 : ℝ) ^ 200 ≤ 1 := pow_le_one₀ (by norm_num) (by norm_num)
  obtain ⟨M, h1, -, -, h2⟩ := C143_aligns_partial binary64 T (v := ⟨1, 0, 0⟩) (w := ⟨0, 3, 4⟩) (by rw [l1]; exact p) (by rw [l2]; linarith)
    (by rw [l1, l2, l3]; norm_num) none true false
  refine ⟨M, h1, ?_⟩
  rw [l1, l2] at h2
  have e : ((1 : ℝ) / 5) • (⟨0, 3, 4⟩ : V3 ℝ) = ⟨0, 3 / 5, 4 / 5⟩ := by ext <;> simp <;> norm_num
  rw [e, mul_one] at h2
  exact h2

end
end Fl
end CZ
