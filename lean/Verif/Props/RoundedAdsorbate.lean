import Verif.RoundedAdsorbate
import Verif.Props.RoundedAlign
import Verif.Props.RoundedMolecule

/-!
# Property C147: an adsorbate is placed in rounded arithmetic
-/

namespace CZ
namespace Fl

open Spec

variable (A : Arith) (T : Trig) (S : RotVec)

/-! ## `rot_v` -/

theorem one_proper : ProperRotation (1 : M3 ℝ) := by
  constructor
  · unfold Orthogonal
    ext <;> simp [M3.transpose, M3.mul_def, M3.one_def]
  · simp [M3.det, M3.one_def]

/-- The matrix from scipy is close to a rotation that moves a vector `n` by at most twice the length of `u × n`. -/
theorem RotVec.rotation (u : V3 ℝ) : ∃ R, ProperRotation R ∧ Close (1024 * unit) (S.mat u) R ∧
    ∀ n : V3 ℝ, norm3 (R.mulVec n - n) ≤ 2 * norm3 (u.cross n) := by
  by_cases h : u = 0
  · subst h
    refine ⟨1, one_proper, S.zero, fun n => ?_⟩
    have : (1 : M3 ℝ).mulVec n - n = 0 := by ext <;> simp [M3.mulVec, M3.one_def]
    rw [this, (norm3_eq_zero _).mpr rfl]
    have := norm3_nonneg ((0 : V3 ℝ).cross n)
    linarith
  · obtain ⟨R, h1, h2, h3⟩ := rodrigues_ok h (norm3 u)
    refine ⟨R, h3, S.near u R h1, fun n => ?_⟩
    have hu : 0 < norm3 u := (norm3_pos u).mpr h
    have e : R.mulVec n - n = Real.sin (norm3 u) • ((norm3 u)⁻¹ • u).cross n + (1 - Real.cos (norm3 u)) • ((norm3 u)⁻¹ • u).cross (((norm3 u)⁻¹ • u).cross n) := by
      rw [h2, rodMat_mulVec]
      abel
    rw [e]
    have hk : norm3 ((norm3 u)⁻¹ • u) = 1 := norm3_unit hu.ne'
    have hkn : norm3 (((norm3 u)⁻¹ • u).cross n) = norm3 (u.cross n) / norm3 u := by
      have : ((norm3 u)⁻¹ • u).cross n = (norm3 u)⁻¹ • u.cross n := by
        ext <;> simp [V3.cross] <;> ring
      rw [this, norm3_smul, abs_of_pos (inv_pos.mpr hu)]
      field_simp
    have c1 := norm3_cross_le ((norm3 u)⁻¹ • u) (((norm3 u)⁻¹ • u).cross n)
    rw [hk, one_mul] at c1
    have hs : |Real.sin (norm3 u)| ≤ norm3 u := by
      have := Real.abs_sin_le_abs (x := norm3 u)
      rwa [abs_of_pos hu] at this
    have hc : |1 - Real.cos (norm3 u)| ≤ norm3 u := by
      have h1 := Real.one_sub_sq_div_two_le_cos (x := norm3 u)
      have h2 := Real.neg_one_le_cos (norm3 u)
      have h3 := Real.cos_le_one (norm3 u)
      rw [abs_of_nonneg (by linarith)]
      rcases le_total (norm3 u) 2 with h | h
      · nlinarith
      · linarith
    refine (norm3_add_le _ _).trans ?_
    rw [norm3_smul, norm3_smul]
    have hn := norm3_nonneg (u.cross n)
    have d : norm3 u * (norm3 (u.cross n) / norm3 u) = norm3 (u.cross n) := by field_simp
    have a1 : |Real.sin (norm3 u)| * norm3 (((norm3 u)⁻¹ • u).cross n) ≤ norm3 (u.cross n) := by
      rw [hkn]
      exact (mul_le_mul_of_nonneg_right hs (by positivity)).trans_eq d
    have a2 : |1 - Real.cos (norm3 u)| * norm3 (((norm3 u)⁻¹ • u).cross (((norm3 u)⁻¹ • u).cross n)) ≤ norm3 (u.cross n) := by
      refine (mul_le_mul_of_nonneg_left (c1.trans_eq hkn) (abs_nonneg _)).trans ?_
      exact (mul_le_mul_of_nonneg_right hc (by positivity)).trans_eq d
    linarith

/-- `rot_v` about a unit vector by an angle of at most ten turns returns a matrix that Rotation accepts, that keeps inner products up to
2^-39 and the axis up to 2^-38. -/
theorem rotV_near {n : V3 ℝ} (hn : |norm3 n - 1| ≤ (1 / 2) ^ 40) {theta : ℝ} (ht : |theta| ≤ 64) :
    ∃ M, rotV A S n theta = .ok M ∧ Keeps ((1 / 2) ^ 39) M ∧ (∀ o l b, Tr.mkRotation M o l b = .ok (.matrix .rotation M o l b)) ∧
      norm3 (M.mulVec n - n) ≤ (1 / 2) ^ 38 := by
  obtain ⟨hn1, hn2⟩ := abs_le.mp hn
  have hN := norm_near A n
  rw [show A.rnd (Real.sqrt (A.dot n n)) = norm A n from rfl] at hN
  have htau := tau_le
  have hu0 := unit_pos
  obtain ⟨hN1, hN2⟩ := abs_le.mp hN
  have b1 : 3 / 4 ≤ norm A n := by
    generalize (1 / 2 : ℝ) ^ 530 = τ at *
    rw [unit_eq] at *
    norm_num at *
    linarith
  have hN0 : norm A n ≠ 0 := by linarith
  have hq : |theta / norm A n| ≤ 96 := by
    rw [abs_div, abs_of_pos (by linarith : 0 < norm A n), div_le_iff₀ (by linarith)]
    linarith
  have hq1 := A.near (theta / norm A n)
  have htiny := tiny_le_unit
  have hc : |A.rnd (theta / norm A n)| ≤ 97 := by
    have := abs_add_le (A.rnd (theta / norm A n) - theta / norm A n) (theta / norm A n)
    rw [sub_add_cancel] at this
    generalize A.rnd (theta / norm A n) = c at *
    generalize |theta / norm A n| = q at *
    generalize tiny = τ at *
    rw [unit_eq] at *
    norm_num at *
    linarith
  generalize hcd : A.rnd (theta / norm A n) = c at *
  obtain ⟨R, r1, r2, r3⟩ := S.rotation (scale A n c)
  refine ⟨S.mat (scale A n c), by rw [rotV, if_neg hN0, hcd], r2.keeps r1.1, fun o l b => r2.accepted r1 o l b, ?_⟩
  have hn3 : norm3 n ≤ 2 := by norm_num at *; linarith
  obtain ⟨cx, cy, cz⟩ := comp_le n
  have comp {x : ℝ} (hx : |x| ≤ norm3 n) : |A.rnd (x * c) - c * x| ≤ (1 / 2) ^ 45 := by
    have h1 := A.near (x * c)
    rw [mul_comm c x]
    have h2 : |x * c| ≤ 194 := by
      rw [abs_mul]
      have := mul_le_mul (hx.trans hn3) hc (abs_nonneg _) (by norm_num)
      linarith
    generalize |x * c| = y at *
    refine h1.trans ?_
    generalize tiny = τ at *
    rw [unit_eq] at *
    norm_num at *
    linarith
  have hd : norm3 (scale A n c - c • n) ≤ 2 * (1 / 2) ^ 45 :=
    norm3_le_of_comp (by simpa [scale] using comp cx) (by simpa [scale] using comp cy) (by simpa [scale] using comp cz)
  have hcr : (scale A n c).cross n = (scale A n c - c • n).cross n := by
    ext <;> simp [V3.cross] <;> ring
  have h1 := r3 n
  rw [hcr] at h1
  have h2 := norm3_cross_le (scale A n c - c • n) n
  have h3 := mul_le_mul hd hn3 (norm3_nonneg _) (by positivity)
  have h4 := r2.mulVec n
  have h5 := norm3_tri ((S.mat (scale A n c)).mulVec n) (R.mulVec n) n
  have h6 : 6 * (1024 * unit) * norm3 n ≤ 6 * (1024 * unit) * 2 := mul_le_mul_of_nonneg_left hn3 (by positivity)
  rw [unit_eq] at *
  norm_num at *
  linarith

/-! ## The moves -/

/-- The three moves of the placement and what they do: the first turns about the bonding atom `o`, the second about its image, the third
brings it to its place. -/
theorem moves_spec {R : ℝ} (hR : 1 ≤ R) {M1 M2 : M3 ℝ} (h1 : Keeps ((1 / 2) ^ 39) M1) (h2 : Keeps ((1 / 2) ^ 39) M2) {o target n : V3 ℝ} {bond : ℝ}
    (ho : norm3 o ≤ R) (ht : norm3 target ≤ R) (hb : |bond| ≤ R) (hn : |norm3 n - 1| ≤ (1 / 2) ^ 40) {o2 o3 s : V3 ℝ}
    (e2 : o2 = (Move.matrix M1 (some o)).point A o) (e3 : o3 = (Move.matrix M2 (some o2)).point A o2)
    (es : s = sub A (add A target (scale A n bond)) o3) :
    Modest ((1 / 2) ^ 39) (32 * R) [.matrix M1 (some o), .matrix M2 (some o2), .shift s] ∧
    (∀ p, norm3 p ≤ R → Path (32 * R) [.matrix M1 (some o), .matrix M2 (some o2), .shift s] p) ∧
    norm3 ((Move.shift s).point A o3 - (target + bond • n)) ≤ (1 / 2) ^ 46 * R := by
  have hu0 := unit_pos
  have ht0 := tiny_pos
  have htiny := tiny_le_unit
  have hp39 : (0 : ℝ) ≤ (1 / 2) ^ 39 := by positivity
  have hp39' : (1 / 2 : ℝ) ^ 39 ≤ 1 := by norm_num
  have k1 := fun v => (h1.norm hp39 hp39' v).1
  have k2 := fun v => (h2.norm hp39 hp39' v).1
  have hR480 : (1 / 2 : ℝ) ^ 480 ≤ 32 * R := by
    have : (1 / 2 : ℝ) ^ 480 ≤ (1 / 2) ^ 0 := half_pow_le (by norm_num)
    rw [pow_zero] at this
    linarith
  -- the first rotation leaves the bonding atom in place
  have m1 : Modest ((1 / 2) ^ 39) (32 * R) [.matrix M1 (some o)] := by
    refine ⟨hp39, hR480, by norm_num, by norm_num, by norm_num, ?_⟩
    intro t ht
    simp only [List.mem_singleton] at ht
    subst ht
    refine ⟨h1, fun c hc => ?_⟩
    obtain rfl := Option.some.inj hc
    rw [len_eq]; linarith
  have z1 : ∀ M : M3 ℝ, M.mulVec (o - o) + o = o := by
    intro M; rw [sub_self]; ext <;> simp [M3.mulVec]
  have q1 : norm3 (o2 - o) ≤ (1 / 2) ^ 40 * R := by
    have := m1.point A (p := o) ⟨by rw [len_eq]; linarith, by
      show len (M1.mulVec (o - o) + o) ≤ _
      rw [z1, len_eq]; linarith⟩
    rw [show image [.matrix M1 (some o)] o = o from z1 M1] at this
    subst e2
    refine this.trans (le_of_eq ?_)
    rw [slack]
    simp only [List.length_singleton]
    norm_num
    ring
  have q2 : norm3 o2 ≤ 2 * R := by
    have := norm3_le_add o2 o
    norm_num at *
    linarith
  have m2 : Modest ((1 / 2) ^ 39) (32 * R) [.matrix M2 (some o2)] := by
    refine ⟨hp39, hR480, by norm_num, by norm_num, by norm_num, ?_⟩
    intro t ht
    simp only [List.mem_singleton] at ht
    subst ht
    refine ⟨h2, fun c hc => ?_⟩
    obtain rfl := Option.some.inj hc
    rw [len_eq]; linarith
  have z2 : ∀ M : M3 ℝ, M.mulVec (o2 - o2) + o2 = o2 := by
    intro M; rw [sub_self]; ext <;> simp [M3.mulVec]
  have q3 : norm3 (o3 - o2) ≤ (1 / 2) ^ 40 * R := by
    have := m2.point A (p := o2) ⟨by rw [len_eq]; linarith, by
      show len (M2.mulVec (o2 - o2) + o2) ≤ _
      rw [z2, len_eq]; linarith⟩
    rw [show image [.matrix M2 (some o2)] o2 = o2 from z2 M2] at this
    subst e3
    refine this.trans (le_of_eq ?_)
    rw [slack]
    simp only [List.length_singleton]
    norm_num
    ring
  have q4 : norm3 o3 ≤ 3 * R := by
    have := norm3_le_add o3 o2
    norm_num at *
    linarith
  -- the shift
  have hn3 : norm3 n ≤ 2 := by
    have := (abs_le.mp hn).2
    norm_num at *; linarith
  have hRu : 1 ≤ R := hR
  have comp {a b c : ℝ} (ha : |a| ≤ R) (hbn : |b| ≤ 2) (hc : |c| ≤ 3 * R) :
      |A.rnd (A.rnd (a + A.rnd (b * bond)) - c) - (a + bond * b - c)| ≤ 64 * unit * R ∧
      |A.rnd (c + A.rnd (A.rnd (a + A.rnd (b * bond)) - c)) - (a + bond * b)| ≤ 64 * unit * R := by
    have hbb : |b * bond| ≤ 2 * R := by
      rw [abs_mul]
      exact (mul_le_mul hbn hb (abs_nonneg _) (by norm_num))
    have hsum : |a + b * bond| ≤ 3 * R := (abs_add_le _ _).trans (by linarith)
    have hdif : |a + b * bond - c| ≤ 6 * R := (abs_sub _ _).trans (by linarith)
    have s1 := A.near (b * bond)
    have s1' : |A.rnd (b * bond) - b * bond| ≤ 3 * unit * R := by
      refine s1.trans ?_
      have := mul_le_mul_of_nonneg_left hbb hu0.le
      have : tiny ≤ unit * R := by
        have h : tiny ≤ unit := by rw [unit_eq]; norm_num at *; linarith
        exact h.trans (le_mul_of_one_le_right hu0.le hR)
      linarith
    have tR : tiny ≤ unit * R := by
      have h : tiny ≤ unit := by rw [unit_eq]; norm_num at *; linarith
      exact h.trans (le_mul_of_one_le_right hu0.le hR)
    have uu : unit * (unit * R) ≤ (1 / 1024) * (unit * R) := mul_le_mul_of_nonneg_right (by rw [unit_eq]; norm_num) (by positivity)
    have s2 : |A.rnd (a + A.rnd (b * bond)) - (a + b * bond)| ≤ 8 * (unit * R) := by
      have h := A.step (x := a + A.rnd (b * bond)) (x0 := a + b * bond) (e := 3 * unit * R) (by rwa [add_sub_add_left_eq_sub])
      have h' := mul_le_mul_of_nonneg_left hsum hu0.le
      have : (1 + unit) * (3 * unit * R) = 3 * (unit * R) + 3 * (unit * (unit * R)) := by ring
      rw [this] at h
      have e : unit * (3 * R) = 3 * (unit * R) := by ring
      rw [e] at h'
      linarith
    have s3 : |A.rnd (A.rnd (a + A.rnd (b * bond)) - c) - (a + b * bond - c)| ≤ 16 * (unit * R) := by
      have h := A.step (x := A.rnd (a + A.rnd (b * bond)) - c) (x0 := a + b * bond - c) (e := 8 * (unit * R)) (by rwa [sub_sub_sub_cancel_right])
      have h' := mul_le_mul_of_nonneg_left hdif hu0.le
      have : (1 + unit) * (8 * (unit * R)) = 8 * (unit * R) + 8 * (unit * (unit * R)) := by ring
      rw [this] at h
      have e : unit * (6 * R) = 6 * (unit * R) := by ring
      rw [e] at h'
      linarith
    have s4 : |A.rnd (c + A.rnd (A.rnd (a + A.rnd (b * bond)) - c)) - (a + b * bond)| ≤ 24 * (unit * R) := by
      have h := A.step (x := c + A.rnd (A.rnd (a + A.rnd (b * bond)) - c)) (x0 := a + b * bond) (e := 16 * (unit * R)) (by
        rw [show c + A.rnd (A.rnd (a + A.rnd (b * bond)) - c) - (a + b * bond) = A.rnd (A.rnd (a + A.rnd (b * bond)) - c) - (a + b * bond - c) by ring]
        exact s3)
      have h' := mul_le_mul_of_nonneg_left hsum hu0.le
      have : (1 + unit) * (16 * (unit * R)) = 16 * (unit * R) + 16 * (unit * (unit * R)) := by ring
      rw [this] at h
      have e : unit * (3 * R) = 3 * (unit * R) := by ring
      rw [e] at h'
      linarith
    have uR : 0 ≤ unit * R := by positivity
    rw [mul_comm bond b]
    constructor <;> linarith
  obtain ⟨tx, ty, tz⟩ := comp_le target
  obtain ⟨nx, ny, nz⟩ := comp_le n
  obtain ⟨ox, oy, oz⟩ := comp_le o3
  obtain ⟨ax, bx⟩ := comp (tx.trans ht) (nx.trans hn3) (ox.trans q4)
  obtain ⟨ay, by'⟩ := comp (ty.trans ht) (ny.trans hn3) (oy.trans q4)
  obtain ⟨az, bz⟩ := comp (tz.trans ht) (nz.trans hn3) (oz.trans q4)
  have d1 : norm3 (s - (target + bond • n - o3)) ≤ 2 * (64 * unit * R) := by
    subst es
    exact norm3_le_of_comp (by simpa [sub, add, scale] using ax) (by simpa [sub, add, scale] using ay) (by simpa [sub, add, scale] using az)
  have d2 : norm3 ((Move.shift s).point A o3 - (target + bond • n)) ≤ 2 * (64 * unit * R) := by
    subst es
    exact norm3_le_of_comp (by simpa [Move.point, sub, add, scale] using bx) (by simpa [Move.point, sub, add, scale] using by')
      (by simpa [Move.point, sub, add, scale] using bz)
  have d3 : norm3 (target + bond • n) ≤ 3 * R := by
    refine (norm3_add_le _ _).trans ?_
    rw [norm3_smul]
    have := mul_le_mul hb hn3 (norm3_nonneg _) (by linarith)
    linarith
  have d4 : norm3 s ≤ 7 * R := by
    have g1 := norm3_le_add s (target + bond • n - o3)
    have g2 := norm3_sub_le (target + bond • n) o3
    rw [unit_eq] at d1
    norm_num at *
    linarith
  refine ⟨⟨hp39, hR480, by norm_num, by norm_num, by norm_num, ?_⟩, ?_, ?_⟩
  · intro t ht
    simp only [List.mem_cons, List.not_mem_nil, or_false] at ht
    rcases ht with rfl | rfl | rfl
    · exact m1.2.2.2.2.2 _ (by simp)
    · exact m2.2.2.2.2.2 _ (by simp)
    · show len s ≤ _
      rw [len_eq]; linarith
  · intro p hp
    have g1 : norm3 (M1.mulVec (p - o) + o) ≤ 4 * R := by
      have h := k1 (p - o)
      have h' := norm3_sub_le p o
      have h'' := norm3_add_le (M1.mulVec (p - o)) o
      norm_num at *
      linarith
    have g2 : norm3 (M2.mulVec (M1.mulVec (p - o) + o - o2) + o2) ≤ 10 * R := by
      have h := k2 (M1.mulVec (p - o) + o - o2)
      have h' := norm3_sub_le (M1.mulVec (p - o) + o) o2
      have h'' := norm3_add_le (M2.mulVec (M1.mulVec (p - o) + o - o2)) o2
      norm_num at *
      linarith
    have g3 := norm3_add_le (M2.mulVec (M1.mulVec (p - o) + o - o2) + o2) s
    refine ⟨?_, ?_, ?_, ?_⟩
    · rw [len_eq]; linarith
    · show len (M1.mulVec (p - o) + o) ≤ _
      rw [len_eq]; linarith
    · show len (M2.mulVec (M1.mulVec (p - o) + o - o2) + o2) ≤ _
      rw [len_eq]; linarith
    · show len (M2.mulVec (M1.mulVec (p - o) + o - o2) + o2 + s) ≤ _
      rw [len_eq]; linarith
  · refine d2.trans (le_of_eq ?_)
    rw [unit_eq]
    norm_num
    ring

theorem dot_sub_right (a b c : V3 ℝ) : a.dot (b - c) = a.dot b - a.dot c := by
  simp [V3.dot]; ring

/-- Components along `w` become components along `n`. -/
theorem upright {M1 M2 : M3 ℝ} (h1 : Keeps ((1 / 2) ^ 39) M1) (h2 : Keeps ((1 / 2) ^ 39) M2) {w n d : V3 ℝ} {D : ℝ} (hw : 0 < norm3 w)
    (hn : |norm3 n - 1| ≤ (1 / 2) ^ 40) (hM1 : norm3 (M1.mulVec w - (norm3 w / norm3 n) • n) ≤ (1 / 2) ^ 24 * norm3 w)
    (hM2 : norm3 (M2.mulVec n - n) ≤ (1 / 2) ^ 38) (hd : norm3 d ≤ D) :
    |(M2.mulVec (M1.mulVec d)).dot n - d.dot w / norm3 w| ≤ (1 / 2) ^ 23 * D := by
  have hp39 : (0 : ℝ) ≤ (1 / 2) ^ 39 := by positivity
  have hp39' : (1 / 2 : ℝ) ^ 39 ≤ 1 := by norm_num
  have hD : 0 ≤ D := (norm3_nonneg d).trans hd
  have hn1 : norm3 n ≤ 1 + (1 / 2) ^ 40 := by linarith [(abs_le.mp hn).2]
  have hn0 : 0 < norm3 n := by have := (abs_le.mp hn).1; norm_num at *; linarith
  have k1 := (h1.norm hp39 hp39' d).1
  have k2 := (h2.norm hp39 hp39' (M1.mulVec d)).1
  have l1 : norm3 (M1.mulVec d) ≤ (1 + (1 / 2) ^ 39) * D := k1.trans (mul_le_mul_of_nonneg_left hd (by positivity))
  have l2 : norm3 (M2.mulVec (M1.mulVec d)) ≤ 2 * D := by norm_num at *; linarith
  have a := (abs_dot_le (M2.mulVec (M1.mulVec d)) (M2.mulVec n - n)).trans (mul_le_mul l2 hM2 (norm3_nonneg _) (by positivity))
  rw [dot_sub_right] at a
  have b := h2 (M1.mulVec d) n
  simp only [len_eq] at b
  have b' : |(M2.mulVec (M1.mulVec d)).dot (M2.mulVec n) - (M1.mulVec d).dot n| ≤ (1 / 2) ^ 39 * (2 * D * 2) := by
    refine b.trans (mul_le_mul_of_nonneg_left ?_ hp39)
    exact mul_le_mul (by norm_num at *; linarith) (by norm_num at *; linarith) hn0.le (by positivity)
  have c := h1 d w
  simp only [len_eq] at c
  have e := (abs_dot_le (M1.mulVec d) (M1.mulVec w - (norm3 w / norm3 n) • n)).trans (mul_le_mul l1 hM1 (norm3_nonneg _) (by positivity))
  rw [dot_sub_right, show (M1.mulVec d).dot ((norm3 w / norm3 n) • n) = norm3 w * ((M1.mulVec d).dot n / norm3 n) by simp [V3.dot]; ring] at e
  have hy : |d.dot w / norm3 w| ≤ D := by
    rw [abs_div, abs_of_pos hw, div_le_iff₀ hw]
    exact (abs_dot_le d w).trans (mul_le_mul_of_nonneg_right hd hw.le)
  have f : |(M1.mulVec d).dot n / norm3 n - d.dot w / norm3 w| ≤ (1 / 2) ^ 39 * D + (1 + (1 / 2) ^ 39) * D * (1 / 2) ^ 24 := by
    have g : norm3 w * |(M1.mulVec d).dot n / norm3 n - d.dot w / norm3 w| =
        |norm3 w * ((M1.mulVec d).dot n / norm3 n) - d.dot w| := by
      rw [← abs_of_pos hw, ← abs_mul, abs_of_pos hw, mul_sub, mul_div_cancel₀ _ hw.ne']
    have g2 := abs_sub_le (norm3 w * ((M1.mulVec d).dot n / norm3 n)) ((M1.mulVec d).dot (M1.mulVec w)) (d.dot w)
    rw [← g, abs_sub_comm _ ((M1.mulVec d).dot (M1.mulVec w))] at g2
    have c' : (1 / 2) ^ 39 * (norm3 d * norm3 w) ≤ (1 / 2) ^ 39 * (D * norm3 w) :=
      mul_le_mul_of_nonneg_left (mul_le_mul_of_nonneg_right hd hw.le) hp39
    have g3 : norm3 w * |(M1.mulVec d).dot n / norm3 n - d.dot w / norm3 w| ≤
        norm3 w * ((1 / 2) ^ 39 * D + (1 + (1 / 2) ^ 39) * D * (1 / 2) ^ 24) := by
      have : norm3 w * ((1 / 2) ^ 39 * D + (1 + (1 / 2) ^ 39) * D * (1 / 2) ^ 24) =
        (1 + (1 / 2) ^ 39) * D * ((1 / 2) ^ 24 * norm3 w) + (1 / 2) ^ 39 * (D * norm3 w) := by ring
      rw [this]
      linarith
    exact le_of_mul_le_mul_left g3 hw
  generalize (M2.mulVec (M1.mulVec d)).dot n = X at *
  generalize (M2.mulVec (M1.mulVec d)).dot (M2.mulVec n) = Y at *
  generalize (M1.mulVec d).dot n = Z at *
  generalize d.dot w / norm3 w = y at *
  have hz : |Z - y| ≤ norm3 n * ((1 / 2) ^ 39 * D + (1 + (1 / 2) ^ 39) * D * (1 / 2) ^ 24) + (1 / 2) ^ 40 * D := by
    have : Z - y = norm3 n * (Z / norm3 n - y) + (norm3 n - 1) * y := by
      rw [mul_sub, mul_div_cancel₀ _ hn0.ne']; ring
    rw [this]
    refine (abs_add_le _ _).trans (add_le_add ?_ ?_)
    · rw [abs_mul, abs_of_pos hn0]
      exact mul_le_mul_of_nonneg_left f hn0.le
    · rw [abs_mul]
      exact mul_le_mul hn hy (abs_nonneg _) (by positivity)
  have hz' : norm3 n * ((1 / 2) ^ 39 * D + (1 + (1 / 2) ^ 39) * D * (1 / 2) ^ 24) ≤
      (1 + (1 / 2) ^ 40) * ((1 / 2) ^ 39 * D + (1 + (1 / 2) ^ 39) * D * (1 / 2) ^ 24) := mul_le_mul_of_nonneg_right hn1 (by positivity)
  have t1 := abs_sub_le X Y y
  have t2 := abs_sub_le Y Z y
  rw [abs_sub_comm] at a
  norm_num at *
  linarith

/-! ## The property -/

/-- The calls of the placement, for the two matrices they compute. -/
theorem place_calls {R : ℝ} (hR : 1 ≤ R) {mol : Mol ℝ} (hl : mol.species.length = mol.atoms.length) {i : ℕ} {o : V3 ℝ}
    (hi : mol.atoms[i]? = some o) (ho : norm3 o ≤ R) {vec : V3 ℝ} {theta bond : ℝ} {target n : V3 ℝ} (ht : norm3 target ≤ R)
    (hb : |bond| ≤ R) (hn : |norm3 n - 1| ≤ (1 / 2) ^ 40) {M1 M2 : M3 ℝ} (r1 : rotVtv A T (mulVec A mol.orientation vec) n = .ok M1)
    (keep1 : Keeps ((1 / 2) ^ 39) M1) (acc1 : Tr.mkRotation M1 (some o) true false = .ok (.matrix .rotation M1 (some o) true false))
    (r2 : rotV A S n theta = .ok M2) (keep2 : Keeps ((1 / 2) ^ 39) M2)
    (acc2 : ∀ o l b, Tr.mkRotation M2 o l b = .ok (.matrix .rotation M2 o l b)) :
    ∃ m o2 s, place A T S mol (.int i) vec theta bond target n = .ok m ∧ m.species = mol.species ∧
      m.atoms = mol.atoms.map (pointOf A [.matrix M1 (some o), .matrix M2 (some o2), .shift s]) ∧
      Modest ((1 / 2) ^ 39) (32 * R) [.matrix M1 (some o), .matrix M2 (some o2), .shift s] ∧
      (∀ p, norm3 p ≤ R → Path (32 * R) [.matrix M1 (some o), .matrix M2 (some o2), .shift s] p) ∧
      norm3 (pointOf A [.matrix M1 (some o), .matrix M2 (some o2), .shift s] o - (target + bond • n)) ≤ (1 / 2) ^ 46 * R := by
  obtain ⟨hlt, hoi⟩ := List.getElem?_eq_some_iff.mp hi
  -- the calls
  let m1 : Mol ℝ := { mol with tracking := true, originIdx := some (i : ℤ) }
  have g0 : mol.setOriginByIdx (.int i) = (m1, .ok ()) := by
    simp only [Mol.setOriginByIdx, Mol.setOriginIdx, MolVal.asInt]
    rw [if_pos (by simpa using hlt)]
  have g1 : m1.origin = .ok o := by
    simp only [Mol.origin, m1, if_true, bind, Except.bind]
    have : normIdx mol.atoms.length (i : ℤ) = .ok i := by
      unfold normIdx
      split_ifs <;> first | omega | simp
    rw [this]
    simp [pyGet, hi]
  have hl1 : m1.atoms.length = m1.species.length := hl.symm
  obtain ⟨m2, a1, a2, a3, a4, -, -⟩ := molMove_ok A hl1 g1 (.matrix M1 (some o))
  obtain ⟨m3, b1, b2, b3, b4, -, -⟩ := molMove_ok A (by rw [a2, a3, List.length_map]; exact hl1) a4 (.matrix M2 (some ((Move.matrix M1 (some o)).point A o)))
  generalize e2 : (Move.matrix M1 (some o)).point A o = o2 at *
  generalize e3 : (Move.matrix M2 (some o2)).point A o2 = o3 at *
  obtain ⟨m4, c1, c2, c3, c4, -, -⟩ := molMove_ok A (by rw [b2, b3, a2, a3, List.length_map, List.length_map]; exact hl1) b4
    (.shift (sub A (add A target (scale A n bond)) o3))
  generalize es : sub A (add A target (scale A n bond)) o3 = s at *
  obtain ⟨hm, hpath, hend⟩ := moves_spec A hR keep1 keep2 ho ht hb hn e2.symm e3.symm es.symm
  have hat : m4.atoms = mol.atoms.map (pointOf A [.matrix M1 (some o), .matrix M2 (some o2), .shift s]) := by
    rw [c2, b2, a2, List.map_map, List.map_map]; rfl
  have hoe : pointOf A [.matrix M1 (some o), .matrix M2 (some o2), .shift s] o = (Move.shift s).point A o3 := by
    simp only [pointOf]
    rw [e2, e3]
  refine ⟨m4, o2, s, ?_, c3.trans (b3.trans a3), hat, hm, hpath, by rw [hoe]; exact hend⟩
  unfold place
  simp only [Mol.fromMolecule]
  rw [g0]
  have r1' : rotVtv A T (mulVec A m1.orientation vec) n = .ok M1 := r1
  simp only [r1', g1, acc1, a1, r2, a4, acc2, b1, b4, es, c1]

/-- What the placement does when the first matrix is accepted and brings the direction `w` of the molecule onto the normal. -/
theorem placed_with {R : ℝ} (hR : 1 ≤ R) {mol : Mol ℝ} (hl : mol.species.length = mol.atoms.length) (hp : ∀ p ∈ mol.atoms, len p ≤ R) {i : ℕ} {o : V3 ℝ}
    (hi : mol.atoms[i]? = some o) {vec w : V3 ℝ} (ew : w = mulVec A mol.orientation vec) {theta bond : ℝ} {target n : V3 ℝ} (ht : len target ≤ R)
    (hb : |bond| ≤ R) (hn : |len n - 1| ≤ (1 / 2) ^ 40) (hth : |theta| ≤ 64) (hw : (1 / 2) ^ 200 ≤ len w) {M1 : M3 ℝ} (r1 : rotVtv A T w n = .ok M1)
    (keep1 : Keeps ((1 / 2) ^ 39) M1) (acc1 : Tr.mkRotation M1 (some o) true false = .ok (.matrix .rotation M1 (some o) true false))
    (al1 : len (M1.mulVec w - (len w / len n) • n) ≤ (1 / 2) ^ 24 * len w) :
    ∃ m o', place A T S mol (.int i) vec theta bond target n = .ok m ∧ m.species = mol.species ∧ m.atoms.length = mol.atoms.length ∧
      m.atoms[i]? = some o' ∧ Spec.dist o' (target + bond • n) ≤ (1 / 2) ^ 46 * R ∧
      (∀ (j k : ℕ) (p q p' q' : V3 ℝ), mol.atoms[j]? = some p → mol.atoms[k]? = some q → m.atoms[j]? = some p' → m.atoms[k]? = some q' →
        |Spec.dist p' q' - Spec.dist p q| ≤ (1 / 2) ^ 36 * (Spec.dist p q + R)) ∧
      ∀ (j : ℕ) (p p' : V3 ℝ), mol.atoms[j]? = some p → m.atoms[j]? = some p' →
        |(p' - o').dot n - (p - o).dot w / len w| ≤ (1 / 2) ^ 21 * R := by
  have hom : o ∈ mol.atoms := List.mem_of_getElem? hi
  obtain ⟨M2, r2, keep2, acc2, al2⟩ := rotV_near A S (n := n) (by rwa [← len_eq]) hth
  simp only [len_eq] at al1 ht hn hw
  obtain ⟨m4, o2, s, hpl, hsp, hat, hm, hpath, hend⟩ := place_calls A T S hR hl hi (by rw [← len_eq]; exact hp o hom) ht hb hn (vec := vec)
    (by rw [← r1, ew]) keep1 acc1 r2 keep2 acc2
  have at' (j : ℕ) (p p' : V3 ℝ) (hj : mol.atoms[j]? = some p) (hj' : m4.atoms[j]? = some p') :
      p' = pointOf A [.matrix M1 (some o), .matrix M2 (some o2), .shift s] p := by
    rw [hat, List.getElem?_map, hj] at hj'
    exact (Option.some.inj hj').symm
  have pp {j : ℕ} {p : V3 ℝ} (hj : mol.atoms[j]? = some p) : norm3 p ≤ R := by rw [← len_eq]; exact hp p (List.mem_of_getElem? hj)
  refine ⟨m4, pointOf A [.matrix M1 (some o), .matrix M2 (some o2), .shift s] o, hpl, hsp, by rw [hat, List.length_map], ?_, ?_, ?_, ?_⟩
  · rw [hat, List.getElem?_map, hi, Option.map_some]
  · rw [dist_eq]; exact hend
  · intro j k p q p' q' hj hk hj' hk'
    rw [at' j p p' hj hj', at' k q q' hk hk']
    have := hm.distance A (hpath p (pp hj)) (hpath q (pp hk))
    refine this.trans ?_
    have hd : 0 ≤ Spec.dist p q := by rw [dist_eq]; exact norm3_nonneg _
    rw [slack]
    simp only [List.length_cons, List.length_nil]
    norm_num
    linarith
  · intro j p p' hj hj'
    rw [at' j p p' hj hj']
    have h1 := hm.difference A (hpath p (pp hj)) (hpath o (pp hi))
    have h2 : norm3 (p - o) ≤ 2 * R := (norm3_sub_le _ _).trans (by linarith [pp hj, pp hi])
    have hw0 : 0 < norm3 w := lt_of_lt_of_le (by positivity) hw
    have h3 := upright keep1 keep2 hw0 hn al1 al2 h2
    have hn2 : norm3 n ≤ 2 := by have := (abs_le.mp hn).2; norm_num at *; linarith
    rw [show turn [.matrix M1 (some o), .matrix M2 (some o2), .shift s] (p - o) = M2.mulVec (M1.mulVec (p - o)) from rfl] at h1
    generalize pointOf A [.matrix M1 (some o), .matrix M2 (some o2), .shift s] p - pointOf A [.matrix M1 (some o), .matrix M2 (some o2), .shift s] o = d' at *
    have h4 := (abs_dot_le (d' - M2.mulVec (M1.mulVec (p - o))) n).trans (mul_le_mul h1 hn2 (norm3_nonneg _) (le_trans (norm3_nonneg _) h1))
    rw [show (d' - M2.mulVec (M1.mulVec (p - o))).dot n = d'.dot n - (M2.mulVec (M1.mulVec (p - o))).dot n by simp [V3.dot]; ring] at h4
    rw [len_eq]
    refine (abs_sub_le _ _ _).trans ((add_le_add h4 h3).trans ?_)
    rw [slack]
    simp only [List.length_cons, List.length_nil]
    norm_num
    linarith

/-- **C147 (placed).** A molecule is placed on the atom at `target`.  Molecule, target and bond length are within `R`; the normal is a unit vector up
to 2^-40; the direction of the molecule, as numpy computes it from its orientation, is at least about 10^-6 away from the normal and from its
opposite; the molecule is turned by at most ten turns about the normal.  Then the placement does not raise, species and order stay, distances
between atoms change by no more than 2^-36 of themselves and of `R`; the bonding atom is at `target + bond_length * normal` up to 2^-46 `R`;
and the height of every atom over the bonding atom, measured along the normal, is its former height along the direction of the molecule up to
2^-21 `R`. -/
theorem C147_placed_partial {R : ℝ} (hR : 1 ≤ R) {mol : Mol ℝ} (hl : mol.species.length = mol.atoms.length) (hp : ∀ p ∈ mol.atoms, len p ≤ R) {i : ℕ} {o : V3 ℝ}
    (hi : mol.atoms[i]? = some o) {vec w : V3 ℝ} (ew : w = mulVec A mol.orientation vec) {theta bond : ℝ} {target n : V3 ℝ} (ht : len target ≤ R)
    (hb : |bond| ≤ R) (hn : |len n - 1| ≤ (1 / 2) ^ 40) (hth : |theta| ≤ 64) (hw : (1 / 2) ^ 200 ≤ len w)
    (hc : (1 / 2) ^ 20 * (len w * len n) ≤ len (w.cross n)) :
    ∃ m o', place A T S mol (.int i) vec theta bond target n = .ok m ∧ m.species = mol.species ∧ m.atoms.length = mol.atoms.length ∧
      m.atoms[i]? = some o' ∧ Spec.dist o' (target + bond • n) ≤ (1 / 2) ^ 46 * R ∧
      (∀ (j k : ℕ) (p q p' q' : V3 ℝ), mol.atoms[j]? = some p → mol.atoms[k]? = some q → m.atoms[j]? = some p' → m.atoms[k]? = some q' →
        |Spec.dist p' q' - Spec.dist p q| ≤ (1 / 2) ^ 36 * (Spec.dist p q + R)) ∧
      ∀ (j : ℕ) (p p' : V3 ℝ), mol.atoms[j]? = some p → m.atoms[j]? = some p' →
        |(p' - o').dot n - (p - o).dot w / len w| ≤ (1 / 2) ^ 21 * R := by
  have hn200 : (1 / 2) ^ 200 ≤ len n := by
    have h1 := (abs_le.mp hn).1
    have h2 : (1 / 2 : ℝ) ^ 200 ≤ (1 / 2) ^ 1 := half_pow_le (by norm_num)
    norm_num at *
    linarith
  obtain ⟨M1, r1, keep1, acc1, al1⟩ := C143_aligns_partial A T hw hn200 hc (some o) true false
  rw [r1] at acc1
  exact placed_with A T S hR hl hp hi ew ht hb hn hth hw r1 keep1 acc1 al1

/-- **C147.** A molecule whose direction, as computed, is the normal itself is never placed wrongly: either AssertionError
(`C147_upright_refuted`) or the same as in `C147_placed_partial`. -/
theorem C147_upright (hA : Zeroed A) {R : ℝ} (hR : 1 ≤ R) {mol : Mol ℝ} (hl : mol.species.length = mol.atoms.length) (hp : ∀ p ∈ mol.atoms, len p ≤ R) {i : ℕ} {o : V3 ℝ}
    (hi : mol.atoms[i]? = some o) {vec : V3 ℝ} {theta bond : ℝ} {target n : V3 ℝ} (ew : n = mulVec A mol.orientation vec) (ht : len target ≤ R)
    (hb : |bond| ≤ R) (hn : |len n - 1| ≤ (1 / 2) ^ 40) (hth : |theta| ≤ 64) :
    place A T S mol (.int i) vec theta bond target n = .error .assertion ∨
    ∃ m o', place A T S mol (.int i) vec theta bond target n = .ok m ∧ m.species = mol.species ∧ m.atoms.length = mol.atoms.length ∧
      m.atoms[i]? = some o' ∧ Spec.dist o' (target + bond • n) ≤ (1 / 2) ^ 46 * R ∧
      (∀ (j k : ℕ) (p q p' q' : V3 ℝ), mol.atoms[j]? = some p → mol.atoms[k]? = some q → m.atoms[j]? = some p' → m.atoms[k]? = some q' →
        |Spec.dist p' q' - Spec.dist p q| ≤ (1 / 2) ^ 36 * (Spec.dist p q + R)) ∧
      ∀ (j : ℕ) (p p' : V3 ℝ), mol.atoms[j]? = some p → m.atoms[j]? = some p' →
        |(p' - o').dot n - (p - o).dot n / len n| ≤ (1 / 2) ^ 21 * R := by
  have hn200 : (1 / 2) ^ 200 ≤ len n := by
    have h1 := (abs_le.mp hn).1
    have h2 : (1 / 2 : ℝ) ^ 200 ≤ (1 / 2) ^ 1 := half_pow_le (by norm_num)
    norm_num at *
    linarith
  have hn0 : len n ≠ 0 := (lt_of_lt_of_le (by positivity) hn200).ne'
  rcases C143_same A T hA hn200 with h | h
  · have r : Close (1024 * unit) (1 : M3 ℝ) 1 := by
      have := unit_pos
      simp only [Close, sub_self, abs_zero]
      refine ⟨?_, ?_, ?_, ?_, ?_, ?_, ?_, ?_, ?_⟩ <;> positivity
    refine Or.inr (placed_with A T S hR hl hp hi ew ht hb hn hth hn200 h (r.keeps one_proper.1) (r.accepted one_proper _ _ _) ?_)
    have e : (1 : M3 ℝ).mulVec n - (len n / len n) • n = 0 := by
      rw [div_self hn0]
      ext <;> simp [M3.mulVec, M3.one_def]
    rw [e, len_eq, (norm3_eq_zero _).mpr rfl]
    exact mul_nonneg (by positivity) (Real.sqrt_nonneg _)
  · left
    obtain ⟨hlt, -⟩ := List.getElem?_eq_some_iff.mp hi
    unfold place
    simp only [Mol.fromMolecule]
    have g0 : mol.setOriginByIdx (.int i) = ({ mol with tracking := true, originIdx := some (i : ℤ) }, .ok ()) := by
      simp only [Mol.setOriginByIdx, Mol.setOriginIdx, MolVal.asInt]
      rw [if_pos (by simpa using hlt)]
    rw [g0]
    simp only [← ew, h]

/-- The length of the bond. -/
theorem C147_bond {R : ℝ} (hR : 0 ≤ R) {o' target n : V3 ℝ} {bond : ℝ} (hb : |bond| ≤ R) (hn : |len n - 1| ≤ (1 / 2) ^ 40)
    (h : Spec.dist o' (target + bond • n) ≤ (1 / 2) ^ 46 * R) : abs (Spec.dist o' target - abs bond) ≤ (1 / 2) ^ 39 * R := by
  rw [dist_eq] at *
  rw [len_eq] at hn
  have h1 := abs_norm3_sub (o' - target) (bond • n)
  rw [show o' - target - bond • n = o' - (target + bond • n) by abel, norm3_smul] at h1
  have h2 : abs (abs bond * norm3 n - abs bond) ≤ R * (1 / 2) ^ 40 := by
    rw [show |bond| * norm3 n - |bond| = |bond| * (norm3 n - 1) by ring, abs_mul, abs_abs]
    exact mul_le_mul hb hn (abs_nonneg _) hR
  have h3 := abs_sub_le (norm3 (o' - target)) (|bond| * norm3 n) |bond|
  norm_num at *
  linarith

/-- What scipy would return without rounding. -/
noncomputable def exactRotVec : RotVec where
  mat u := match Tr.rodrigues u (norm3 u) with
    | .ok R => R
    | .error _ => 1
  zero := by
    have : Tr.rodrigues 0 (norm3 0) = .error .nan := by simp [Tr.rodrigues, (norm3_eq_zero (0 : V3 ℝ)).mpr rfl]
    rw [this]
    have := unit_pos
    simp [Entrywise]
    positivity
  near u R h := by
    rw [h]
    have := unit_pos
    simp [Entrywise]
    positivity

theorem ex_direction : mulVec binary64 1 ⟨1, 0, 0⟩ = ⟨1, 0, 0⟩ := by
  ext <;> simp [mulVec, binary64, loopDot, M3.one_def, M3.row0, M3.row1, M3.row2, rnd64_one, rnd64_zero]

/-- A water molecule with its first bond along x is put on an atom at (5, 5, 5), with the oxygen at the distance 2 and the bond along z, in 64-bit
floats: the first hydrogen atom is 1 higher than the oxygen, up to 10^-5, and the second one as high as the oxygen. -/
example : ∃ m o' p q, place binary64 T exactRotVec ⟨[⟨0, 0, 0⟩, ⟨1, 0, 0⟩, ⟨0, 1, 0⟩], [8, 1, 1], 0, 1, false, none, some ⟨0, 0, 0⟩, true⟩ (.int 0) ⟨1, 0, 0⟩ 1 2
      ⟨5, 5, 5⟩ ⟨0, 0, 1⟩ = .ok m ∧ m.species = [8, 1, 1] ∧ m.atoms = [o', p, q] ∧ |Spec.dist o' ⟨5, 5, 5⟩ - 2| ≤ 1 / 10 ^ 10 ∧
      |(p - o').dot ⟨0, 0, 1⟩ - 1| ≤ 1 / 10 ^ 5 ∧ |(q - o').dot ⟨0, 0, 1⟩| ≤ 1 / 10 ^ 5 ∧ |Spec.dist p q - Real.sqrt 2| ≤ 1 / 10 ^ 9 := by
  have hsq : ∀ x y z : ℝ, len (⟨x, y, z⟩ : V3 ℝ) = Real.sqrt (x ^ 2 + y ^ 2 + z ^ 2) := fun x y z => rfl
  have h10 : ∀ x : ℝ, x ≤ 100 → Real.sqrt x ≤ 10 := fun x hx => (Real.sqrt_le_left (by norm_num)).mpr (by linarith)
  have hlx : len (⟨1, 0, 0⟩ : V3 ℝ) = 1 := by rw [hsq]; norm_num
  have hlz : len (⟨0, 0, 1⟩ : V3 ℝ) = 1 := by rw [hsq]; norm_num
  obtain ⟨m, o', h1, h2, h3, h4, h5, h6, h7⟩ := C147_placed_partial binary64 T exactRotVec (R := 10) (by norm_num)
    (mol := ⟨[⟨0, 0, 0⟩, ⟨1, 0, 0⟩, ⟨0, 1, 0⟩], [8, 1, 1], 0, 1, false, none, some ⟨0, 0, 0⟩, true⟩) rfl
    (by
      intro p hp
      simp only [List.mem_cons, List.not_mem_nil, or_false] at hp
      rcases hp with rfl | rfl | rfl <;> rw [hsq] <;> exact h10 _ (by norm_num))
    (i := 0) (o := ⟨0, 0, 0⟩) rfl (vec := ⟨1, 0, 0⟩) (w := ⟨1, 0, 0⟩) ex_direction.symm (theta := 1) (bond := 2) (target := ⟨5, 5, 5⟩) (n := ⟨0, 0, 1⟩)
    (by rw [hsq]; exact h10 _ (by norm_num)) (by norm_num) (by rw [hlz]; norm_num) (by norm_num)
    (by rw [hlx]; exact (half_pow_le (m := 200) (n := 0) (by norm_num)).trans (by norm_num))
    (by
      rw [hlx, hlz, show (⟨1, 0, 0⟩ : V3 ℝ).cross ⟨0, 0, 1⟩ = ⟨0, -1, 0⟩ by ext <;> simp [V3.cross], hsq]
      norm_num)
  obtain ⟨a, b, c, he⟩ : ∃ a b c, m.atoms = [a, b, c] := by
    match m.atoms, h3 with
    | [a, b, c], _ => exact ⟨a, b, c, rfl⟩
  rw [he] at h4 h6 h7
  obtain rfl : a = o' := Option.some.inj h4
  have g := C147_bond (by norm_num) (by norm_num) (by rw [hlz]; norm_num) h5
  have hp := h7 1 ⟨1, 0, 0⟩ b rfl rfl
  have hq := h7 2 ⟨0, 1, 0⟩ c rfl rfl
  have hpq := h6 1 2 ⟨1, 0, 0⟩ ⟨0, 1, 0⟩ b c rfl rfl rfl rfl
  have hd : Spec.dist (⟨1, 0, 0⟩ : V3 ℝ) ⟨0, 1, 0⟩ = Real.sqrt 2 := by
    rw [dist_eq, ← len_eq]
    show Real.sqrt _ = _
    congr 1
    simp
    norm_num
  have h2' : Real.sqrt 2 ≤ 10 := h10 2 (by norm_num)
  rw [hd] at hpq
  rw [hlx] at hp hq
  refine ⟨m, a, b, c, h1, h2, he, ?_, ?_, ?_, ?_⟩
  · rw [abs_of_pos (by norm_num : (0 : ℝ) < 2)] at g
    exact g.trans (by norm_num)
  · refine le_trans (le_of_eq ?_) (hp.trans (by norm_num))
    congr 1
    simp [V3.dot]
  · refine le_trans (le_of_eq ?_) (hq.trans (by norm_num))
    congr 1
    simp [V3.dot]
  · refine hpq.trans ?_
    norm_num at *
    linarith

/-! ## A molecule that already stands upright -/

/-- `1 / np.sqrt(3)` in 64-bit floats. -/
noncomputable def third : ℝ := 5200308914369309 / 2 ^ 53

theorem rnd64_third : rnd64 third = third := by
  unfold third
  rw [Amo.rnd64_eq (-53) 5200308914369309 (by norm_num) (by norm_num) (by norm_num) (by norm_num)]
  norm_num

theorem third_dot : binary64.dot ⟨third, third, third⟩ ⟨third, third, third⟩ = 4503599627370497 / 2 ^ 52 := by
  have h1 : rnd64 (third * third) = 6004799503160663 / 2 ^ 54 := by
    unfold third
    rw [Amo.rnd64_eq (-54) 6004799503160663 (by norm_num) (by norm_num) (by norm_num) (by rw [abs_lt]; norm_num)]
    norm_num
  have h2 : rnd64 (6004799503160663 / 2 ^ 54 + 6004799503160663 / 2 ^ 54) = 6004799503160663 / 2 ^ 53 := by
    rw [Amo.rnd64_eq (-53) 6004799503160663 (by norm_num) (by norm_num) (by norm_num) (by rw [abs_lt]; norm_num)]
    norm_num
  have h3 : rnd64 (6004799503160663 / 2 ^ 53 + 6004799503160663 / 2 ^ 54) = 4503599627370497 / 2 ^ 52 := by
    rw [Amo.rnd64_eq (-52) 4503599627370497 (by norm_num) (by norm_num) (by norm_num) (by rw [abs_lt]; norm_num)]
    norm_num
  show loopDot rnd64 _ _ = _
  simp only [loopDot]
  rw [h1, h2, h3]

theorem third_norm : norm binary64 ⟨third, third, third⟩ = 1 := by
  unfold norm
  rw [third_dot]
  show rnd64 _ = _
  obtain ⟨h1, h2⟩ := sqrt_between (x := 4503599627370497 / 2 ^ 52) (a := 1) (b := 1 + 1 / 2 ^ 53 - 1 / 2 ^ 109) (by norm_num) (by norm_num) (by norm_num)
  rw [Amo.rnd64_eq (-52) (2 ^ 52) (by norm_num) (le_trans (by norm_num) h1.le) (lt_trans h2 (by norm_num)) (by
    rw [abs_lt]; norm_num at h1 h2 ⊢; constructor <;> linarith)]
  norm_num

theorem third_direction : mulVec binary64 1 ⟨third, third, third⟩ = ⟨third, third, third⟩ := by
  ext <;> simp [mulVec, binary64, loopDot, M3.one_def, M3.row0, M3.row1, M3.row2, rnd64_third, rnd64_zero]

/-- **C147, finding.**  The vector (1, 1, 1) / √3 is its own direction, and a unit vector up to 2^-50.  A molecule whose direction is this normal needs no rotation,
but the computed cosine of the angle is 1 + 2^-52, `np.arccos` returns NaN and the constructor of Rotation raises AssertionError: whatever the molecule, the bond and the
target, `add_adsorbate` fails.  So the condition on the angle in `C147_placed_partial` cannot be dropped. -/
theorem C147_upright_refuted : |len (⟨third, third, third⟩ : V3 ℝ) - 1| ≤ (1 / 2) ^ 40 ∧
    ∀ (mol : Mol ℝ) (i : ℕ) (theta bond : ℝ) (target : V3 ℝ), mol.orientation = 1 → i < mol.atoms.length →
      place binary64 T S mol (.int i) ⟨third, third, third⟩ theta bond target ⟨third, third, third⟩ = .error .assertion := by
  constructor
  · show |Real.sqrt (third ^ 2 + third ^ 2 + third ^ 2) - 1| ≤ _
    obtain ⟨h1, h2⟩ := sqrt_between (x := third ^ 2 + third ^ 2 + third ^ 2) (a := 1 - 1 / 2 ^ 50) (b := 1 + 1 / 2 ^ 50) (by norm_num)
      (by unfold third; norm_num) (by unfold third; norm_num)
    rw [abs_le]
    norm_num at *
    constructor <;> linarith
  · intro mol i theta bond target ho hi
    have hr : rotVtv binary64 T ⟨third, third, third⟩ ⟨third, third, third⟩ = .error .nan := by
      have h1 : binary64.rnd 1 = 1 := rnd64_one
      have h2 : binary64.rnd (4503599627370497 / 2 ^ 52) = 4503599627370497 / 2 ^ 52 := by
        show rnd64 _ = _
        rw [Amo.rnd64_eq (-52) 4503599627370497 (by norm_num) (by norm_num) (by norm_num) (by norm_num)]
        norm_num
      unfold rotVtv
      simp only [third_norm, mul_one, h1, third_dot, div_one, h2]
      rw [if_neg one_ne_zero, if_pos]
      rw [abs_of_pos (by norm_num)]
      norm_num
    unfold place
    simp only [Mol.fromMolecule]
    have g0 : mol.setOriginByIdx (.int i) = ({ mol with tracking := true, originIdx := some (i : ℤ) }, .ok ()) := by
      simp only [Mol.setOriginByIdx, Mol.setOriginIdx, MolVal.asInt]
      rw [if_pos (by simpa using hi)]
    rw [g0]
    simp only [ho, third_direction, hr]

end Fl
end CZ
