import Verif.Props.Transform
import Mathlib.Analysis.SpecialFunctions.Trigonometric.Bounds

/-!
# Property C45 (rot_vtv, rot_v) and the side effect of s2s_alignment (C47)
-/

namespace CZ
open Spec

/-- Rodrigues' matrix for a unit axis and a point of the unit circle. -/
noncomputable def rodMat (k : V3 ℝ) (s c : ℝ) : M3 ℝ :=
  1 + s • Tr.crossMat k + (1 - c) • (Tr.crossMat k * Tr.crossMat k)

theorem rodMat_mulVec (k : V3 ℝ) (s c : ℝ) (v : V3 ℝ) :
    (rodMat k s c).mulVec v = v + s • k.cross v + (1 - c) • k.cross (k.cross v) := by
  ext <;> simp [rodMat, Tr.crossMat, M3.mulVec, M3.add_def, M3.smul_def, M3.mul_def, M3.one_def, V3.cross] <;> ring

theorem rodMat_orth {k : V3 ℝ} (hk : k.normSq = 1) {s c : ℝ} (h : s ^ 2 + c ^ 2 = 1) : Orthogonal (rodMat k s c) := by
  simp only [V3.normSq, V3.dot] at hk
  have hz : k.z * k.z = 1 - k.x * k.x - k.y * k.y := by linarith
  have hs : s ^ 2 = 1 - c ^ 2 := by linarith
  have hz2 : k.z ^ 2 = 1 - k.x ^ 2 - k.y ^ 2 := by nlinarith
  have hz3 : k.z ^ 3 = k.z * (1 - k.x ^ 2 - k.y ^ 2) := by rw [← hz2]; ring
  have hz4 : k.z ^ 4 = (1 - k.x ^ 2 - k.y ^ 2) ^ 2 := by rw [← hz2]; ring
  unfold Orthogonal
  have e : ∀ (R : M3 ℝ), R = rodMat k s c → R.transpose * R = 1 := by
    rintro R rfl
    ext <;> simp only [rodMat, Tr.crossMat, M3.transpose, M3.add_def, M3.smul_def, M3.mul_def, M3.one_def] <;> ring_nf <;>
      simp only [hz4, hz3, hz2, hs] <;> ring
  exact e _ rfl

theorem rodMat_det {k : V3 ℝ} (hk : k.normSq = 1) {s c : ℝ} (h : s ^ 2 + c ^ 2 = 1) : (rodMat k s c).det = 1 := by
  have e : (rodMat k s c).det = (1 - (1 - c) * k.normSq) ^ 2 + s ^ 2 * k.normSq := by
    simp only [rodMat, Tr.crossMat, M3.det, M3.add_def, M3.smul_def, M3.mul_def, M3.one_def, V3.normSq, V3.dot]
    ring
  rw [e, hk]; linarith

theorem rodrigues_ok {axis : V3 ℝ} (h : axis ≠ 0) (th : ℝ) :
    ∃ R, Tr.rodrigues axis th = .ok R ∧ R = rodMat ((norm3 axis)⁻¹ • axis) (Real.sin th) (Real.cos th) ∧
      ProperRotation R := by
  have hn : norm3 axis ≠ 0 := by rwa [Ne, norm3_eq_zero]
  have hu : ((norm3 axis)⁻¹ • axis).normSq = 1 := norm3_eq_one.mp (norm3_unit hn)
  refine ⟨_, by simp only [Tr.rodrigues, if_neg hn]; rfl, rfl, ?_⟩
  exact ⟨rodMat_orth hu (Real.sin_sq_add_cos_sq th), rodMat_det hu (Real.sin_sq_add_cos_sq th)⟩

/-- Angle between two vectors, as the code computes it. -/
noncomputable def angle (v w : V3 ℝ) : ℝ := Real.arccos (v.dot w / (norm3 v * norm3 w))

theorem cos_angle (v w : V3 ℝ) (hv : v ≠ 0) (hw : w ≠ 0) :
    Real.cos (angle v w) = v.dot w / (norm3 v * norm3 w) := by
  have h : 0 < norm3 v * norm3 w := mul_pos ((norm3_pos v).mpr hv) ((norm3_pos w).mpr hw)
  have h1 := abs_dot_le v w
  have h2 : |v.dot w / (norm3 v * norm3 w)| ≤ 1 := by
    rw [abs_div, abs_of_pos h, div_le_one h]; exact h1
  rw [abs_le] at h2
  exact Real.cos_arccos h2.1 h2.2

theorem sin_angle (v w : V3 ℝ) (hv : v ≠ 0) (hw : w ≠ 0) :
    Real.sin (angle v w) = norm3 (v.cross w) / (norm3 v * norm3 w) := by
  have h : 0 < norm3 v * norm3 w := mul_pos ((norm3_pos v).mpr hv) ((norm3_pos w).mpr hw)
  rw [angle, Real.sin_arccos]
  have : 1 - (v.dot w / (norm3 v * norm3 w)) ^ 2 = (v.cross w).normSq / (norm3 v * norm3 w) ^ 2 := by
    rw [normSq_cross, div_pow, mul_pow, norm3_sq, norm3_sq]
    have hv' : v.normSq ≠ 0 := by rwa [Ne, normSq_eq_zero]
    have hw' : w.normSq ≠ 0 := by rwa [Ne, normSq_eq_zero]
    field_simp
  rw [this, Real.sqrt_div (normSq_nonneg _), Real.sqrt_sq h.le]
  rfl

theorem cross_eq_zero_iff {v w : V3 ℝ} (hv : v ≠ 0) (hw : w ≠ 0) :
    v.cross w = 0 ↔ angle v w = 0 ∨ angle v w = Real.pi := by
  have h : 0 < norm3 v * norm3 w := mul_pos ((norm3_pos v).mpr hv) ((norm3_pos w).mpr hw)
  have hs := sin_angle v w hv hw
  have h0 : 0 ≤ angle v w := Real.arccos_nonneg _
  have hpi : angle v w ≤ Real.pi := Real.arccos_le_pi _
  constructor
  · intro hc
    rw [(norm3_eq_zero _).mpr hc, zero_div] at hs
    by_contra hcon
    push Not at hcon
    have : 0 < Real.sin (angle v w) :=
      Real.sin_pos_of_pos_of_lt_pi (lt_of_le_of_ne h0 (Ne.symm hcon.1)) (lt_of_le_of_ne hpi hcon.2)
    linarith
  · intro ha
    have : Real.sin (angle v w) = 0 := by rcases ha with ha | ha <;> rw [ha] <;> simp
    rw [this] at hs
    have := (div_eq_zero_iff.mp hs.symm).resolve_right h.ne'
    exact (norm3_eq_zero _).mp this

/-- Equality in Cauchy-Schwarz: proportional vectors. -/
theorem proportional {v w : V3 ℝ} (hv : v ≠ 0) (hc : v.cross w = 0) : w = (v.dot w / v.normSq) • v := by
  have hn : v.normSq ≠ 0 := by rwa [Ne, normSq_eq_zero]
  have hx := congrArg V3.x hc
  have hy := congrArg V3.y hc
  have hz := congrArg V3.z hc
  simp only [V3.cross, V3.zero_x, V3.zero_y, V3.zero_z] at hx hy hz
  have e : v.normSq • w = v.dot w • v := by
    simp only [V3.normSq, V3.dot]
    ext <;> simp only [V3.smul_x, V3.smul_y, V3.smul_z]
    · linear_combination v.z * hy - v.y * hz
    · linear_combination v.x * hz - v.z * hx
    · linear_combination v.y * hx - v.x * hy
  have hx' := congrArg V3.x e
  have hy' := congrArg V3.y e
  have hz' := congrArg V3.z e
  simp only [V3.smul_x, V3.smul_y, V3.smul_z] at hx' hy' hz'
  ext <;> simp only [V3.smul_x, V3.smul_y, V3.smul_z] <;> rw [div_mul_eq_mul_div, eq_div_iff hn] <;> linarith

/-- Generic case: the Rodrigues matrix about `v × w` by the angle between them maps `v` to the direction of `w`. -/
theorem rod_maps {v w : V3 ℝ} (hv : v ≠ 0) (hw : w ≠ 0) (hc : v.cross w ≠ 0) :
    (rodMat ((norm3 (v.cross w))⁻¹ • v.cross w) (Real.sin (angle v w)) (Real.cos (angle v w))).mulVec v
      = (norm3 v / norm3 w) • w := by
  rw [rodMat_mulVec, sin_angle v w hv hw, cos_angle v w hv hw]
  have hnv : norm3 v ≠ 0 := by rwa [Ne, norm3_eq_zero]
  have hnw : norm3 w ≠ 0 := by rwa [Ne, norm3_eq_zero]
  have hnc : norm3 (v.cross w) ≠ 0 := by rwa [Ne, norm3_eq_zero]
  have hcc : norm3 (v.cross w) ^ 2 = v.normSq * w.normSq - (v.dot w) ^ 2 := by rw [norm3_sq, normSq_cross]
  have hvv : norm3 v ^ 2 = v.x * v.x + v.y * v.y + v.z * v.z := norm3_sq v
  -- (v × w) × v = |v|² w - (v·w) v
  have e1 : (v.cross w).cross v = v.normSq • w - v.dot w • v := by
    ext <;> simp [V3.cross, V3.normSq, V3.dot] <;> ring
  have e2 : (v.cross w).cross ((v.cross w).cross v) = -((v.cross w).normSq) • v := by
    ext <;> simp [V3.cross, V3.normSq, V3.dot] <;> ring
  have hs : ∀ (c : ℝ) (a b : V3 ℝ), (c • a).cross b = c • a.cross b := by
    intro c a b; ext <;> simp [V3.cross] <;> ring
  have hs2 : ∀ (c : ℝ) (a b : V3 ℝ), a.cross (c • b) = c • a.cross b := by
    intro c a b; ext <;> simp [V3.cross] <;> ring
  rw [hs, hs, hs2, e2, e1, ← norm3_sq (v.cross w), ← norm3_sq v]
  ext <;> simp <;> field_simp <;> ring

/-- Anti-parallel case: half a turn about any axis perpendicular to `v` reverses `v`. -/
theorem rod_reverses {v e : V3 ℝ} (hc : v.cross e ≠ 0) :
    (rodMat ((norm3 (v.cross e))⁻¹ • v.cross e) (Real.sin Real.pi) (Real.cos Real.pi)).mulVec v = -v := by
  rw [rodMat_mulVec, Real.sin_pi, Real.cos_pi]
  have hnc : norm3 (v.cross e) ≠ 0 := by rwa [Ne, norm3_eq_zero]
  have e2 : (v.cross e).cross ((v.cross e).cross v) = -((v.cross e).normSq) • v := by
    ext <;> simp [V3.cross, V3.normSq, V3.dot] <;> ring
  have hs : ∀ (c : ℝ) (a b : V3 ℝ), (c • a).cross b = c • a.cross b := by
    intro c a b; ext <;> simp [V3.cross] <;> ring
  have hs2 : ∀ (c : ℝ) (a b : V3 ℝ), a.cross (c • b) = c • a.cross b := by
    intro c a b; ext <;> simp [V3.cross] <;> ring
  rw [hs, hs, hs2, e2, ← norm3_sq]
  ext <;> simp <;> field_simp <;> ring

theorem sameDir_of_angle_zero {v w : V3 ℝ} (hv : v ≠ 0) (hw : w ≠ 0) (h : angle v w = 0) : SameDirection v w := by
  have hp := proportional hv ((cross_eq_zero_iff hv hw).mpr (Or.inl h))
  refine ⟨_, ?_, hp⟩
  have hcos := cos_angle v w hv hw
  rw [h, Real.cos_zero] at hcos
  have hpos : 0 < norm3 v * norm3 w := mul_pos ((norm3_pos v).mpr hv) ((norm3_pos w).mpr hw)
  have hd : 0 < v.dot w := by
    rw [eq_div_iff hpos.ne'] at hcos; linarith
  exact div_pos hd (lt_of_le_of_ne (normSq_nonneg v) (by rw [Ne, eq_comm, normSq_eq_zero]; exact hv))

theorem opposite_of_angle_pi {v w : V3 ℝ} (hv : v ≠ 0) (hw : w ≠ 0) (h : angle v w = Real.pi) :
    SameDirection (-v) w := by
  have hp := proportional hv ((cross_eq_zero_iff hv hw).mpr (Or.inr h))
  refine ⟨-(v.dot w / v.normSq), ?_, hp.trans (by ext <;> simp)⟩
  have hcos := cos_angle v w hv hw
  rw [h, Real.cos_pi] at hcos
  have hpos : 0 < norm3 v * norm3 w := mul_pos ((norm3_pos v).mpr hv) ((norm3_pos w).mpr hw)
  have hd : v.dot w < 0 := by
    rw [eq_div_iff hpos.ne'] at hcos; linarith
  rw [← neg_div]
  exact div_pos (by linarith) (lt_of_le_of_ne (normSq_nonneg v) (by rw [Ne, eq_comm, normSq_eq_zero]; exact hv))


/-- `v` is a negative multiple of a coordinate axis. -/
def NegativeAxis (v : V3 ℝ) : Prop := ∃ c : ℝ, c < 0 ∧ (v = ⟨c, 0, 0⟩ ∨ v = ⟨0, c, 0⟩ ∨ v = ⟨0, 0, c⟩)

theorem argmin_axis_ok {v : V3 ℝ} (hv : v ≠ 0) (h : ¬ NegativeAxis v) :
    v.cross (Tr.unitVec (Tr.argmin3 v)) ≠ 0 := by
  intro hc
  have hx := congrArg V3.x hc
  have hy := congrArg V3.y hc
  have hz := congrArg V3.z hc
  unfold Tr.argmin3 at hx hy hz
  split_ifs at hx hy hz with h1 h2
  · simp [V3.cross, Tr.unitVec] at hx hy hz
    have : v.x ≠ 0 := fun h0 => hv (by ext <;> simp [h0, hy, hz])
    exact h ⟨v.x, lt_of_le_of_ne (by linarith [h1.1]) this, Or.inl (by ext <;> simp [hy, hz])⟩
  · simp [V3.cross, Tr.unitVec] at hx hy hz
    have : v.y ≠ 0 := fun h0 => hv (by ext <;> simp [h0, hx, hz])
    exact h ⟨v.y, lt_of_le_of_ne (by linarith) this, Or.inr (Or.inl (by ext <;> simp [hx, hz]))⟩
  · simp [V3.cross, Tr.unitVec] at hx hy hz
    have : v.z ≠ 0 := fun h0 => hv (by ext <;> simp [h0, hx, hy])
    exact h ⟨v.z, lt_of_le_of_ne (by linarith) this, Or.inr (Or.inr (by ext <;> simp [hx, hy]))⟩

theorem rotVtv_unfold {v vt : V3 ℝ} (hv : v ≠ 0) (ht : vt ≠ 0) :
    Tr.rotVtv v vt = if angle v vt < machEps then .ok 1
      else if Real.pi - angle v vt < machEps then Tr.rodrigues (v.cross (Tr.unitVec (Tr.argmin3 v))) (angle v vt)
      else Tr.rodrigues (v.cross vt) (angle v vt) := by
  have h : norm3 v * norm3 vt ≠ 0 :=
    (mul_pos ((norm3_pos v).mpr hv) ((norm3_pos vt).mpr ht)).ne'
  simp only [Tr.rotVtv, if_neg h, angle]; rfl

/-- **C45 (every returned matrix).**  Whatever the two vectors, a matrix returned by `rot_vtv` is a proper
rotation. -/
theorem C45_result_is_rotation (v vt : V3 ℝ) (R : M3 ℝ) (h : Tr.rotVtv v vt = .ok R) : ProperRotation R := by
  have hro : ∀ axis th, Tr.rodrigues axis th = .ok R → ProperRotation R := by
    intro axis th hr
    by_cases ha : axis = 0
    · subst ha; simp [Tr.rodrigues, norm3] at hr
      simp [V3.normSq, V3.dot] at hr
    · obtain ⟨R', h1, -, h3⟩ := rodrigues_ok ha th
      rw [h1] at hr; cases hr; exact h3
  unfold Tr.rotVtv at h
  split_ifs at h with h0
  simp only at h
  split_ifs at h with h1 h2
  · cases h
    exact ⟨by simp [Orthogonal, M3.transpose, M3.one_def, M3.mul_def], M3.det_one⟩
  · exact hro _ _ h
  · exact hro _ _ h

/-- **C45 (exact part).**  For non-zero vectors which are exactly parallel, or whose angle is at least the machine
epsilon away from 0 and from pi, or which are exactly anti-parallel with `v` not a negative multiple of a coordinate
axis, `rot_vtv` returns a proper rotation which maps the direction of `v` onto the direction of `vt`.  Missing from
C45: the excluded anti-parallel inputs (refuted below) and angles inside the epsilon windows, for which
`C45_close_partial` gives an error bound. -/
theorem C45_aligns_partial (v vt : V3 ℝ) (hv : v ≠ 0) (ht : vt ≠ 0)
    (h : SameDirection v vt ∨ (machEps ≤ angle v vt ∧ machEps ≤ Real.pi - angle v vt) ∨
      (SameDirection (-v) vt ∧ ¬ NegativeAxis v)) :
    ∃ R, Tr.rotVtv v vt = .ok R ∧ ProperRotation R ∧ SameDirection (R.mulVec v) vt := by
  have main : ∃ R, Tr.rotVtv v vt = .ok R ∧ SameDirection (R.mulVec v) vt := by
    rw [rotVtv_unfold hv ht]
    have hnv := (norm3_pos v).mpr hv
    have hnt := (norm3_pos vt).mpr ht
    rcases h with ⟨c, hc, rfl⟩ | ⟨h1, h2⟩ | ⟨⟨c, hc, rfl⟩, hax⟩
    · have : angle v (c • v) = 0 := by
        have e : v.dot (c • v) / (norm3 v * norm3 (c • v)) = 1 := by
          rw [dot_smul_right, norm3_smul, abs_of_pos hc, dot_self, ← norm3_sq]
          field_simp
        rw [angle, e, Real.arccos_one]
      rw [if_pos (by rw [this]; exact machEps_pos)]
      exact ⟨1, rfl, c, hc, by rw [M3.mulVec_one]⟩
    · rw [if_neg (by linarith), if_neg (by linarith)]
      have hc : v.cross vt ≠ 0 := by
        rw [Ne, cross_eq_zero_iff hv ht]
        rintro (h | h) <;> have := machEps_pos <;> rw [h] at h1 h2 <;> linarith
      obtain ⟨R, hR, hR2, -⟩ := rodrigues_ok hc (angle v vt)
      refine ⟨R, hR, norm3 vt / norm3 v, div_pos hnt hnv, ?_⟩
      rw [hR2, rod_maps hv ht hc]
      ext <;> simp <;> field_simp
    · have hang : angle v (c • (-v)) = Real.pi := by
        have e : v.dot (c • (-v)) / (norm3 v * norm3 (c • (-v))) = -1 := by
          rw [dot_smul_right, norm3_smul, abs_of_pos hc, norm3_neg, dot_neg_right, dot_self, ← norm3_sq]
          field_simp
        rw [angle, e, Real.arccos_neg_one]
      have hpi : ¬ Real.pi < machEps := by
        have := machEps_lt_one; have := Real.two_le_pi; linarith
      rw [hang, if_neg hpi, if_pos (by simpa using machEps_pos)]
      have hc0 := argmin_axis_ok hv hax
      obtain ⟨R, hR, hR2, -⟩ := rodrigues_ok hc0 Real.pi
      refine ⟨R, hR, c, hc, ?_⟩
      rw [hR2, rod_reverses hc0]
  obtain ⟨R, h1, h2⟩ := main
  exact ⟨R, h1, C45_result_is_rotation v vt R h1, h2⟩

theorem norm3_add_le (a b : V3 ℝ) : norm3 (a + b) ≤ norm3 a + norm3 b := by
  have ha : 0 ≤ norm3 a := Real.sqrt_nonneg _
  have hb : 0 ≤ norm3 b := Real.sqrt_nonneg _
  have h : (a + b).normSq ≤ (norm3 a + norm3 b) ^ 2 := by
    have e : (a + b).normSq = a.normSq + 2 * a.dot b + b.normSq := by
      simp [V3.normSq, V3.dot]; ring
    rw [e, ← norm3_sq a, ← norm3_sq b]
    nlinarith [le_abs_self (a.dot b), abs_dot_le a b]
  exact Real.sqrt_le_iff.mpr ⟨by linarith, h⟩

theorem norm_le_of_sq {a : V3 ℝ} {t : ℝ} (ht : 0 ≤ t) (h : a.normSq ≤ t ^ 2) : norm3 a ≤ t :=
  Real.sqrt_le_iff.mpr ⟨ht, h⟩

/-- unit vectors at angle `θ`: their difference is at most `θ`. -/
theorem unit_diff_le {u w : V3 ℝ} {t : ℝ} (hu : u.normSq = 1) (hw : w.normSq = 1) (h : u.dot w = Real.cos t)
    (ht : 0 ≤ t) : norm3 (u - w) ≤ t := by
  apply norm_le_of_sq ht
  have e : (u - w).normSq = u.normSq - 2 * u.dot w + w.normSq := by
    simp [V3.normSq, V3.dot]; ring
  rw [e, hu, hw, h]
  have := Real.one_sub_sq_div_two_le_cos (x := t)
  linarith

theorem unit_normSq {v : V3 ℝ} (hv : v ≠ 0) : ((norm3 v)⁻¹ • v).normSq = 1 :=
  norm3_eq_one.mp (norm3_unit (by rwa [Ne, norm3_eq_zero]))

theorem unit_dot {v w : V3 ℝ} (hv : v ≠ 0) (hw : w ≠ 0) :
    ((norm3 v)⁻¹ • v).dot ((norm3 w)⁻¹ • w) = Real.cos (angle v w) := by
  rw [cos_angle v w hv hw, V3.dot, V3.dot]; simp; field_simp

theorem close_core (v vt : V3 ℝ) (hv : v ≠ 0) (ht : vt ≠ 0) (hax : Real.pi - angle v vt < machEps → ¬ NegativeAxis v) :
    ∃ R, Tr.rotVtv v vt = .ok R ∧ ProperRotation R ∧
      Spec.dist ((norm3 v)⁻¹ • R.mulVec v) ((norm3 vt)⁻¹ • vt) < 2 * machEps := by
  have main : ∃ R, Tr.rotVtv v vt = .ok R ∧ norm3 ((norm3 v)⁻¹ • R.mulVec v - (norm3 vt)⁻¹ • vt) < 2 * machEps := by
    have hpos := machEps_pos
    have hnv := (norm3_pos v).mpr hv
    have hnt := (norm3_pos vt).mpr ht
    have hu := unit_normSq hv
    have hw := unit_normSq ht
    have hd := unit_dot hv ht
    have h0 : 0 ≤ angle v vt := Real.arccos_nonneg _
    have hpi : angle v vt ≤ Real.pi := Real.arccos_le_pi _
    by_cases h1 : angle v vt < machEps
    · rw [rotVtv_unfold hv ht, if_pos h1]
      refine ⟨1, rfl, ?_⟩
      rw [M3.mulVec_one]
      have := unit_diff_le hu hw hd h0
      linarith
    · by_cases h2 : Real.pi - angle v vt < machEps
      · rw [rotVtv_unfold hv ht, if_neg h1, if_pos h2]
        have hc0 := argmin_axis_ok hv (hax h2)
        obtain ⟨R, hR, hR2, hR3⟩ := rodrigues_ok hc0 (angle v vt)
        refine ⟨R, hR, ?_⟩
        set u := (norm3 v)⁻¹ • v with hudef
        set w := (norm3 vt)⁻¹ • vt with hwdef
        have e1 : (norm3 v)⁻¹ • R.mulVec v = R.mulVec u := by
          rw [hudef]; ext <;> simp [M3.mulVec] <;> ring
        have hRu : (R.mulVec u).normSq = 1 := by
          have := orth_dot hR3.1 u u
          rw [dot_self, dot_self] at this; rw [this, hu]
        -- R u makes the angle `angle v vt` with u
        have hRd : (R.mulVec u).dot u = Real.cos (angle v vt) := by
          rw [hR2, rodMat_mulVec]
          set k := (norm3 (v.cross (Tr.unitVec (Tr.argmin3 v))))⁻¹ • v.cross (Tr.unitVec (Tr.argmin3 v)) with hk
          have hku : k.dot u = 0 := by
            rw [hk, hudef]; simp [V3.dot, V3.cross]; ring
          have hk1 : k.normSq = 1 := unit_normSq hc0
          have e : (u + Real.sin (angle v vt) • k.cross u + (1 - Real.cos (angle v vt)) • k.cross (k.cross u)).dot u
              = u.normSq + (1 - Real.cos (angle v vt)) * ((k.dot u) ^ 2 - k.normSq * u.normSq) := by
            simp [V3.dot, V3.cross, V3.normSq]; ring
          rw [e, hku, hk1, hu]; ring
        have hcos : Real.cos (Real.pi - angle v vt) = -Real.cos (angle v vt) := Real.cos_pi_sub _
        have a1 : norm3 (R.mulVec u - -u) ≤ Real.pi - angle v vt :=
          unit_diff_le hRu (by rw [← hu]; simp [V3.normSq, V3.dot]) (by rw [dot_neg_right, hRd, hcos]) (by linarith)
        have a2 : norm3 (-u - w) ≤ Real.pi - angle v vt :=
          unit_diff_le (by rw [← hu]; simp [V3.normSq, V3.dot]) hw (by rw [dot_neg_left, hd, hcos]) (by linarith)
        have a3 := norm3_add_le (R.mulVec u - -u) (-u - w)
        have e3 : R.mulVec u - -u + (-u - w) = R.mulVec u - w := by ext <;> simp <;> ring
        rw [e3] at a3
        rw [e1]; linarith
      · obtain ⟨R, hR, -, c, hc, hdir⟩ := C45_aligns_partial v vt hv ht (Or.inr (Or.inl ⟨by linarith, by linarith⟩))
        refine ⟨R, hR, ?_⟩
        have hR3 := C45_result_is_rotation v vt R hR
        have hn : norm3 vt = c * norm3 v := by
          conv_lhs => rw [hdir]
          rw [norm3_smul, abs_of_pos hc, orth_norm hR3.1]
        have : (norm3 v)⁻¹ • R.mulVec v - (norm3 vt)⁻¹ • vt = 0 := by
          conv_lhs => rw [hn, hdir]
          ext <;> simp <;> field_simp <;> ring
        rw [this, (norm3_eq_zero _).mpr rfl]; linarith
  obtain ⟨R, h1, h2⟩ := main
  exact ⟨R, h1, C45_result_is_rotation v vt R h1, by rw [dist_eq]; exact h2⟩

/-- **C45 (all inputs the code can handle).**  For all non-zero vectors with `v` not a negative multiple of a coordinate
axis, `rot_vtv` returns a proper rotation, and the unit vectors along `R v` and `vt` differ by less than two machine
epsilons.  (Exact arithmetic; missing from C45: negative coordinate axes with an opposite target.) -/
theorem C45_close_partial (v vt : V3 ℝ) (hv : v ≠ 0) (ht : vt ≠ 0) (hax : ¬ NegativeAxis v) :
    ∃ R, Tr.rotVtv v vt = .ok R ∧ ProperRotation R ∧
      Spec.dist ((norm3 v)⁻¹ • R.mulVec v) ((norm3 vt)⁻¹ • vt) < 2 * machEps :=
  close_core v vt hv ht fun _ => hax

/-- **C45, refuted.**  Turning `-x` into `+x`: the chosen helper axis is parallel to `v` and the result is NaN. -/
theorem C45_antiparallel_refuted : Tr.rotVtv ⟨-1, 0, 0⟩ ⟨1, 0, 0⟩ = .error .nan := by
  have h1 : norm3 (⟨-1, 0, 0⟩ : V3 ℝ) = 1 := by simp [norm3, V3.normSq, V3.dot]
  have h2 : norm3 (⟨1, 0, 0⟩ : V3 ℝ) = 1 := by simp [norm3, V3.normSq, V3.dot]
  have hpi : ¬ Real.pi < machEps := by
    have := machEps_lt_one; have := Real.two_le_pi; linarith
  have h3 : Tr.argmin3 ⟨-1, 0, 0⟩ = 0 := by simp [Tr.argmin3]
  have hd : (⟨-1, 0, 0⟩ : V3 ℝ).dot ⟨1, 0, 0⟩ = -1 := by simp [V3.dot]
  unfold Tr.rotVtv
  rw [h1, h2, hd, h3]
  simp only [mul_one, div_one, Real.arccos_neg_one, one_ne_zero, if_false, if_neg hpi, sub_self,
    if_pos machEps_pos]
  simp [Tr.rodrigues, Tr.unitVec, V3.cross, norm3, V3.normSq, V3.dot]

/-- More generally, every negative multiple of a coordinate axis fails with the opposite target. -/
theorem C45_all_negative_axes_refuted (v : V3 ℝ) (h : NegativeAxis v) : Tr.rotVtv v (-v) = .error .nan := by
  have hv : v ≠ 0 := by
    obtain ⟨c, hc, rfl | rfl | rfl⟩ := h <;> intro h0
    · exact hc.ne (congrArg V3.x h0)
    · exact hc.ne (congrArg V3.y h0)
    · exact hc.ne (congrArg V3.z h0)
  have ht : -v ≠ 0 := by
    intro h0; apply hv
    have := congrArg (fun w => -w) h0
    ext
    · have := congrArg V3.x h0; simpa using this
    · have := congrArg V3.y h0; simpa using this
    · have := congrArg V3.z h0; simpa using this
  have hnv := (norm3_pos v).mpr hv
  have hang : angle v (-v) = Real.pi := by
    have e : v.dot (-v) / (norm3 v * norm3 (-v)) = -1 := by
      rw [norm3_neg, dot_neg_right, dot_self, ← norm3_sq]; field_simp
    rw [angle, e, Real.arccos_neg_one]
  have hpi : ¬ Real.pi < machEps := by
    have := machEps_lt_one; have := Real.two_le_pi; linarith
  rw [rotVtv_unfold hv ht, hang, if_neg hpi, if_pos (by simpa using machEps_pos)]
  have : v.cross (Tr.unitVec (Tr.argmin3 v)) = 0 := by
    obtain ⟨c, hc, rfl | rfl | rfl⟩ := h
    · simp [Tr.argmin3, hc.le, Tr.unitVec, V3.cross]; rfl
    · simp [Tr.argmin3, hc.le, not_le.mpr hc, Tr.unitVec, V3.cross]; rfl
    · simp [Tr.argmin3, not_le.mpr hc, Tr.unitVec, V3.cross]; rfl
  simp [Tr.rodrigues, this, (norm3_eq_zero _).mpr rfl]

/-- **C45 (exactly which inputs).**  `rot_vtv` returns unless one of the vectors is zero, or `v` is a negative multiple of a coordinate
axis and `vt` opposite to it within machine precision (then the result is NaN); and whenever it returns, the unit vectors along `R v` and
`vt` differ by less than two machine epsilons. -/
theorem C45_returns_iff (v vt : V3 ℝ) :
    ((∃ R, Tr.rotVtv v vt = .ok R) ↔ v ≠ 0 ∧ vt ≠ 0 ∧ ¬ (NegativeAxis v ∧ Real.pi - angle v vt < machEps)) ∧
    (∀ e, Tr.rotVtv v vt = .error e → e = .nan) ∧
    ∀ R, Tr.rotVtv v vt = .ok R → ProperRotation R ∧ Spec.dist ((norm3 v)⁻¹ • R.mulVec v) ((norm3 vt)⁻¹ • vt) < 2 * machEps := by
  by_cases hz : v = 0 ∨ vt = 0
  · have h : Tr.rotVtv v vt = .error .nan := by
      unfold Tr.rotVtv
      rw [if_pos]
      rcases hz with rfl | rfl
      · rw [(norm3_eq_zero _).mpr rfl, zero_mul]
      · rw [(norm3_eq_zero (0 : V3 ℝ)).mpr rfl, mul_zero]
    rw [h]
    refine ⟨⟨fun ⟨R, hR⟩ => (by cases hR), fun h' => ?_⟩, fun e he => (by cases he; rfl), fun R hR => (by cases hR)⟩
    rcases hz with hz | hz
    · exact absurd hz h'.1
    · exact absurd hz h'.2.1
  push Not at hz
  obtain ⟨hv, ht⟩ := hz
  by_cases hb : NegativeAxis v ∧ Real.pi - angle v vt < machEps
  · have h : Tr.rotVtv v vt = .error .nan := by
      have hpi : ¬ angle v vt < machEps := by
        have := machEps_lt_one; have := Real.two_le_pi; have := hb.2; linarith
      rw [rotVtv_unfold hv ht, if_neg hpi, if_pos hb.2]
      have : v.cross (Tr.unitVec (Tr.argmin3 v)) = 0 := by
        obtain ⟨c, hc, rfl | rfl | rfl⟩ := hb.1
        · simp [Tr.argmin3, hc.le, Tr.unitVec, V3.cross]; rfl
        · simp [Tr.argmin3, hc.le, not_le.mpr hc, Tr.unitVec, V3.cross]; rfl
        · simp [Tr.argmin3, not_le.mpr hc, Tr.unitVec, V3.cross]; rfl
      simp [Tr.rodrigues, this, (norm3_eq_zero _).mpr rfl]
    rw [h]
    exact ⟨⟨fun ⟨R, hR⟩ => (by cases hR), fun h' => absurd hb h'.2.2⟩, fun e he => (by cases he; rfl), fun R hR => (by cases hR)⟩
  · obtain ⟨R, h1, h2, h3⟩ := close_core v vt hv ht fun h hn => hb ⟨hn, h⟩
    rw [h1]
    refine ⟨⟨fun _ => ⟨hv, ht, hb⟩, fun _ => ⟨R, rfl⟩⟩, fun e he => (by cases he), fun R' hR => ?_⟩
    obtain rfl := Except.ok.inj hR
    exact ⟨h2, h3⟩

/-- Non-vacuity: the exact part covers x to y, and diagonal reversal. -/
example : ∃ R, Tr.rotVtv ⟨1, 1, 0⟩ ⟨-2, -2, 0⟩ = .ok R ∧ ProperRotation R ∧
    SameDirection (R.mulVec ⟨1, 1, 0⟩) ⟨-2, -2, 0⟩ := by
  refine C45_aligns_partial _ _ ?_ ?_ (Or.inr (Or.inr ⟨⟨2, by norm_num, by ext <;> simp⟩, ?_⟩))
  · intro h; simpa using congrArg V3.x h
  · intro h; simpa using congrArg V3.x h
  · rintro ⟨c, hc, h | h | h⟩
    · simpa using congrArg V3.y h
    · simpa using congrArg V3.x h
    · simpa using congrArg V3.x h

/-- **C45 (rot_v).**  `rot_v(v, theta)` is a proper rotation which fixes the axis, for every non-zero axis. -/
theorem C45_rot_v (v : V3 ℝ) (theta : ℝ) (hv : v ≠ 0) :
    ∃ R, Tr.rotV v theta = .ok R ∧ ProperRotation R ∧ R.mulVec v = v := by
  have hn : norm3 v ≠ 0 := by rwa [Ne, norm3_eq_zero]
  simp only [Tr.rotV, if_neg hn]
  split_ifs with h
  · exact ⟨1, rfl, ⟨by simp [Orthogonal, M3.transpose, M3.one_def, M3.mul_def], M3.det_one⟩, by rw [M3.mulVec_one]⟩
  · obtain ⟨R, h1, h2, h3⟩ := rodrigues_ok (axis := (theta / norm3 v) • v) (by rwa [Ne, ← norm3_eq_zero]) (norm3 ((theta / norm3 v) • v))
    refine ⟨R, h1, h3, ?_⟩
    rw [h2, rodMat_mulVec]
    ext <;> simp [V3.cross] <;> ring


/-- **C45 (rot_v, angle).**  `rot_v(v, theta)` turns by `theta` about `v` in the right-handed sense: with the unit vector `u` along `v`,
every `p` goes to `cos theta p + sin theta u × p + (1 - cos theta) (u · p) u`. -/
theorem C45_rot_v_angle (v : V3 ℝ) (theta : ℝ) (R : M3 ℝ) (h : Tr.rotV v theta = .ok R) (p u : V3 ℝ) (hu : len v • u = v) :
    R.mulVec p = Real.cos theta • p + Real.sin theta • u.cross p + ((1 - Real.cos theta) * u.dot p) • u := by
  unfold Tr.rotV at h
  split at h
  · cases h
  rename_i hn
  rw [len_eq] at hu
  have hpos : 0 < norm3 v := lt_of_le_of_ne (Real.sqrt_nonneg _) (Ne.symm hn)
  have huv : u = (norm3 v)⁻¹ • v := by
    have e : ∀ n : ℝ, n ≠ 0 → n • u = v → u = n⁻¹ • v := by
      rintro n h0 rfl
      ext <;> simp [h0]
    exact e _ hn hu
  have hu1 : u.normSq = 1 := by
    rw [huv]; exact unit_normSq (by rwa [Ne, ← norm3_eq_zero])
  have hw : (theta / norm3 v) • v = theta • u := by
    rw [huv]
    ext <;> simp <;> ring
  simp only [hw] at h
  have hnw : norm3 (theta • u) = |theta| := by
    rw [norm3_smul, norm3_eq_one.mpr hu1, mul_one]
  rw [hnw] at h
  have hfin : ∀ (c sn : ℝ) (k : V3 ℝ), (k = u ∨ k = -u) → p + sn • k.cross p + (1 - c) • k.cross (k.cross p) =
      c • p + sn • k.cross p + ((1 - c) * u.dot p) • u := by
    intro c sn k hk
    have hk2 : ∀ q : V3 ℝ, k.cross (k.cross q) = u.dot q • u - q := by
      intro q
      have h1 : u.x * u.x + u.y * u.y + u.z * u.z = 1 := hu1
      rcases hk with rfl | rfl <;>
      · ext <;> simp only [V3.cross, V3.dot, V3.sub_x, V3.sub_y, V3.sub_z, V3.smul_x, V3.smul_y, V3.smul_z, V3.neg_x, V3.neg_y, V3.neg_z]
        · linear_combination (-q.x) * h1
        · linear_combination (-q.y) * h1
        · linear_combination (-q.z) * h1
    rw [hk2]
    ext <;> simp <;> ring
  split at h
  · rename_i h0
    obtain rfl := Except.ok.inj h
    have : theta = 0 := abs_eq_zero.mp h0
    subst this
    rw [M3.mulVec_one]
    ext <;> simp
  · rename_i h0
    obtain ⟨R', h1, h2, -⟩ := rodrigues_ok (axis := theta • u) (by rw [Ne, ← norm3_eq_zero, hnw]; exact h0) |theta|
    rw [h1] at h
    obtain rfl := Except.ok.inj h
    rw [h2, rodMat_mulVec, hnw]
    have ht : theta ≠ 0 := fun h => h0 (by rw [h, abs_zero])
    rcases lt_or_gt_of_ne ht with hlt | hgt
    · have hk : |theta|⁻¹ • theta • u = -u := by
        rw [abs_of_neg hlt]
        ext <;> simp <;> field_simp
      rw [hk, hfin _ _ _ (.inr rfl), abs_of_neg hlt, Real.cos_neg, Real.sin_neg]
      ext <;> simp [V3.cross] <;> ring
    · have hk : |theta|⁻¹ • theta • u = u := by
        rw [abs_of_pos hgt]
        ext <;> simp <;> field_simp
      rw [hk, hfin _ _ _ (.inl rfl), abs_of_pos hgt]

/-! ## C47: the argument is modified -/

/-- **C47, finding (side effect).**  For planes with unit normals whose angle is in the exact range of C45, the call to
`s2s_alignment` (which raises) has already turned the caller's moving plane to face the target plane. -/
theorem C47_moving_plane_modified (mp tp : Plane) (a b : PtArg) (hm : norm3 mp.normal = 1) (ht : norm3 tp.normal = 1)
    (h : SameDirection mp.normal (-tp.normal) ∨ (machEps ≤ angle mp.normal (-tp.normal) ∧
      machEps ≤ Real.pi - angle mp.normal (-tp.normal)) ∨
      (SameDirection (-mp.normal) (-tp.normal) ∧ ¬ NegativeAxis mp.normal)) :
    (Tr.s2sAlignment mp tp a b).1 = .plane { mp with normal := -tp.normal } := by
  have hm0 : mp.normal ≠ 0 := by
    intro h0; rw [h0, (norm3_eq_zero _).mpr rfl] at hm; norm_num at hm
  have ht0 : -tp.normal ≠ 0 := by
    intro h0; rw [← norm3_neg, h0, (norm3_eq_zero _).mpr rfl] at ht; norm_num at ht
  have e : (-1 : ℝ) • tp.normal = -tp.normal := by ext <;> simp
  obtain ⟨R, hR, hP, c, hc, hdir⟩ := C45_aligns_partial _ _ hm0 ht0 h
  have hRm : norm3 (R.mulVec mp.normal) = 1 := by rw [orth_norm hP.1, hm]
  have hc1 : c = 1 := by
    have := congrArg norm3 hdir
    rw [norm3_neg, ht, norm3_smul, hRm, abs_of_pos hc] at this; linarith
  have hn : R.mulVec mp.normal = -tp.normal := by
    rw [hdir, hc1]; ext <;> simp
  have hrot : Tr.mkRotation R (some mp.point) true false = .ok (.matrix .rotation R (some mp.point) true false) := by
    have h1 : R * R.transpose = 1 := orth_right hP.1
    unfold Tr.mkRotation
    rw [if_neg (by rw [hP.2]; norm_num), if_neg (by
      rw [h1]; simp [Tr.sumAbs, M3.sub_def, M3.one_def])]
  have halg : Tr.alg (.matrix .rotation R (some mp.point) true false) (.plane mp) =
      (.plane { mp with normal := -tp.normal }, .ok ()) := by
    have hns : Plane.normalSet (-tp.normal) = .ok (-tp.normal) := plane_normalSet_unit (by rw [norm3_neg, ht])
    simp only [Tr.alg, Tr.matAlg, hn, hns]
    congr 3
    ext <;> simp [Tr.matApply, M3.mulVec]
  unfold Tr.s2sAlignment
  rw [e, hR, Tr.mkRotationOf]; simp only; rw [hrot]; simp only; rw [halg]; simp only
  repeat' split
  all_goals rfl

/-- **C47, finding (exceptions).**  `s2s_alignment` never raises anything but IndexError, ValueError or AssertionError: a point of shape
(3,) (which the docstring describes) gives IndexError as soon as the rotation is found, arrays of points of shape (N,3) never get
beyond ValueError or AssertionError. -/
theorem C47_exceptions (mp tp : Plane) (a b : PtArg) (hm : norm3 mp.normal = 1) (ht : norm3 tp.normal = 1)
    (h : SameDirection mp.normal (-tp.normal) ∨ (machEps ≤ angle mp.normal (-tp.normal) ∧
      machEps ≤ Real.pi - angle mp.normal (-tp.normal)) ∨
      (SameDirection (-mp.normal) (-tp.normal) ∧ ¬ NegativeAxis mp.normal)) :
    (∀ p, a = .vec p ∨ b = .vec p → (Tr.s2sAlignment mp tp a b).2 = .error .index) ∧
    (∀ ps qs, a = .rows ps → b = .rows qs → (Tr.s2sAlignment mp tp a b).2 =
      .error (if ps.length = qs.length ∨ ps.length = 1 ∨ qs.length = 1 then .assertion else .value)) := by
  have hm0 : mp.normal ≠ 0 := by
    intro h0; rw [h0, (norm3_eq_zero _).mpr rfl] at hm; norm_num at hm
  have ht0 : -tp.normal ≠ 0 := by
    intro h0; rw [← norm3_neg, h0, (norm3_eq_zero _).mpr rfl] at ht; norm_num at ht
  have e : (-1 : ℝ) • tp.normal = -tp.normal := by ext <;> simp
  obtain ⟨R, hR, hP, c, hc, hdir⟩ := C45_aligns_partial _ _ hm0 ht0 h
  have hRm : norm3 (R.mulVec mp.normal) = 1 := by rw [orth_norm hP.1, hm]
  have hrot : Tr.mkRotation R (some mp.point) true false = .ok (.matrix .rotation R (some mp.point) true false) := by
    have h1 : R * R.transpose = 1 := orth_right hP.1
    unfold Tr.mkRotation
    rw [if_neg (by rw [hP.2]; norm_num), if_neg (by
      rw [h1]; simp [Tr.sumAbs, M3.sub_def, M3.one_def])]
  obtain ⟨al, halg⟩ : ∃ al, Tr.alg (.matrix .rotation R (some mp.point) true false) (.plane mp) = (al, .ok ()) := by
    simp only [Tr.alg, Tr.matAlg, plane_normalSet_unit hRm]
    exact ⟨_, rfl⟩
  have hrows : ∀ rows, Tr.mkTranslationRows rows = .error .assertion := by
    intro rows
    unfold Tr.mkTranslationRows
    split
    · rfl
    · rename_i h
      rw [if_pos (by omega)]
  refine ⟨fun p hp => ?_, fun ps qs ha hb => ?_⟩
  · unfold Tr.s2sAlignment
    rw [e, hR, Tr.mkRotationOf]; simp only; rw [hrot]; simp only; rw [halg]; simp only
    rcases hp with rfl | rfl
    · rfl
    · cases a <;> rfl
  · subst ha hb
    unfold Tr.s2sAlignment
    rw [e, hR, Tr.mkRotationOf]; simp only; rw [hrot]; simp only; rw [halg]; simp only [Plane.project, hrows]
    by_cases hl : ps.length = qs.length
    · rw [if_pos (.inl hl)]
      simp [Tr.rowsSub, hl]
    · have hl' : qs.length ≠ ps.length := fun h => hl h.symm
      rcases ps with _ | ⟨p, _ | ⟨p', ps⟩⟩ <;> rcases qs with _ | ⟨q, _ | ⟨q', qs⟩⟩ <;>
        first | (exfalso; simp at hl; done) | (simp [Tr.rowsSub] at hl hl' ⊢; try simp [hl, hl'])

/-- The hypotheses are met, and the plane really changes: both planes facing up. -/
theorem C47_arguments_unchanged_refuted :
    ∃ (mp tp : Plane) (a b : PtArg), norm3 mp.normal = 1 ∧ norm3 tp.normal = 1 ∧
      (Tr.s2sAlignment mp tp a b).1 ≠ .plane mp := by
  refine ⟨⟨⟨0, 0, 1⟩, 0, 1⟩, ⟨⟨0, 0, 1⟩, 0, 1⟩, .vec 0, .vec 0, by simp [norm3, V3.normSq, V3.dot],
    by simp [norm3, V3.normSq, V3.dot], ?_⟩
  rw [C47_moving_plane_modified _ _ _ _ (by simp [norm3, V3.normSq, V3.dot]) (by simp [norm3, V3.normSq, V3.dot])]
  · intro h
    have := congrArg V3.z (congrArg Plane.normal (Alg.plane.inj h))
    norm_num at this
  · refine Or.inr (Or.inr ⟨⟨1, one_pos, by ext <;> simp⟩, ?_⟩)
    rintro ⟨c, hc, h | h | h⟩
    · simpa using congrArg V3.z h
    · simpa using congrArg V3.z h
    · have := congrArg V3.z h
      simp at this; linarith

end CZ
