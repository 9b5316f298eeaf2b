import Verif.GeneratorLemmas
import Verif.Props.Rotation
import Verif.TransformLemmas
import Mathlib.Analysis.BoxIntegral.UnitPartition
import Mathlib.Analysis.Convex.Measure
import Mathlib.MeasureTheory.Measure.Lebesgue.VolumeOfBalls

/-!
# Counting lattice points in large convex bodies

Mathematics used for property C137; nothing here is about the code.
-/

namespace CZ
namespace Density

open Filter Topology MeasureTheory Pointwise

noncomputable section

/-- Coordinates of a vector as a function. -/
def vec (p : V3 ℝ) : Fin 3 → ℝ := ![p.x, p.y, p.z]

theorem vec_add (p q : V3 ℝ) : vec (p + q) = vec p + vec q := by
  ext i; fin_cases i <;> simp [vec]

theorem vec_smul (c : ℝ) (p : V3 ℝ) : vec (c • p) = c • vec p := by
  ext i; fin_cases i <;> simp [vec]

/-- A matrix as a linear map of coordinates. -/
def lin (B : M3 ℝ) : (Fin 3 → ℝ) →ₗ[ℝ] (Fin 3 → ℝ) :=
  Matrix.toLin' !![B.m00, B.m01, B.m02; B.m10, B.m11, B.m12; B.m20, B.m21, B.m22]

theorem lin_vec (B : M3 ℝ) (p : V3 ℝ) : lin B (vec p) = vec (B.mulVec p) := by
  ext i
  fin_cases i <;> simp [lin, vec, M3.mulVec, Matrix.toLin'_apply, Matrix.mulVec, dotProduct, Fin.sum_univ_three]

theorem lin_det (B : M3 ℝ) : LinearMap.det (lin B) = B.det := by
  rw [lin, LinearMap.det_toLin', Matrix.det_fin_three]
  simp [M3.det]
  ring

/-- The cells whose corner lies in `R • K`. -/
def within (B : M3 ℝ) (K : Set (Fin 3 → ℝ)) (R : ℝ) : Set (V3 ℤ) := {n | vec (B.mulVec (Gen.castV n)) ∈ R • K}

theorem star {K : Set (Fin 3 → ℝ)} (hc : Convex ℝ K) (h0 : 0 ∈ K) {x y : ℝ} (hx : 0 < x) (hxy : x ≤ y) : x • K ⊆ y • K := by
  rintro _ ⟨u, hu, rfl⟩
  have hy : 0 < y := hx.trans_le hxy
  refine ⟨(x / y) • u, hc.smul_mem_of_zero_mem h0 hu ⟨by positivity, by rw [div_le_one hy]; exact hxy⟩, ?_⟩
  simp only [smul_smul]
  rw [mul_div_cancel₀ _ hy.ne']

variable {B : M3 ℝ} {K : Set (Fin 3 → ℝ)}

theorem pull_bounded (hd : B.det ≠ 0) (hb : Bornology.IsBounded K) : Bornology.IsBounded (lin B ⁻¹' K) := by
  have hd' : LinearMap.det (lin B) ≠ 0 := by rwa [lin_det]
  set e := ((lin B).equivOfDetNeZero hd').toContinuousLinearEquiv
  have he : ∀ u, e u = lin B u := fun u => rfl
  have : lin B ⁻¹' K = e.symm '' K := by
    ext u
    constructor
    · intro h; exact ⟨lin B u, h, by rw [← he, e.symm_apply_apply]⟩
    · rintro ⟨w, hw, rfl⟩
      show lin B (e.symm w) ∈ K
      rw [← he, e.apply_symm_apply]; exact hw
  rw [this]
  exact e.symm.toContinuousLinearMap.lipschitz.isBounded_image hb

theorem vec_inj {n m : V3 ℤ} (h : vec (Gen.castV n) = vec (Gen.castV m)) : n = m := by
  ext
  · have := congrFun h 0; simpa [vec, Gen.castV] using this
  · have := congrFun h 1; simpa [vec, Gen.castV] using this
  · have := congrFun h 2; simpa [vec, Gen.castV] using this

theorem vec_span (n : V3 ℤ) :
    vec (Gen.castV n) ∈ (Submodule.span ℤ (Set.range (Pi.basisFun ℝ (Fin 3))) : Set (Fin 3 → ℝ)) := by
  rw [SetLike.mem_coe, Module.Basis.mem_span_iff_repr_mem]
  intro i
  fin_cases i
  · exact ⟨n.x, by simp [vec, Gen.castV]⟩
  · exact ⟨n.y, by simp [vec, Gen.castV]⟩
  · exact ⟨n.z, by simp [vec, Gen.castV]⟩

theorem within_equiv {R : ℝ} (hR : 0 < R) :
    Nat.card (within B K R) = Nat.card ↑((lin B ⁻¹' K) ∩ R⁻¹ • (Submodule.span ℤ (Set.range (Pi.basisFun ℝ (Fin 3))) : Set (Fin 3 → ℝ))) := by
  have key : ∀ n : V3 ℤ, R⁻¹ • vec (Gen.castV n) ∈ lin B ⁻¹' K ↔ n ∈ within B K R := by
    intro n
    show lin B _ ∈ K ↔ _ ∈ R • K
    rw [map_smul, lin_vec, Set.mem_smul_set_iff_inv_smul_mem₀ hR.ne']
  refine Nat.card_congr (Equiv.ofBijective (fun n => ⟨R⁻¹ • vec (Gen.castV n.1), (key _).mpr n.2, ?_⟩) ⟨?_, ?_⟩)
  · exact Set.smul_mem_smul_set (vec_span _)
  · rintro ⟨n, hn⟩ ⟨m, hm⟩ h
    have h1 := Subtype.ext_iff.mp h
    have h2 : vec (Gen.castV n) = vec (Gen.castV m) := smul_right_injective _ (inv_ne_zero hR.ne') h1
    exact Subtype.ext (vec_inj h2)
  · rintro ⟨u, hu, hl⟩
    obtain ⟨w, hw, rfl⟩ := hl
    rw [SetLike.mem_coe, Module.Basis.mem_span_iff_repr_mem] at hw
    obtain ⟨a, ha⟩ := hw 0
    obtain ⟨b, hb⟩ := hw 1
    obtain ⟨c, hc⟩ := hw 2
    have hw' : w = vec (Gen.castV ⟨a, b, c⟩) := by
      ext i
      fin_cases i
      · simpa [vec, Gen.castV] using ha.symm
      · simpa [vec, Gen.castV] using hb.symm
      · simpa [vec, Gen.castV] using hc.symm
    subst hw'
    exact ⟨⟨⟨a, b, c⟩, (key _).mp hu⟩, rfl⟩

theorem within_finite (hd : B.det ≠ 0) (hb : Bornology.IsBounded K) {R : ℝ} : (within B K R).Finite := by
  have h := ZSpan.setFinite_inter (Pi.basisFun ℝ (Fin 3)) (pull_bounded hd (hb.smul₀ R))
  refine Set.Finite.of_injOn (f := fun n => vec (Gen.castV n)) ?_ ?_ h
  · intro n hn
    exact ⟨by show lin B _ ∈ R • K; rw [lin_vec]; exact hn, vec_span n⟩
  · intro n _ m _ h
    exact vec_inj h

/-- The number of lattice points in a large convex body is its volume divided by that of the cell. -/
theorem count_tendsto (hd : B.det ≠ 0) (hb : Bornology.IsBounded K) (hcl : IsClosed K) (hc : Convex ℝ K) (h0 : 0 ∈ K) :
    Tendsto (fun R : ℝ => (Nat.card (within B K R) : ℝ) / R ^ 3) atTop (𝓝 (volume.real K / |B.det|)) := by
  have hd' : LinearMap.det (lin B) ≠ 0 := by rwa [lin_det]
  have hcont : Continuous (lin B) := LinearMap.continuous_of_finiteDimensional _
  have hcv : Convex ℝ (lin B ⁻¹' K) := hc.linear_preimage _
  have h := tendsto_card_div_pow_atTop_volume' (lin B ⁻¹' K) (pull_bounded hd hb) ((hcl.preimage hcont).measurableSet)
    (hcv.addHaar_frontier volume) (fun x y hx hxy => star hcv (by show lin B 0 ∈ K; rw [map_zero]; exact h0) hx hxy)
  have hv : volume.real (lin B ⁻¹' K) = volume.real K / |B.det| := by
    unfold Measure.real
    rw [Measure.addHaar_preimage_linearMap volume hd', ENNReal.toReal_mul, ENNReal.toReal_ofReal (abs_nonneg _), lin_det,
      abs_inv]
    ring
  rw [hv] at h
  refine h.congr' ?_
  filter_upwards [eventually_gt_atTop 0] with R hR
  rw [within_equiv hR]
  simp

theorem ratio_tendsto (δ : ℝ) : Tendsto (fun R : ℝ => ((R + δ) / R) ^ 3) atTop (𝓝 1) := by
  have h1 : Tendsto (fun R : ℝ => 1 + δ * R⁻¹) atTop (𝓝 (1 + δ * 0)) := (tendsto_inv_atTop_zero.const_mul δ).const_add 1
  have h2 := h1.pow 3
  simp only [mul_zero, add_zero, one_pow] at h2
  refine h2.congr' ?_
  filter_upwards [eventually_gt_atTop 0] with R hR
  field_simp

theorem shifted_tendsto (δ : ℝ) (hd : B.det ≠ 0) (hb : Bornology.IsBounded K) (hcl : IsClosed K) (hc : Convex ℝ K) (h0 : 0 ∈ K) :
    Tendsto (fun R : ℝ => (Nat.card (within B K (R + δ)) : ℝ) / R ^ 3) atTop (𝓝 (volume.real K / |B.det|)) := by
  have h := ((count_tendsto hd hb hcl hc h0).comp (tendsto_atTop_add_const_right atTop δ tendsto_id)).mul (ratio_tendsto δ)
  rw [mul_one] at h
  refine h.congr' ?_
  filter_upwards [eventually_gt_atTop 0, eventually_gt_atTop (-δ)] with R hR hR'
  have h1 : (R + δ) ^ 3 ≠ 0 := pow_ne_zero _ (by linarith)
  simp only [Function.comp, id]
  rw [div_pow, div_mul_div_cancel₀ h1]

/-- Sets of cells that differ from those in `R • K` only near the surface have the same density. -/
theorem sandwich {A : ℝ → Set (V3 ℤ)} {δ : ℝ} (hd : B.det ≠ 0) (hb : Bornology.IsBounded K) (hcl : IsClosed K) (hc : Convex ℝ K)
    (h0 : 0 ∈ K) (hlo : ∀ᶠ R in atTop, within B K (R - δ) ⊆ A R) (hhi : ∀ᶠ R in atTop, A R ⊆ within B K (R + δ)) :
    Tendsto (fun R : ℝ => (Nat.card (A R) : ℝ) / R ^ 3) atTop (𝓝 (volume.real K / |B.det|)) := by
  refine tendsto_of_tendsto_of_tendsto_of_le_of_le' (shifted_tendsto (-δ) hd hb hcl hc h0) (shifted_tendsto δ hd hb hcl hc h0) ?_ ?_
  · filter_upwards [hlo, hhi, eventually_gt_atTop 0] with R h1 h2 hR
    have := Nat.card_mono ((within_finite hd hb).subset h2) h1
    rw [← sub_eq_add_neg]
    gcongr
  · filter_upwards [hhi, eventually_gt_atTop 0] with R h2 hR
    have := Nat.card_mono (within_finite hd hb) h2
    gcongr

/-! ## The ball -/

/-- The unit ball. -/
def ball : Set (Fin 3 → ℝ) := {u | u 0 ^ 2 + u 1 ^ 2 + u 2 ^ 2 ≤ 1}

theorem ball_eq : ball = WithLp.toLp 2 ⁻¹' (Metric.closedBall (0 : EuclideanSpace ℝ (Fin 3)) 1) := by
  ext u
  simp only [ball, Set.mem_ofPred_eq, Set.mem_preimage, Metric.mem_closedBall, dist_zero_right]
  rw [EuclideanSpace.norm_eq, Real.sqrt_le_one]
  simp [Fin.sum_univ_three]

theorem ball_volume : volume.real ball = 4 / 3 * Real.pi := by
  rw [ball_eq]
  unfold Measure.real
  rw [(PiLp.volume_preserving_toLp (Fin 3)).measure_preimage Metric.isClosed_closedBall.measurableSet.nullMeasurableSet,
    EuclideanSpace.volume_closedBall_fin_three]
  rw [ENNReal.toReal_mul, ENNReal.toReal_pow, ENNReal.toReal_ofReal zero_le_one, ENNReal.toReal_ofReal (by positivity)]
  ring

theorem ball_closed : IsClosed ball := by
  rw [ball_eq]
  exact Metric.isClosed_closedBall.preimage (PiLp.continuous_toLp 2 _)

theorem ball_convex : Convex ℝ ball := by
  rw [ball_eq]
  exact (convex_closedBall _ _).linear_preimage (WithLp.linearEquiv 2 ℝ (Fin 3 → ℝ)).symm.toLinearMap

theorem ball_zero : (0 : Fin 3 → ℝ) ∈ ball := by simp [ball]

theorem ball_bounded : Bornology.IsBounded ball := by
  refine (Metric.isBounded_closedBall (x := (0 : Fin 3 → ℝ)) (r := 1)).subset ?_
  intro u hu
  have hu' : u 0 ^ 2 + u 1 ^ 2 + u 2 ^ 2 ≤ 1 := hu
  rw [mem_closedBall_zero_iff, pi_norm_le_iff_of_nonneg zero_le_one]
  intro i
  rw [Real.norm_eq_abs, abs_le_one_iff_mul_self_le_one]
  fin_cases i <;> simp <;> nlinarith [sq_nonneg (u 0), sq_nonneg (u 1), sq_nonneg (u 2)]

theorem mem_ball {R : ℝ} (hR : 0 < R) (p : V3 ℝ) : vec p ∈ R • ball ↔ norm3 p ≤ R := by
  rw [Set.mem_smul_set_iff_inv_smul_mem₀ hR.ne', ← vec_smul]
  have h1 : vec (R⁻¹ • p) ∈ ball ↔ (R⁻¹ • p).normSq ≤ 1 := by
    simp [ball, vec, V3.normSq, V3.dot, pow_two]
  rw [h1, ← norm3_sq, norm3_smul, abs_of_pos (inv_pos.mpr hR), sq_le_one_iff₀ (mul_nonneg (inv_pos.mpr hR).le (norm3_nonneg p)),
    inv_mul_le_one₀ hR]

/-! ## The cylinder -/

/-- The disk of radius `r`. -/
def disk (r : ℝ) : Set (Fin 2 → ℝ) := {u | u 0 ^ 2 + u 1 ^ 2 ≤ r ^ 2}

theorem disk_eq {r : ℝ} (hr : 0 ≤ r) : disk r = WithLp.toLp 2 ⁻¹' (Metric.closedBall (0 : EuclideanSpace ℝ (Fin 2)) r) := by
  ext u
  simp only [disk, Set.mem_ofPred_eq, Set.mem_preimage, Metric.mem_closedBall, dist_zero_right]
  rw [EuclideanSpace.norm_eq, Real.sqrt_le_left hr]
  simp [Fin.sum_univ_two]

/-- The cylinder along the third axis with radius `r` and half length `h`. -/
def cyl (r h : ℝ) : Set (Fin 3 → ℝ) := {u | u 0 ^ 2 + u 1 ^ 2 ≤ r ^ 2 ∧ |u 2| ≤ h}

theorem cyl_eq (r h : ℝ) : cyl r h = MeasurableEquiv.piFinSuccAbove (fun _ => ℝ) (2 : Fin 3) ⁻¹' (Set.Icc (-h) h ×ˢ disk r) := by
  ext u
  have h0 : (2 : Fin 3).succAbove (0 : Fin 2) = 0 := rfl
  have h1 : (2 : Fin 3).succAbove (1 : Fin 2) = 1 := rfl
  simp only [cyl, disk, Set.mem_ofPred_eq, Set.mem_preimage, Set.mem_prod, Set.mem_Icc, MeasurableEquiv.piFinSuccAbove_apply,
    Fin.insertNthEquiv_symm_apply, Fin.removeNth, h0, h1, abs_le]
  exact and_comm

theorem disk_measurable (r : ℝ) : MeasurableSet (disk r) :=
  (isClosed_le (by fun_prop) (by fun_prop)).measurableSet

theorem cyl_volume {r h : ℝ} (hr : 0 ≤ r) (hh : 0 ≤ h) : volume.real (cyl r h) = Real.pi * r ^ 2 * (2 * h) := by
  rw [cyl_eq]
  unfold Measure.real
  rw [(volume_preserving_piFinSuccAbove (fun _ => ℝ) (2 : Fin 3)).measure_preimage
    ((measurableSet_Icc.prod (disk_measurable r)).nullMeasurableSet)]
  rw [Measure.volume_eq_prod, Measure.prod_prod, Real.volume_Icc, disk_eq hr,
    (PiLp.volume_preserving_toLp (Fin 2)).measure_preimage Metric.isClosed_closedBall.measurableSet.nullMeasurableSet,
    EuclideanSpace.volume_closedBall_fin_two]
  rw [ENNReal.toReal_mul, ENNReal.toReal_mul, ENNReal.toReal_pow, ENNReal.toReal_ofReal hr, ENNReal.toReal_ofReal (by linarith),
    ENNReal.toReal_ofReal Real.pi_pos.le]
  ring

theorem cyl_closed (r h : ℝ) : IsClosed (cyl r h) := by
  have h1 : IsClosed {u : Fin 3 → ℝ | u 0 ^ 2 + u 1 ^ 2 ≤ r ^ 2} := isClosed_le (by fun_prop) (by fun_prop)
  have h2 : IsClosed {u : Fin 3 → ℝ | |u 2| ≤ h} := isClosed_le (by fun_prop) (by fun_prop)
  exact h1.inter h2

theorem cyl_convex {r : ℝ} (hr : 0 ≤ r) (h : ℝ) : Convex ℝ (cyl r h) := by
  have h1 : Convex ℝ (disk r) := by
    rw [disk_eq hr]
    exact (convex_closedBall _ _).linear_preimage (WithLp.linearEquiv 2 ℝ (Fin 2 → ℝ)).symm.toLinearMap
  intro u hu v hv a b ha hb hab
  refine ⟨?_, ?_⟩
  · exact h1 (x := ![u 0, u 1]) hu.1 (y := ![v 0, v 1]) hv.1 ha hb hab
  · have h2 := convex_Icc (-h) h (𝕜 := ℝ) (abs_le.mp hu.2) (abs_le.mp hv.2) ha hb hab
    exact abs_le.mpr h2

theorem cyl_bounded (r h : ℝ) : Bornology.IsBounded (cyl r h) := by
  refine (Metric.isBounded_closedBall (x := (0 : Fin 3 → ℝ)) (r := |r| + |h|)).subset ?_
  rintro u ⟨h1, h2⟩
  have hr := abs_nonneg r
  have hh := abs_nonneg h
  rw [mem_closedBall_zero_iff, pi_norm_le_iff_of_nonneg (by positivity)]
  have h0 : |u 0| ≤ |r| := sq_le_sq.mp (by nlinarith [sq_nonneg (u 1)])
  have h1 : |u 1| ≤ |r| := sq_le_sq.mp (by nlinarith [sq_nonneg (u 0)])
  have h2 : |u 2| ≤ |h| := h2.trans (le_abs_self h)
  intro i
  rw [Real.norm_eq_abs]
  fin_cases i <;> simp <;> linarith

/-- The matrix whose rows are `u`, `u × a` and `a`. -/
def frame (u a : V3 ℝ) : M3 ℝ := ⟨u.x, u.y, u.z, (u.cross a).x, (u.cross a).y, (u.cross a).z, a.x, a.y, a.z⟩

/-- The cylinder along `a` with radius `r` and half length `h`. -/
def tube (u a : V3 ℝ) (r h : ℝ) : Set (Fin 3 → ℝ) := lin (frame u a) ⁻¹' cyl r h

variable {u a : V3 ℝ} (hu : u.normSq = 1) (ha : a.normSq = 1) (hua : u.dot a = 0)
include hu ha hua

theorem frame_orth : Spec.Orthogonal (frame u a) := by
  rw [orth_iff_right]
  simp only [V3.normSq, V3.dot] at hu ha hua
  rw [M3.one_def]
  ext <;> simp only [frame, M3.mul_def, M3.transpose, V3.cross]
  · linear_combination hu
  · ring
  · linear_combination hua
  · ring
  · linear_combination (a.x * a.x + a.y * a.y + a.z * a.z) * hu + ha - (u.x * a.x + u.y * a.y + u.z * a.z) * hua
  · ring
  · linear_combination hua
  · ring
  · linear_combination ha

theorem mem_tube {r h R : ℝ} (hr : 0 ≤ r) (hR : 0 < R) (p : V3 ℝ) :
    vec p ∈ R • tube u a r h ↔ norm3 (p.cross a) ≤ R * r ∧ |p.dot a| ≤ R * h := by
  have key : ∀ q : V3 ℝ, vec q ∈ tube u a r h ↔ norm3 (q.cross a) ≤ r ∧ |q.dot a| ≤ h := by
    intro q
    have h1 : vec q ∈ tube u a r h ↔ q.dot u ^ 2 + q.dot (u.cross a) ^ 2 ≤ r ^ 2 ∧ |q.dot a| ≤ h := by
      show lin (frame u a) (vec q) ∈ cyl r h ↔ _
      rw [lin_vec]
      have e1 : vec ((frame u a).mulVec q) = ![q.dot u, q.dot (u.cross a), q.dot a] := by
        ext i; fin_cases i <;> simp [vec, frame, M3.mulVec, V3.dot] <;> ring
      rw [e1]
      exact Iff.rfl
    have h2 : q.dot u ^ 2 + q.dot (u.cross a) ^ 2 = (q.cross a).normSq := by
      have h3 := orth_dot (frame_orth hu ha hua) q q
      have e2 : (frame u a).mulVec q = ⟨q.dot u, q.dot (u.cross a), q.dot a⟩ := by
        ext <;> simp [frame, M3.mulVec, V3.dot] <;> ring
      rw [e2] at h3
      rw [normSq_cross, ha]
      have h4 : q.normSq = q.dot q := rfl
      rw [h4, ← h3]
      simp only [V3.dot]
      ring
    rw [h1, h2, ← norm3_sq, sq_le_sq₀ (norm3_nonneg _) hr]
  rw [Set.mem_smul_set_iff_inv_smul_mem₀ hR.ne', ← vec_smul, key]
  have e1 : (R⁻¹ • p).cross a = R⁻¹ • p.cross a := by ext <;> simp [V3.cross] <;> ring
  have e2 : (R⁻¹ • p).dot a = R⁻¹ * p.dot a := by simp [V3.dot]; ring
  rw [e1, e2, norm3_smul, abs_mul, abs_of_pos (inv_pos.mpr hR), inv_mul_le_iff₀ hR, inv_mul_le_iff₀ hR]

theorem tube_volume {r h : ℝ} (hr : 0 ≤ r) (hh : 0 ≤ h) : volume.real (tube u a r h) = Real.pi * r ^ 2 * (2 * h) := by
  have hd : LinearMap.det (lin (frame u a)) ≠ 0 := by rw [lin_det]; exact orth_det_ne (frame_orth hu ha hua)
  have h1 : |((frame u a).det)⁻¹| = 1 := by
    rcases orth_det (frame_orth hu ha hua) with h | h <;> rw [h] <;> norm_num
  rw [tube, Measure.real, Measure.addHaar_preimage_linearMap volume hd, lin_det, h1, ENNReal.toReal_mul, ENNReal.toReal_ofReal zero_le_one,
    one_mul]
  exact cyl_volume hr hh

theorem tube_bounded (r h : ℝ) : Bornology.IsBounded (tube u a r h) :=
  pull_bounded (orth_det_ne (frame_orth hu ha hua)) (cyl_bounded r h)

omit hu ha hua in
theorem tube_closed (r h : ℝ) : IsClosed (tube u a r h) :=
  (cyl_closed r h).preimage (LinearMap.continuous_of_finiteDimensional _)

omit hu ha hua in
theorem tube_convex {r : ℝ} (hr : 0 ≤ r) (h : ℝ) : Convex ℝ (tube u a r h) := (cyl_convex hr h).linear_preimage _

theorem ball_tube {r h t : ℝ} (ht : 0 < t) (hr : t ≤ r) (hh : t ≤ h) : t • ball ⊆ tube u a r h := by
  intro x hx
  obtain ⟨p, rfl⟩ : ∃ p : V3 ℝ, x = vec p := ⟨⟨x 0, x 1, x 2⟩, by ext i; fin_cases i <;> rfl⟩
  rw [mem_ball ht] at hx
  have h1 := (mem_tube hu ha hua (h := h) (ht.le.trans hr) one_pos p).mpr ?_
  · rwa [one_smul] at h1
  rw [one_mul, one_mul]
  have hn := norm3_nonneg p
  have hsq : (p.cross a).normSq + p.dot a ^ 2 = norm3 p ^ 2 := by rw [normSq_cross, ha, norm3_sq]; ring
  constructor
  · refine le_trans ?_ hr
    refine le_trans (abs_le_of_sq_le_sq' ?_ hn).2 hx
    rw [norm3_sq]; nlinarith [sq_nonneg (p.dot a)]
  · refine le_trans (abs_le_of_sq_le_sq ?_ hn) (hx.trans hh)
    nlinarith [normSq_nonneg (p.cross a)]

end
end Density
end CZ
