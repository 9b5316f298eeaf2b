import Verif.Wulff
import Verif.Spec.Icosahedron
import Verif.TransformLemmas
import Mathlib.Analysis.SpecialFunctions.Trigonometric.Bounds

/-!
# Property C107: the strain of icosahedral particles
-/

namespace CZ
open Spec
namespace Wulff

theorem unit111 (B : M3 ℝ) (h : B.mulVec ⟨1, 1, 1⟩ ≠ 0) :
    ∃ u, unitOrNan (B.mulVec ⟨1, 1, 1⟩) = .ok u ∧ u.dot u = 1 ∧ ∃ c : ℝ, B.mulVec ⟨1, 1, 1⟩ = c • u := by
  have hn : norm3 (B.mulVec ⟨1, 1, 1⟩) ≠ 0 := by rwa [Ne, norm3_eq_zero]
  refine ⟨(norm3 (B.mulVec ⟨1, 1, 1⟩))⁻¹ • B.mulVec ⟨1, 1, 1⟩, by simp [unitOrNan, hn], ?_,
    norm3 (B.mulVec ⟨1, 1, 1⟩), ?_⟩
  · have h2 : norm3 (B.mulVec ⟨1, 1, 1⟩) ^ 2 = (B.mulVec ⟨1, 1, 1⟩).dot (B.mulVec ⟨1, 1, 1⟩) := norm3_sq _
    simp only [V3.dot, V3.smul_x, V3.smul_y, V3.smul_z] at h2 ⊢
    field_simp
    linarith
  · ext <;> simp [hn]

/-- **C107 (strain).** A point is split into its part along the direction [111] of the basis and the part `w` perpendicular to it:
the first is kept, the second multiplied by `sf`.  Without direction (a basis that sends [111] to zero) there is no result. -/
theorem C107_strain (B : M3 ℝ) (sf : ℝ) :
    (B.mulVec ⟨1, 1, 1⟩ ≠ 0 → ∀ (t : ℝ) (w : V3 ℝ), Perp (B.mulVec ⟨1, 1, 1⟩) w →
      strainFrom111 B sf (t • B.mulVec ⟨1, 1, 1⟩ + w) = .ok (t • B.mulVec ⟨1, 1, 1⟩ + sf • w)) ∧
    (B.mulVec ⟨1, 1, 1⟩ = 0 → ∀ p, strainFrom111 B sf p = .error .nan) := by
  refine ⟨?_, ?_⟩
  · intro h t w hw
    obtain ⟨u, hu, h1, c, hc⟩ := unit111 B h
    have hc0 : c ≠ 0 := by rintro rfl; apply h; rw [hc]; ext <;> simp
    unfold strainFrom111
    rw [hu, hc]
    rw [hc] at hw
    simp only [Perp, V3.smul_x, V3.smul_y, V3.smul_z] at hw
    have hw' : u.x * w.x + u.y * w.y + u.z * w.z = 0 := by
      have : c * (u.x * w.x + u.y * w.y + u.z * w.z) = 0 := by linarith
      exact (mul_eq_zero.mp this).resolve_left hc0
    have h1' : u.x * u.x + u.y * u.y + u.z * u.z = 1 := h1
    have hd : (t • c • u + w).dot u = t * c := by
      simp only [V3.dot, V3.smul_x, V3.smul_y, V3.smul_z, V3.add_x, V3.add_y, V3.add_z]
      linear_combination t * c * h1' + hw'
    simp only [bind, Except.bind, pure, Except.pure, hd, Except.ok.injEq]
    ext <;> simp <;> ring
  · intro h p
    unfold strainFrom111 unitOrNan
    rw [h, if_pos ((norm3_eq_zero _).mpr rfl)]
    rfl

theorem sq5 : Real.sqrt 5 ^ 2 = 5 := Real.sq_sqrt (by norm_num)

theorem scale_sq : icosahedralScaleFactor ^ 2 = 28 - 12 * Real.sqrt 5 := by
  unfold icosahedralScaleFactor
  have h0 : 0 ≤ Real.sqrt 5 := Real.sqrt_nonneg _
  have h1 : 0 < 3 * ((5 + Real.sqrt 5) / 8) - 1 := by linarith
  simp only
  rw [Real.sq_sqrt (by positivity), div_eq_iff h1.ne']
  linear_combination (9 / 2) * sq5

theorem scalar_self (p : V3 ℝ) : len p ^ 2 = scalar p p := by
  unfold len scalar
  rw [Real.sq_sqrt (by positivity)]; ring

theorem len_of {p : V3 ℝ} {l : ℝ} (hl : 0 ≤ l) (h : scalar p p = l ^ 2) : len p = l := by
  have h0 : 0 ≤ len p := Real.sqrt_nonneg _
  rw [← scalar_self] at h
  nlinarith [sq_nonneg (len p - l), sq_nonneg (len p + l)]

theorem cos72 : Real.cos (2 * Real.pi / 5) = (Real.sqrt 5 - 1) / 4 := by
  have h : (2 * Real.pi / 5) = 2 * (Real.pi / 5) := by ring
  rw [h, Real.cos_two_mul, Real.cos_pi_div_five]
  linear_combination (1 / 8) * sq5

/-- Two faces meeting in the edge `e`. -/
theorem dihedral {e f g : V3 ℝ} {l : ℝ} (he : scalar e e = l ^ 2) (hf : scalar f f = l ^ 2) (hg : scalar g g = l ^ 2)
    (hef : scalar e f = l ^ 2 / Real.sqrt 5) (heg : scalar e g = l ^ 2 / Real.sqrt 5) (hfg : scalar f g = l ^ 2 / Real.sqrt 5) :
    AngleCos (vector e f) (vector e g) (Real.cos (2 * Real.pi / 5)) := by
  have h5 : 0 < Real.sqrt 5 := Real.sqrt_pos.mpr (by norm_num)
  have q2 : (1 / Real.sqrt 5) ^ 2 = 1 / 5 := by rw [div_pow, sq5]; norm_num
  have lag : ∀ a b c d : V3 ℝ, scalar (vector a b) (vector c d) = scalar a c * scalar b d - scalar a d * scalar b c := by
    intro a b c d; simp only [scalar, vector]; ring
  have comm : ∀ a b : V3 ℝ, scalar a b = scalar b a := by intro a b; simp only [scalar]; ring
  have h1 : len (vector e f) ^ 2 = 4 / 5 * l ^ 4 := by
    rw [scalar_self, lag, he, hf, comm f e, hef]
    have : l ^ 2 / Real.sqrt 5 * (l ^ 2 / Real.sqrt 5) = l ^ 4 * (1 / Real.sqrt 5) ^ 2 := by ring
    rw [this, q2]; ring
  have h2 : len (vector e g) ^ 2 = 4 / 5 * l ^ 4 := by
    rw [scalar_self, lag, he, hg, comm g e, heg]
    have : l ^ 2 / Real.sqrt 5 * (l ^ 2 / Real.sqrt 5) = l ^ 4 * (1 / Real.sqrt 5) ^ 2 := by ring
    rw [this, q2]; ring
  have h3 : len (vector e f) = len (vector e g) := by
    have a1 : 0 ≤ len (vector e f) := Real.sqrt_nonneg _
    have a2 : 0 ≤ len (vector e g) := Real.sqrt_nonneg _
    rw [← h2] at h1
    exact (sq_eq_sq₀ a1 a2).mp h1
  unfold AngleCos
  rw [h3, ← sq, h2, lag, he, hfg, heg, comm f e, hef, cos72]
  field_simp
  linear_combination (l ^ 4 * (1 - Real.sqrt 5)) * sq5

theorem wedge_of {e f g : V3 ℝ} {l : ℝ} (hl : 0 < l) (he : scalar e e = l ^ 2) (hf : scalar f f = l ^ 2) (hg : scalar g g = l ^ 2)
    (hef : scalar e f = l ^ 2 / Real.sqrt 5) (heg : scalar e g = l ^ 2 / Real.sqrt 5) (hfg : scalar f g = l ^ 2 / Real.sqrt 5) :
    IcoWedge e f g l := by
  have comm : ∀ a b : V3 ℝ, scalar a b = scalar b a := by intro a b; simp only [scalar]; ring
  have le := len_of hl.le he
  have lf := len_of hl.le hf
  have lg := len_of hl.le hg
  refine ⟨hl, le, lf, lg, ?_, ?_, ?_, dihedral he hf hg hef heg hfg, dihedral hf he hg (by rw [comm, hef]) hfg heg,
    dihedral hg he hf (by rw [comm, heg]) (by rw [comm, hfg]) hef⟩
  · unfold AngleCos; rw [hef, le, lf]; ring
  · unfold AngleCos; rw [heg, le, lg]; ring
  · unfold AngleCos; rw [hfg, lf, lg]; ring

/-- **C107 (icosahedra).** In a cubic crystal, in any orientation `R` and with any lattice constant `a`, the tetrahedron spanned by
the neighbours (1,1,0), (1,0,1), (0,1,1), strained away from [111] (by a factor above 1) with `icosahedral_scale_factor`, is a
wedge of a regular icosahedron, so five of them close around every edge. -/
theorem C107_icosahedral (R : M3 ℝ) (hR : Orthogonal R) (a : ℝ) (ha : a ≠ 0) :
    1 < icosahedralScaleFactor ∧ ∃ e f g l, IcoWedge e f g l ∧
      strainFrom111 (a • R) icosahedralScaleFactor ((a • R).mulVec ⟨1, 1, 0⟩) = .ok e ∧
      strainFrom111 (a • R) icosahedralScaleFactor ((a • R).mulVec ⟨1, 0, 1⟩) = .ok f ∧
      strainFrom111 (a • R) icosahedralScaleFactor ((a • R).mulVec ⟨0, 1, 1⟩) = .ok g := by
  have hgt : 1 < icosahedralScaleFactor := by
    have h0 : 0 ≤ icosahedralScaleFactor := Real.sqrt_nonneg _
    have hlt : Real.sqrt 5 < 9 / 4 := by rw [Real.sqrt_lt' (by norm_num)]; norm_num
    nlinarith [scale_sq]
  refine ⟨hgt, ?_⟩
  clear hgt
  have hdot : ∀ p q : V3 ℝ, scalar ((a • R).mulVec p) ((a • R).mulVec q) = a ^ 2 * scalar p q := by
    intro p q
    have := orth_dot hR p q
    simp only [V3.dot, M3.mulVec] at this
    have hsm : ∀ x : V3 ℝ, (a • R).mulVec x = a • R.mulVec x := by
      intro x; ext <;> simp [M3.mulVec, HSMul.hSMul, SMul.smul] <;> ring
    rw [hsm, hsm]
    simp only [scalar, M3.mulVec, V3.smul_x, V3.smul_y, V3.smul_z]
    linear_combination a ^ 2 * this
  have hne : (a • R).mulVec ⟨1, 1, 1⟩ ≠ 0 := by
    intro h
    have := hdot ⟨1, 1, 1⟩ ⟨1, 1, 1⟩
    rw [h] at this
    simp [scalar] at this
    rcases this with h | h
    · exact ha h
    · norm_num at h
  obtain ⟨hst, -⟩ := C107_strain (a • R) icosahedralScaleFactor
  have key : ∀ w : V3 ℝ, w.x + w.y + w.z = 0 →
      strainFrom111 (a • R) icosahedralScaleFactor ((a • R).mulVec ⟨2 / 3 + w.x, 2 / 3 + w.y, 2 / 3 + w.z⟩) =
        .ok ((a • R).mulVec ⟨2 / 3 + icosahedralScaleFactor * w.x, 2 / 3 + icosahedralScaleFactor * w.y,
          2 / 3 + icosahedralScaleFactor * w.z⟩) := by
    intro w hw
    have h1 : ∀ c : ℝ, (a • R).mulVec ⟨2 / 3 + c * w.x, 2 / 3 + c * w.y, 2 / 3 + c * w.z⟩ =
        (2 / 3 : ℝ) • (a • R).mulVec ⟨1, 1, 1⟩ + c • (a • R).mulVec w := by
      intro c; ext <;> simp [M3.mulVec] <;> ring
    have h2 := h1 1
    simp only [one_mul] at h2
    have h3 : (1 : ℝ) • (a • R).mulVec w = (a • R).mulVec w := by ext <;> simp
    rw [h3] at h2
    rw [h2, h1]
    refine hst hne _ _ ?_
    have := hdot ⟨1, 1, 1⟩ w
    simp only [scalar] at this
    unfold Perp
    rw [this]
    linear_combination a ^ 2 * hw
  have ke := key ⟨1 / 3, 1 / 3, -2 / 3⟩ (by norm_num)
  have kf := key ⟨1 / 3, -2 / 3, 1 / 3⟩ (by norm_num)
  have kg := key ⟨-2 / 3, 1 / 3, 1 / 3⟩ (by norm_num)
  norm_num at ke kf kg
  have hs := scale_sq
  have q2 := sq5
  have h5 : 0 < Real.sqrt 5 := Real.sqrt_pos.mpr (by norm_num)
  have hlt : Real.sqrt 5 < 5 / 2 := by
    rw [Real.sqrt_lt' (by norm_num)]; norm_num
  have hpos : 0 < 20 - 8 * Real.sqrt 5 := by linarith
  generalize icosahedralScaleFactor = s at *
  have hl2 : (|a| * Real.sqrt (20 - 8 * Real.sqrt 5)) ^ 2 = a ^ 2 * (20 - 8 * Real.sqrt 5) := by
    rw [mul_pow, sq_abs, Real.sq_sqrt hpos.le]
  refine ⟨_, _, _, |a| * Real.sqrt (20 - 8 * Real.sqrt 5), wedge_of ?_ ?_ ?_ ?_ ?_ ?_ ?_, ke, kf, kg⟩
  · exact mul_pos (abs_pos.mpr ha) (Real.sqrt_pos.mpr hpos)
  · rw [hdot, hl2]; simp only [scalar]; linear_combination a ^ 2 * (2 / 3) * hs
  · rw [hdot, hl2]; simp only [scalar]; linear_combination a ^ 2 * (2 / 3) * hs
  · rw [hdot, hl2]; simp only [scalar]; linear_combination a ^ 2 * (2 / 3) * hs
  · rw [hdot, hl2, eq_div_iff h5.ne']; simp only [scalar]
    linear_combination -a ^ 2 * Real.sqrt 5 * (1 / 3) * hs + 4 * a ^ 2 * q2
  · rw [hdot, hl2, eq_div_iff h5.ne']; simp only [scalar]
    linear_combination -a ^ 2 * Real.sqrt 5 * (1 / 3) * hs + 4 * a ^ 2 * q2
  · rw [hdot, hl2, eq_div_iff h5.ne']; simp only [scalar]
    linear_combination -a ^ 2 * Real.sqrt 5 * (1 / 3) * hs + 4 * a ^ 2 * q2

/-- Concrete case: a point perpendicular to [111] and one along it. -/
example : strainFrom111 1 2 ⟨1, -1, 0⟩ = .ok ⟨2, -2, 0⟩ ∧ strainFrom111 1 2 ⟨3, 3, 3⟩ = .ok ⟨3, 3, 3⟩ := by
  have he : (1 : M3 ℝ).mulVec ⟨1, 1, 1⟩ = ⟨1, 1, 1⟩ := by
    ext <;> simp [M3.mulVec, M3.one_def]
  have hne : (⟨1, 1, 1⟩ : V3 ℝ) ≠ 0 := by
    intro h
    have := congrArg V3.x h
    simp at this
  obtain ⟨h, -⟩ := C107_strain 1 2
  rw [he] at h
  have h1 := h hne 0 ⟨1, -1, 0⟩ (by simp [Perp])
  have h2 := h hne 3 ⟨0, 0, 0⟩ (by simp [Perp])
  constructor
  · convert h1 using 2 <;> · ext <;> simp
  · convert h2 using 2 <;> · ext <;> simp

end Wulff
end CZ
