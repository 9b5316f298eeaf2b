import Verif.Snap
import Verif.Spec.Miller
import Verif.GeneratorLemmas
import Verif.GeomLemmas
import Verif.Props.Misc

/-!
# Property C53: planes snapped to a crystal
-/

namespace CZ
open Spec

noncomputable section
open Classical

/-- What the modes round to. -/
def snapInt (mode : String) (h : ℤ) (f : ℝ) : ℤ :=
  if mode = "nearest" then npRound (h * f) else if mode = "ceil" then (if 0 < h * f then 1 else if h * f < 0 then -1 else 0) * ⌈|h * f|⌉
  else npFix (h * f)

theorem npRound_zero : npRound (0 : ℝ) = 0 := by simpa using npRound_int (K := ℝ) 0

theorem snapCoord_mul (mode : String) (hm : mode = "nearest" ∨ mode = "ceil" ∨ mode = "floor") (h : ℤ) (f : ℝ) :
    (h : ℝ) * snapCoord mode h f = snapInt mode h f := by
  have key : h ≠ 0 → f / (1 / (h : ℝ)) = h * f := fun h0 => by
    have : (h : ℝ) ≠ 0 := by exact_mod_cast h0
    field_simp
  by_cases h0 : h = 0
  · subst h0
    rcases hm with rfl | rfl | rfl
    · simp [snapCoord, snapInt, npRound_zero]
    · simp [snapCoord, snapInt]
    · simp [snapCoord, snapInt, npFix]
  · have hr : (h : ℝ) ≠ 0 := by exact_mod_cast h0
    rcases hm with rfl | rfl | rfl
    · simp only [snapCoord, snapInt, if_true, if_pos h0, key h0]; field_simp
    · simp only [snapCoord, snapInt, if_true, if_pos h0, key h0, if_neg (show ¬ "ceil" = "nearest" by decide), roundAway]
      push_cast
      split_ifs <;> field_simp
    · simp only [snapCoord, snapInt, if_true, if_pos h0, key h0, if_neg (show ¬ "floor" = "nearest" by decide),
        if_neg (show ¬ "floor" = "ceil" by decide)]; field_simp

theorem millerV_dot (h : V3 ℤ) (f : V3 ℝ) : f.dot (millerV h) = miller h f := by
  unfold V3.dot millerV miller; ring

theorem dot_reciprocal {B : M3 ℝ} {h : V3 ℤ} {g : V3 ℝ} (hg : IsReciprocal B h g) (f : V3 ℝ) : (B.mulVec f).dot g = miller h f := by
  have := hg f
  rw [cart_eq, add_zero] at this
  exact this

/-- The reciprocal vector is the one computed by the code. -/
theorem reciprocal_eq {B R : M3 ℝ} {h : V3 ℤ} {g : V3 ℝ} (hR : B.inv = .ok R) (hg : IsReciprocal B h g) :
    R.transpose.mulVec (millerV h) = g := by
  obtain ⟨hRB, hBR⟩ := M3.inv_mul B R hR
  have key : ∀ x : V3 ℝ, x.dot (R.transpose.mulVec (millerV h)) = x.dot g := by
    intro x
    rw [← M3.dot_mulVec, millerV_dot, ← dot_reciprocal hg, ← M3.mulVec_mul, hBR, M3.mulVec_one]
  have kx := key ⟨1, 0, 0⟩
  have ky := key ⟨0, 1, 0⟩
  have kz := key ⟨0, 0, 1⟩
  simp only [V3.dot, one_mul, zero_mul, add_zero, zero_add] at kx ky kz
  exact V3.ext kx ky kz

/-- Sum of the rounded products. -/
def snapSum (mode : String) (h : V3 ℤ) (f : V3 ℝ) : ℤ := snapInt mode h.x f.x + snapInt mode h.y f.y + snapInt mode h.z f.z

/-- The plane computed from crystal coordinates `f` of the point with the cell matrix `B`. -/
theorem make_spec {B R : M3 ℝ} {h : V3 ℤ} {g : V3 ℝ} (hR : B.inv = .ok R) (hg : IsReciprocal B h g) (hlen : machEps < norm3 g)
    (mode : String) (hm : mode = "nearest" ∨ mode = "ceil" ∨ mode = "floor") (f : V3 ℝ) :
    ∃ p : Plane, Plane.make (R.transpose.mulVec (millerV h))
        (B.mulVec ⟨snapCoord mode h.x f.x, snapCoord mode h.y f.y, snapCoord mode h.z f.z⟩) (1 / 10 ^ 5) = .ok p ∧
      p.normal = (norm3 g)⁻¹ • g ∧ ∀ e, p.sdist (B.mulVec e) = (norm3 g)⁻¹ * (miller h e - snapSum mode h f) := by
  refine ⟨⟨(norm3 g)⁻¹ • g, B.mulVec ⟨snapCoord mode h.x f.x, snapCoord mode h.y f.y, snapCoord mode h.z f.z⟩, 1 / 10 ^ 5⟩, ?_, rfl, ?_⟩
  · rw [reciprocal_eq hR hg]
    unfold Plane.make Plane.normalSet tolSet
    rw [if_pos hlen, if_pos (by norm_num)]
    rfl
  · intro e
    unfold Plane.sdist
    simp only
    rw [dot_smul_right, dot_smul_right, dot_reciprocal hg, dot_reciprocal hg]
    have e1 := snapCoord_mul mode hm h.x f.x
    have e2 := snapCoord_mul mode hm h.y f.y
    have e3 := snapCoord_mul mode hm h.z f.z
    unfold snapSum
    push_cast
    rw [← e1, ← e2, ← e3]
    unfold miller
    ring

theorem snap_spec {g : Gen ℝ} {v : Voxel ℝ} (hv : g.voxel = some v) (hs : g.strain = none) (hd : v.sbases.det ≠ 0) {h : V3 ℤ} {r : V3 ℝ}
    (hg : IsReciprocal v.sbases h r) (hlen : machEps < norm3 r) (mode : String)
    (hm : mode = "nearest" ∨ mode = "ceil" ∨ mode = "floor") (f : V3 ℝ) :
    ∃ p, snapPlane (cart v.sbases 0 f) g h mode = .ok p ∧ p.normal = (norm3 r)⁻¹ • r ∧
      ∀ e, p.sdist (v.sbases.mulVec e) = (norm3 r)⁻¹ * (miller h e - snapSum mode h f) := by
  obtain ⟨R, hR⟩ : ∃ R, v.sbases.inv = .ok R := ⟨_, if_neg hd⟩
  obtain ⟨p, hp, h1, h2⟩ := make_spec hR hg hlen mode hm f
  refine ⟨p, ?_, h1, h2⟩
  unfold snapPlane
  have hsolve : v.sbases.solve (cart v.sbases 0 f) = .ok f := by rw [M3.solve_iff _ _ _ hd, cart_eq, add_zero]
  simp only [hv, hs, hsolve, bind, Except.bind, Voxel.reciprocalBases, hR]
  exact hp

theorem surface_eq {B : M3 ℝ} (hd : B.det ≠ 0) {p : Plane} {h : V3 ℤ} {c : ℝ} (hc : c ≠ 0) {k : ℤ}
    (hp : ∀ e, p.sdist (B.mulVec e) = c * (miller h e - k)) : {x | p.sdist x = 0} = LatticePlane B 0 h k := by
  ext x
  rw [Set.mem_ofPred_eq]
  unfold LatticePlane
  rw [Set.mem_ofPred_eq]
  have hx : x = B.mulVec ((B.det)⁻¹ • B.adj.mulVec x) := by
    rw [M3.mulVec_smul, M3.mulVec_adj_mulVec, smul_smul, inv_mul_cancel₀ hd, one_smul]
  constructor
  · intro h0
    refine ⟨_, by rw [cart_eq, add_zero]; exact hx, ?_⟩
    rw [hx, hp] at h0
    have := (mul_eq_zero.mp h0).resolve_left hc
    linarith
  · rintro ⟨f, rfl, hf⟩
    rw [cart_eq, add_zero, hp, hf, sub_self, mul_zero]

/-- Moving the origin by a lattice vector renumbers the planes. -/
theorem latticePlane_shift (B : M3 ℝ) (h n : V3 ℤ) (k : ℤ) :
    LatticePlane B 0 h k = LatticePlane B (cart B 0 ⟨(n.x : ℝ), (n.y : ℝ), (n.z : ℝ)⟩) h (k - (h.x * n.x + h.y * n.y + h.z * n.z)) := by
  ext x
  unfold LatticePlane
  rw [Set.mem_ofPred_eq, Set.mem_ofPred_eq]
  constructor
  · rintro ⟨f, rfl, hf⟩
    refine ⟨⟨f.x - n.x, f.y - n.y, f.z - n.z⟩, ?_, ?_⟩
    · rw [cart_eq, cart_eq, cart_eq, add_zero, add_zero, ← M3.mulVec_add]; congr 1; ext <;> simp
    · unfold miller at hf ⊢; push_cast; rw [← hf]; ring
  · rintro ⟨f, rfl, hf⟩
    refine ⟨⟨f.x + n.x, f.y + n.y, f.z + n.z⟩, ?_, ?_⟩
    · rw [cart_eq, cart_eq, cart_eq, add_zero, add_zero, ← M3.mulVec_add]; congr 1
    · unfold miller at hf ⊢; push_cast at hf; linarith

/-- **C53 (lattice plane, partial).** For an unstrained generator whose origin is a lattice vector (in particular zero), in each of
the three modes, the result is a plane of the family with the given Miller indices, its normal in the direction of the
reciprocal vector.  Missing: other origins (`C53_origin_refuted`). -/
theorem C53_member_partial (g : Gen ℝ) (v : Voxel ℝ) (hv : g.voxel = some v) (hs : g.strain = none) (hd : v.sbases.det ≠ 0)
    (n : V3 ℤ) (ho : v.origin = cart v.sbases 0 ⟨(n.x : ℝ), (n.y : ℝ), (n.z : ℝ)⟩) (h : V3 ℤ) (r : V3 ℝ) (hg : IsReciprocal v.sbases h r)
    (hlen : machEps < norm3 r) (mode : String) (hm : mode = "nearest" ∨ mode = "ceil" ∨ mode = "floor") (point : V3 ℝ) :
    ∃ p, snapPlane point g h mode = .ok p ∧ (∃ c : ℝ, 0 < c ∧ p.normal = c • r) ∧ len p.normal = 1 ∧
      ∃ k, {x | p.sdist x = 0} = LatticePlane v.sbases v.origin h k := by
  have hx : point = cart v.sbases 0 ((v.sbases.det)⁻¹ • v.sbases.adj.mulVec point) := by
    rw [cart_eq, add_zero, M3.mulVec_smul, M3.mulVec_adj_mulVec, smul_smul, inv_mul_cancel₀ hd, one_smul]
  have hpos : 0 < norm3 r := machEps_pos.trans hlen
  obtain ⟨p, h1, h2, h3⟩ := snap_spec hv hs hd hg hlen mode hm ((v.sbases.det)⁻¹ • v.sbases.adj.mulVec point)
  rw [← hx] at h1
  refine ⟨p, h1, ⟨_, inv_pos.mpr hpos, h2⟩, ?_,
    snapSum mode h ((v.sbases.det)⁻¹ • v.sbases.adj.mulVec point) - (h.x * n.x + h.y * n.y + h.z * n.z), ?_⟩
  · rw [len_eq, h2]; exact norm3_unit hpos.ne'
  · rw [ho, surface_eq hd (inv_ne_zero hpos.ne') h3]
    exact latticePlane_shift v.sbases h n _

theorem snapInt_zero (mode : String) (f : ℝ) : snapInt mode 0 f = 0 := by
  unfold snapInt
  split_ifs <;> simp [npRound_zero, npFix]

/-- With one index that is not zero, the plane number is the rounded h·f. -/
theorem snapSum_axis {h : V3 ℤ} (ha : AxisIndices h) (mode : String) (f : V3 ℝ) :
    ∃ (a : ℤ) (t : ℝ), miller h f = a * t ∧ snapSum mode h f = snapInt mode a t := by
  unfold snapSum miller
  rcases ha with ⟨-, h2, h3⟩ | ⟨h1, -, h3⟩ | ⟨h1, h2, -⟩
  · exact ⟨h.x, f.x, by rw [h2, h3]; simp, by rw [h2, h3, snapInt_zero, snapInt_zero]; ring⟩
  · exact ⟨h.y, f.y, by rw [h1, h3]; simp, by rw [h1, h3, snapInt_zero, snapInt_zero]; ring⟩
  · exact ⟨h.z, f.z, by rw [h1, h2]; simp, by rw [h1, h2, snapInt_zero, snapInt_zero]; ring⟩

/-- No point of a plane of the family is closer than its perpendicular distance. -/
theorem dist_lower {B : M3 ℝ} {h : V3 ℤ} {r : V3 ℝ} (hg : IsReciprocal B h r) (hpos : 0 < norm3 r) (f : V3 ℝ) (k : ℤ) (x : V3 ℝ)
    (hx : x ∈ LatticePlane B 0 h k) : (norm3 r)⁻¹ * |miller h f - k| ≤ dist (cart B 0 f) x := by
  obtain ⟨e, rfl, he⟩ := hx
  rw [dist_eq, cart_eq, cart_eq, add_zero, add_zero]
  have h1 := abs_dot_le (B.mulVec f - B.mulVec e) r
  rw [dot_sub_left, dot_reciprocal hg, dot_reciprocal hg, he] at h1
  rw [inv_mul_le_iff₀ hpos, mul_comm]
  exact h1

theorem nearest_int (x : ℝ) (k : ℤ) : |x - npRound x| ≤ |x - k| := by
  have h1 := npRound_near x
  by_cases hk : k = npRound x
  · rw [hk]
  · have h2 : (1 : ℝ) ≤ |((npRound x - k : ℤ) : ℝ)| := by
      rw [← Int.cast_abs]
      exact_mod_cast Int.one_le_abs (sub_ne_zero.mpr (Ne.symm hk))
    push_cast at h2
    have h3 : |(npRound x : ℝ) - k| ≤ |(npRound x : ℝ) - x| + |x - k| := abs_sub_le _ _ _
    rw [abs_sub_comm]
    linarith

/-- The foot of the perpendicular. -/
theorem foot (p : Plane) (hn : norm3 p.normal = 1) (q : V3 ℝ) : ∃ y, p.sdist y = 0 ∧ dist q y = |p.sdist q| := by
  refine ⟨q - p.sdist q • p.normal, ?_, ?_⟩
  · have hns : p.normal.dot p.normal = 1 := by rw [dot_self]; exact norm3_eq_one.mp hn
    unfold Plane.sdist
    rw [dot_sub_left, dot_smul_left, hns]
    ring
  · rw [dist_eq, sub_sub_cancel, norm3_smul, hn, mul_one]

/-- **C53 (nearest, partial).** With exactly one Miller index not zero and the generator at the origin, no plane of the family is
closer to the point than the plane returned in mode "nearest".  Missing: more than one index not zero (`C53_nearest_refuted`),
other origins. -/
theorem C53_nearest_partial (g : Gen ℝ) (v : Voxel ℝ) (hv : g.voxel = some v) (hs : g.strain = none) (hd : v.sbases.det ≠ 0)
    (h : V3 ℤ) (ha : AxisIndices h) (r : V3 ℝ) (hg : IsReciprocal v.sbases h r) (hlen : machEps < norm3 r) (point : V3 ℝ) :
    ∃ p, snapPlane point g h "nearest" = .ok p ∧ ∃ y, p.sdist y = 0 ∧
      ∀ k, ∀ x ∈ LatticePlane v.sbases 0 h k, dist point y ≤ dist point x := by
  have hx : point = cart v.sbases 0 ((v.sbases.det)⁻¹ • v.sbases.adj.mulVec point) := by
    rw [cart_eq, add_zero, M3.mulVec_smul, M3.mulVec_adj_mulVec, smul_smul, inv_mul_cancel₀ hd, one_smul]
  set f := (v.sbases.det)⁻¹ • v.sbases.adj.mulVec point with hf
  have hpos : 0 < norm3 r := machEps_pos.trans hlen
  obtain ⟨p, h1, h2, h3⟩ := snap_spec hv hs hd hg hlen "nearest" (.inl rfl) f
  rw [← hx] at h1
  obtain ⟨y, hy0, hy⟩ := foot p (by rw [h2]; exact norm3_unit hpos.ne') point
  refine ⟨p, h1, y, hy0, fun k x hxk => ?_⟩
  have hlow := dist_lower hg hpos f k x hxk
  rw [← hx] at hlow
  refine le_trans ?_ hlow
  have hsd := h3 f
  rw [show v.sbases.mulVec f = point by rw [hx, cart_eq, add_zero]] at hsd
  rw [hy, hsd, abs_mul, abs_of_pos (inv_pos.mpr hpos)]
  refine mul_le_mul_of_nonneg_left ?_ (inv_pos.mpr hpos).le
  obtain ⟨a, t, e1, e2⟩ := snapSum_axis ha "nearest" f
  rw [e1, e2]
  unfold snapInt
  rw [if_pos rfl]
  exact nearest_int _ _

/-- **C53 (within, partial).** For any Miller indices the plane returned in mode "nearest" is at most one and a half spacings away. -/
theorem C53_within_partial (g : Gen ℝ) (v : Voxel ℝ) (hv : g.voxel = some v) (hs : g.strain = none) (hd : v.sbases.det ≠ 0)
    (h : V3 ℤ) (r : V3 ℝ) (hg : IsReciprocal v.sbases h r) (hlen : machEps < norm3 r) (point : V3 ℝ) :
    ∃ p, snapPlane point g h "nearest" = .ok p ∧ |p.sdist point| ≤ 3 / 2 * (1 / len r) := by
  have hx : point = cart v.sbases 0 ((v.sbases.det)⁻¹ • v.sbases.adj.mulVec point) := by
    rw [cart_eq, add_zero, M3.mulVec_smul, M3.mulVec_adj_mulVec, smul_smul, inv_mul_cancel₀ hd, one_smul]
  set f := (v.sbases.det)⁻¹ • v.sbases.adj.mulVec point with hf
  have hpos : 0 < norm3 r := machEps_pos.trans hlen
  obtain ⟨p, h1, h2, h3⟩ := snap_spec hv hs hd hg hlen "nearest" (.inl rfl) f
  rw [← hx] at h1
  refine ⟨p, h1, ?_⟩
  have hsd := h3 f
  rw [show v.sbases.mulVec f = point by rw [hx, cart_eq, add_zero]] at hsd
  rw [hsd, abs_mul, abs_of_pos (inv_pos.mpr hpos), len_eq, one_div, mul_comm]
  refine mul_le_mul_of_nonneg_right ?_ (inv_pos.mpr hpos).le
  have k1 := npRound_near ((h.x : ℝ) * f.x)
  have k2 := npRound_near ((h.y : ℝ) * f.y)
  have k3 := npRound_near ((h.z : ℝ) * f.z)
  unfold snapSum snapInt miller
  simp only [if_true]
  push_cast
  rw [abs_le] at k1 k2 k3 ⊢
  constructor <;> linarith [k1.1, k1.2, k2.1, k2.2, k3.1, k3.2]

theorem npFix_spec (x : ℝ) : |(npFix x : ℝ)| ≤ |x| ∧ |x| < |(npFix x : ℝ)| + 1 ∧ 0 ≤ (npFix x : ℝ) * x := by
  unfold npFix
  split_ifs with h
  · have h0 : (0 : ℝ) ≤ (⌊x⌋ : ℝ) := by exact_mod_cast Int.floor_nonneg.mpr h
    rw [abs_of_nonneg h0, abs_of_nonneg h]
    exact ⟨Int.floor_le x, Int.lt_floor_add_one x, mul_nonneg h0 h⟩
  · rw [not_le] at h
    have h0 : (⌈x⌉ : ℝ) ≤ 0 := by exact_mod_cast Int.ceil_le.mpr (by simpa using h.le)
    rw [abs_of_nonpos h0, abs_of_neg h]
    exact ⟨by linarith [Int.le_ceil x], by linarith [Int.ceil_lt_add_one x], mul_nonneg_of_nonpos_of_nonpos h0 h.le⟩

theorem snap_mode_partial (mode : String) (hm : mode = "ceil" ∨ mode = "floor") (P : ℤ → ℝ → Prop)
    (hP : ∀ (a : ℤ) (t : ℝ), P (snapInt mode a t) (a * t)) (g : Gen ℝ) (v : Voxel ℝ) (hv : g.voxel = some v) (hs : g.strain = none)
    (hd : v.sbases.det ≠ 0) (h : V3 ℤ) (ha : AxisIndices h) (r : V3 ℝ) (hg : IsReciprocal v.sbases h r) (hlen : machEps < norm3 r)
    (f : V3 ℝ) : ∃ p k, snapPlane (cart v.sbases 0 f) g h mode = .ok p ∧ {x | p.sdist x = 0} = LatticePlane v.sbases 0 h k ∧
      P k (miller h f) := by
  have hpos : 0 < norm3 r := machEps_pos.trans hlen
  obtain ⟨p, h1, h2, h3⟩ := snap_spec hv hs hd hg hlen mode (by tauto) f
  obtain ⟨a, t, e1, e2⟩ := snapSum_axis ha mode f
  refine ⟨p, snapSum mode h f, h1, surface_eq hd (inv_ne_zero hpos.ne') h3, ?_⟩
  rw [e1, e2]
  exact hP a t

/-- **C53 (floor, partial).** With one Miller index not zero and the generator at the origin, mode "floor" returns the last plane of
the family on the way from the origin to the point (the plane through the point if there is one). -/
theorem C53_floor_partial (g : Gen ℝ) (v : Voxel ℝ) (hv : g.voxel = some v) (hs : g.strain = none) (hd : v.sbases.det ≠ 0)
    (h : V3 ℤ) (ha : AxisIndices h) (r : V3 ℝ) (hg : IsReciprocal v.sbases h r) (hlen : machEps < norm3 r) (f : V3 ℝ) :
    ∃ p k, snapPlane (cart v.sbases 0 f) g h "floor" = .ok p ∧ {x | p.sdist x = 0} = LatticePlane v.sbases 0 h k ∧
      0 ≤ k * miller h f ∧ |(k : ℝ)| ≤ |miller h f| ∧ |miller h f| < |(k : ℝ)| + 1 := by
  refine snap_mode_partial "floor" (.inr rfl) (fun k t => 0 ≤ k * t ∧ |(k : ℝ)| ≤ |t| ∧ |t| < |(k : ℝ)| + 1) ?_ g v hv hs hd h ha r hg hlen f
  intro a t
  obtain ⟨h1, h2, h3⟩ := npFix_spec (a * t)
  exact ⟨h3, h1, h2⟩

/-- **C53 (ceil, partial).** Likewise mode "ceil" returns the first plane of the family not before the point. -/
theorem C53_ceil_partial (g : Gen ℝ) (v : Voxel ℝ) (hv : g.voxel = some v) (hs : g.strain = none) (hd : v.sbases.det ≠ 0)
    (h : V3 ℤ) (ha : AxisIndices h) (r : V3 ℝ) (hg : IsReciprocal v.sbases h r) (hlen : machEps < norm3 r) (f : V3 ℝ) :
    ∃ p k, snapPlane (cart v.sbases 0 f) g h "ceil" = .ok p ∧ {x | p.sdist x = 0} = LatticePlane v.sbases 0 h k ∧
      0 ≤ k * miller h f ∧ |miller h f| ≤ |(k : ℝ)| ∧ |(k : ℝ)| < |miller h f| + 1 := by
  refine snap_mode_partial "ceil" (.inl rfl) (fun k t => 0 ≤ k * t ∧ |t| ≤ |(k : ℝ)| ∧ |(k : ℝ)| < |t| + 1) ?_ g v hv hs hd h ha r hg hlen f
  intro a t
  have hk : (snapInt "ceil" a t : ℝ) = roundAway ((a : ℝ) * t) := by
    unfold snapInt roundAway
    rw [if_neg (by decide), if_pos rfl]
    push_cast
    split_ifs <;> simp
  obtain ⟨-, h1, h2, h3, h4⟩ := C54_round_away ((a : ℝ) * t)
  rw [hk]
  refine ⟨?_, h3, h4⟩
  rcases le_total 0 ((a : ℝ) * t) with h0 | h0
  · exact mul_nonneg (h1 h0) h0
  · exact mul_nonneg_of_nonpos_of_nonpos (h2 h0) h0

/-- **C53, finding.** All indices zero: ValueError from the Plane constructor. -/
theorem C53_zero_raises (g : Gen ℝ) (v : Voxel ℝ) (hv : g.voxel = some v) (hs : g.strain = none) (hd : v.sbases.det ≠ 0) (mode : String)
    (point : V3 ℝ) : snapPlane point g ⟨0, 0, 0⟩ mode = .error .value := by
  unfold snapPlane
  obtain ⟨R, hR⟩ : ∃ R, v.sbases.inv = .ok R := ⟨_, if_neg hd⟩
  have h0 : R.transpose.mulVec (millerV ⟨0, 0, 0⟩) = 0 := by
    rw [show millerV ⟨0, 0, 0⟩ = 0 by unfold millerV; ext <;> simp, M3.mulVec_zero]
  have hn : ¬ norm3 (0 : V3 ℝ) > machEps := by
    rw [(norm3_eq_zero 0).mpr rfl]; exact not_lt.mpr machEps_pos.le
  simp only [hv, hs, M3.solve_ok _ _ hd, bind, Except.bind, Voxel.reciprocalBases, hR, h0, Plane.make, Plane.normalSet, if_neg hn]

/-- **C53, finding.** A strain field in another mode than "crystal" (the default is "crystal") raises UnboundLocalError. -/
theorem C53_standard_strain_raises (g : Gen ℝ) (v : Voxel ℝ) (hv : g.voxel = some v) (s : HStrain ℝ) (hs : g.strain = some s)
    (hmode : s.mode ≠ "crystal") (h : V3 ℤ) (mode : String) (hm : mode = "nearest" ∨ mode = "ceil" ∨ mode = "floor") (point : V3 ℝ) :
    snapPlane point g h mode = .error .unboundLocal := by
  unfold snapPlane
  simp only [hv, hs, if_neg hmode, if_pos hm, bind, Except.bind]

/-- **C53 (strained, partial).** In crystal mode, for a symmetric strain matrix that commutes with the cell matrix (e.g. any symmetric
strain of a cubic cell, any isotropic strain) the result is a plane of the strained lattice, whose cell matrix is B Mᵀ. -/
theorem C53_strained_partial (g : Gen ℝ) (v : Voxel ℝ) (hv : g.voxel = some v) (s : HStrain ℝ) (hs : g.strain = some s)
    (hmode : s.mode = "crystal") (hsym : s.matrix.transpose = s.matrix) (hcomm : s.matrix * v.sbases = v.sbases * s.matrix)
    (hd : (v.sbases * s.matrix.transpose).det ≠ 0) (h : V3 ℤ) (r : V3 ℝ) (hg : IsReciprocal (v.sbases * s.matrix.transpose) h r)
    (hlen : machEps < norm3 r) (mode : String) (hm : mode = "nearest" ∨ mode = "ceil" ∨ mode = "floor") (point : V3 ℝ) :
    ∃ p k, snapPlane point g h mode = .ok p ∧ {x | p.sdist x = 0} = LatticePlane (v.sbases * s.matrix.transpose) 0 h k := by
  rw [hsym] at hd hg ⊢
  obtain ⟨R, hR⟩ : ∃ R, (v.sbases * s.matrix).inv = .ok R := ⟨_, if_neg hd⟩
  have hpos : 0 < norm3 r := machEps_pos.trans hlen
  set f := ((v.sbases * s.matrix).det)⁻¹ • (v.sbases * s.matrix).adj.mulVec point with hf
  obtain ⟨p, hp, h1, h2⟩ := make_spec hR hg hlen mode hm f
  refine ⟨p, _, ?_, surface_eq hd (inv_ne_zero hpos.ne') h2⟩
  unfold snapPlane
  simp only [hv, hs, hmode, if_true, hcomm, M3.solve_ok _ _ hd, bind, Except.bind, hR]
  exact hp

/-! ## refutations -/

/-- A generator with the given cell, without atoms. -/
def cellGen (B : M3 ℝ) (o : V3 ℝ) (s : Option (HStrain ℝ)) : Gen ℝ := ⟨none, some ⟨B, .scalar 1, o⟩, s, none⟩

theorem cellGen_sbases (B : M3 ℝ) (o : V3 ℝ) : (⟨B, .scalar 1, o⟩ : Voxel ℝ).sbases = B := by
  unfold Voxel.sbases; ext <;> simp [M3.smul_def]

theorem one_reciprocal (h : V3 ℤ) : IsReciprocal 1 h (millerV h) := by
  intro f
  rw [cart_eq, add_zero, M3.mulVec_one]
  exact millerV_dot h f

theorem machEps_lt_of_one_le {r : ℝ} (h : 1 ≤ r) : machEps < r := machEps_lt_one.trans_le h

theorem norm3_one_le {v : V3 ℝ} (h : 1 ≤ v.normSq) : 1 ≤ norm3 v := by
  unfold norm3
  rw [Real.one_le_sqrt]; exact h

theorem npRound_of_lt {x : ℝ} (h0 : 0 ≤ x) (h1 : x < 1 / 2) : npRound x = 0 := by
  have hf : ⌊x⌋ = 0 := by rw [Int.floor_eq_iff]; constructor <;> push_cast <;> linarith
  unfold npRound
  rw [hf, if_pos (by push_cast; linarith)]

/-- **C53, finding.** Cubic cell, indices (1,1,1), point (0.4, 0.4, 0.4): "nearest" returns the plane through the origin, but the plane
x+y+z=1 is closer. -/
theorem C53_nearest_refuted :
    ∃ p, snapPlane ⟨2 / 5, 2 / 5, 2 / 5⟩ (cellGen 1 0 none) ⟨1, 1, 1⟩ "nearest" = .ok p ∧ {x | p.sdist x = 0} = LatticePlane 1 0 ⟨1, 1, 1⟩ 0 ∧
      ∃ x ∈ LatticePlane 1 0 ⟨1, 1, 1⟩ 1, ∀ y, p.sdist y = 0 → dist ⟨2 / 5, 2 / 5, 2 / 5⟩ x < dist ⟨2 / 5, 2 / 5, 2 / 5⟩ y := by
  have hsb := cellGen_sbases 1 0
  have hd : ((⟨1, .scalar 1, 0⟩ : Voxel ℝ).sbases).det ≠ 0 := by rw [hsb, M3.det_one]; exact one_ne_zero
  have hns : (millerV ⟨1, 1, 1⟩).normSq = 3 := by unfold millerV V3.normSq V3.dot; norm_num
  have hlen : 1 ≤ norm3 (millerV ⟨1, 1, 1⟩) := norm3_one_le (by rw [hns]; norm_num)
  have hpos : 0 < norm3 (millerV ⟨1, 1, 1⟩) := by linarith
  obtain ⟨p, h1, h2, h3⟩ := snap_spec (g := cellGen 1 0 none) rfl rfl hd (h := ⟨1, 1, 1⟩) (r := millerV ⟨1, 1, 1⟩)
    (by rw [hsb]; exact one_reciprocal _) (machEps_lt_of_one_le hlen) "nearest" (.inl rfl) ⟨2 / 5, 2 / 5, 2 / 5⟩
  have hk : snapSum "nearest" ⟨1, 1, 1⟩ (⟨2 / 5, 2 / 5, 2 / 5⟩ : V3 ℝ) = 0 := by
    have : npRound (2 / 5 : ℝ) = 0 := npRound_of_lt (by norm_num) (by norm_num)
    unfold snapSum snapInt
    simp [this]
  have hc : cart 1 0 (⟨2 / 5, 2 / 5, 2 / 5⟩ : V3 ℝ) = ⟨2 / 5, 2 / 5, 2 / 5⟩ := by rw [cart_eq, add_zero, M3.mulVec_one]
  rw [hsb] at h1 h3
  rw [hc] at h1
  rw [hk] at h3
  have hsurf := surface_eq (B := 1) (by rw [M3.det_one]; exact one_ne_zero) (inv_ne_zero hpos.ne') h3
  refine ⟨p, h1, hsurf, ⟨1 / 3, 1 / 3, 1 / 3⟩, ⟨⟨1 / 3, 1 / 3, 1 / 3⟩, by rw [cart_eq, add_zero, M3.mulVec_one], by unfold miller; norm_num⟩, ?_⟩
  intro y hy
  have hy' : y ∈ LatticePlane 1 0 ⟨1, 1, 1⟩ 0 := by rw [← hsurf]; exact hy
  have hlow := dist_lower (one_reciprocal ⟨1, 1, 1⟩) hpos ⟨2 / 5, 2 / 5, 2 / 5⟩ 0 y hy'
  rw [hc] at hlow
  refine lt_of_lt_of_le ?_ hlow
  have hm : miller ⟨1, 1, 1⟩ (⟨2 / 5, 2 / 5, 2 / 5⟩ : V3 ℝ) = 6 / 5 := by unfold miller; norm_num
  have hdist : dist (⟨2 / 5, 2 / 5, 2 / 5⟩ : V3 ℝ) ⟨1 / 3, 1 / 3, 1 / 3⟩ = 1 / 15 * norm3 (millerV ⟨1, 1, 1⟩) := by
    rw [dist_eq, show (⟨2 / 5, 2 / 5, 2 / 5⟩ - ⟨1 / 3, 1 / 3, 1 / 3⟩ : V3 ℝ) = (1 / 15 : ℝ) • millerV ⟨1, 1, 1⟩ by
      ext <;> simp [millerV] <;> norm_num, norm3_smul, abs_of_pos (by norm_num)]
  rw [hdist, hm, lt_inv_mul_iff₀ hpos]
  have hsq : norm3 (millerV ⟨1, 1, 1⟩) * norm3 (millerV ⟨1, 1, 1⟩) = 3 := by rw [norm3_mul_self, hns]
  have : norm3 (millerV ⟨1, 1, 1⟩) * (1 / 15 * norm3 (millerV ⟨1, 1, 1⟩)) = 1 / 5 := by linear_combination 1 / 15 * hsq
  rw [this]
  norm_num

/-- **C53, finding.** The origin of the generator is ignored: with the origin moved by half a lattice vector the plane returned contains
no lattice point. -/
theorem C53_origin_refuted :
    ∃ p, snapPlane 0 (cellGen 1 ⟨1 / 2, 0, 0⟩ none) ⟨1, 0, 0⟩ "nearest" = .ok p ∧
      ∀ n : V3 ℤ, p.sdist (siteAt 1 ⟨1 / 2, 0, 0⟩ n 0) ≠ 0 := by
  have hsb := cellGen_sbases 1 ⟨1 / 2, 0, 0⟩
  have hd : ((⟨1, .scalar 1, ⟨1 / 2, 0, 0⟩⟩ : Voxel ℝ).sbases).det ≠ 0 := by rw [hsb, M3.det_one]; exact one_ne_zero
  have hlen : 1 ≤ norm3 (millerV ⟨1, 0, 0⟩) := norm3_one_le (by unfold millerV V3.normSq V3.dot; norm_num)
  have hpos : 0 < norm3 (millerV ⟨1, 0, 0⟩) := by linarith
  obtain ⟨p, h1, h2, h3⟩ := snap_spec (g := cellGen 1 ⟨1 / 2, 0, 0⟩ none) rfl rfl hd (h := ⟨1, 0, 0⟩) (r := millerV ⟨1, 0, 0⟩)
    (by rw [hsb]; exact one_reciprocal _) (machEps_lt_of_one_le hlen) "nearest" (.inl rfl) 0
  rw [hsb] at h1 h3
  rw [show cart 1 0 (0 : V3 ℝ) = 0 by rw [cart_eq, add_zero, M3.mulVec_zero]] at h1
  refine ⟨p, h1, fun n h0 => ?_⟩
  have hk : snapSum "nearest" ⟨1, 0, 0⟩ (0 : V3 ℝ) = 0 := by
    unfold snapSum snapInt; simp [npRound_zero]
  have hsite : siteAt 1 ⟨1 / 2, 0, 0⟩ n (0 : V3 ℝ) = (1 : M3 ℝ).mulVec ⟨n.x + 1 / 2, n.y, n.z⟩ := by
    unfold siteAt
    rw [cart_eq, M3.mulVec_one, M3.mulVec_one]
    ext <;> simp
  rw [hsite, h3, hk] at h0
  have h4 := (mul_eq_zero.mp h0).resolve_left (inv_ne_zero hpos.ne')
  unfold miller at h4
  have h5 : ((2 * n.x + 1 : ℤ) : ℝ) = 0 := by push_cast at h4 ⊢; linarith
  have h6 : 2 * n.x + 1 = 0 := by exact_mod_cast h5
  omega

/-- A shear. -/
def shear : M3 ℝ := ⟨1, 1 / 2, 0, 1 / 2, 1, 0, 0, 0, 1⟩

/-- **C53, finding.** Strain in crystal mode with a symmetric matrix that does not commute with the cell (tetragonal cell, shear): the
plane returned is not a plane of the strained lattice. -/
theorem C53_strained_refuted :
    ∃ p, snapPlane ⟨2, 1, 0⟩ (cellGen ⟨2, 0, 0, 0, 1, 0, 0, 0, 1⟩ 0 (some ⟨shear, "crystal", 0, true, none⟩)) ⟨1, 0, 0⟩ "nearest" = .ok p ∧
      ∀ k, {x | p.sdist x = 0} ≠ LatticePlane (⟨2, 0, 0, 0, 1, 0, 0, 0, 1⟩ * shear.transpose) 0 ⟨1, 0, 0⟩ k := by
  have hsb := cellGen_sbases ⟨2, 0, 0, 0, 1, 0, 0, 0, 1⟩ 0
  have hd : (shear * ⟨2, 0, 0, 0, 1, 0, 0, 0, 1⟩).det ≠ 0 := by
    simp only [shear, M3.mul_def, M3.det]; norm_num
  have hsolve : (shear * ⟨2, 0, 0, 0, 1, 0, 0, 0, 1⟩).solve ⟨2, 1, 0⟩ = .ok ⟨1, 0, 0⟩ := by
    rw [M3.solve_iff _ _ _ hd]
    simp only [shear, M3.mul_def, M3.mulVec]; ext <;> norm_num
  have hinv : ((⟨2, 0, 0, 0, 1, 0, 0, 0, 1⟩ : M3 ℝ) * shear).inv = .ok ⟨2 / 3, -2 / 3, 0, -1 / 3, 4 / 3, 0, 0, 0, 1⟩ := by
    unfold M3.inv
    rw [if_neg (by simp only [shear, M3.mul_def, M3.det]; norm_num)]
    congr 1
    simp only [shear, M3.mul_def, M3.det, M3.adj, M3.smul_def]; ext <;> norm_num
  have hn : machEps < norm3 (⟨2 / 3, -2 / 3, 0⟩ : V3 ℝ) := by
    unfold norm3 machEps
    rw [Real.lt_sqrt (by positivity)]
    unfold V3.normSq V3.dot
    norm_num
  have hpt : (shear * (⟨2, 0, 0, 0, 1, 0, 0, 0, 1⟩ : M3 ℝ)).mulVec ⟨1, 0, 0⟩ = ⟨2, 1, 0⟩ := by
    simp only [shear, M3.mul_def, M3.mulVec]; ext <;> norm_num
  have hr : (M3.transpose (⟨2 / 3, -2 / 3, 0, -1 / 3, 4 / 3, 0, 0, 0, 1⟩ : M3 ℝ)).mulVec (millerV ⟨1, 0, 0⟩) = ⟨2 / 3, -2 / 3, 0⟩ := by
    unfold M3.transpose M3.mulVec millerV; ext <;> norm_num
  have hsnap : (⟨snapCoord "nearest" 1 1, snapCoord "nearest" 0 0, snapCoord "nearest" 0 0⟩ : V3 ℝ) = ⟨1, 0, 0⟩ := by
    have : npRound (1 : ℝ) = 1 := by simpa using npRound_int (K := ℝ) 1
    unfold snapCoord; ext <;> simp [this]
  refine ⟨⟨(norm3 (⟨2 / 3, -2 / 3, 0⟩ : V3 ℝ))⁻¹ • ⟨2 / 3, -2 / 3, 0⟩, ⟨2, 1, 0⟩, 1 / 10 ^ 5⟩, ?_, ?_⟩
  · unfold snapPlane cellGen
    simp only [hsb, if_true, hsolve, hinv, hsnap, hpt, hr, bind, Except.bind, Plane.make, Plane.normalSet, tolSet]
    rw [if_pos hn, if_pos (by norm_num)]
    rfl
  · intro k hk
    have h1 : (⟨2, 1, 0⟩ : V3 ℝ) ∈ LatticePlane (⟨2, 0, 0, 0, 1, 0, 0, 0, 1⟩ * shear.transpose) 0 ⟨1, 0, 0⟩ k := by
      rw [← hk, Set.mem_ofPred_eq]; unfold Plane.sdist; simp
    obtain ⟨e, he, hm⟩ := h1
    rw [cart_eq, add_zero] at he
    have hx := congrArg V3.x he
    have hy := congrArg V3.y he
    simp only [shear, M3.transpose, M3.mul_def, M3.mulVec] at hx hy
    unfold miller at hm
    have h3 : ((3 * k : ℤ) : ℝ) = (2 : ℤ) := by push_cast at hm ⊢; linarith
    have : 3 * k = 2 := by exact_mod_cast h3
    omega

/-- **C53, finding.** Any other mode string is accepted and gives the plane through the coordinate origin. -/
theorem C53_unknown_mode (g : Gen ℝ) (v : Voxel ℝ) (hv : g.voxel = some v) (hs : g.strain = none) (hd : v.sbases.det ≠ 0) (h : V3 ℤ)
    (r : V3 ℝ) (hg : IsReciprocal v.sbases h r) (hlen : machEps < norm3 r) (mode : String)
    (hm : mode ≠ "nearest" ∧ mode ≠ "ceil" ∧ mode ≠ "floor") (point : V3 ℝ) :
    ∃ p, snapPlane point g h mode = .ok p ∧ {x | p.sdist x = 0} = LatticePlane v.sbases 0 h 0 := by
  obtain ⟨R, hR⟩ : ∃ R, v.sbases.inv = .ok R := ⟨_, if_neg hd⟩
  have hpos : 0 < norm3 r := machEps_pos.trans hlen
  refine ⟨⟨(norm3 r)⁻¹ • r, 0, 1 / 10 ^ 5⟩, ?_, surface_eq (c := (norm3 r)⁻¹) hd (inv_ne_zero hpos.ne') ?_⟩
  · have hz : ∀ (a : ℤ) (f : ℝ), snapCoord mode a f = 0 := fun a f => by
      unfold snapCoord; rw [if_neg hm.1, if_neg hm.2.1, if_neg hm.2.2]
    unfold snapPlane
    simp only [hv, hs, M3.solve_ok _ _ hd, bind, Except.bind, Voxel.reciprocalBases, hR, hz, reciprocal_eq hR hg, Plane.make,
      Plane.normalSet, tolSet]
    rw [if_pos hlen, if_pos (by norm_num)]
    simp only [show (⟨0, 0, 0⟩ : V3 ℝ) = 0 from rfl, M3.mulVec_zero]
    rfl
  · intro e
    unfold Plane.sdist
    simp only
    rw [dot_smul_right, dot_smul_right, dot_reciprocal hg]
    simp [V3.dot]

/-- Concrete case: cell with edges 2, 1, 1; indices (1,0,0), point at x = 2.8: the nearest plane is x = 2, "ceil" gives x = 4. -/
example : ∃ p, snapPlane (cart ⟨2, 0, 0, 0, 1, 0, 0, 0, 1⟩ 0 ⟨7 / 5, 0, 0⟩) (cellGen ⟨2, 0, 0, 0, 1, 0, 0, 0, 1⟩ 0 none) ⟨1, 0, 0⟩ "nearest" = .ok p ∧
    ∃ k, {x | p.sdist x = 0} = LatticePlane ⟨2, 0, 0, 0, 1, 0, 0, 0, 1⟩ 0 ⟨1, 0, 0⟩ k := by
  have hsb := cellGen_sbases ⟨2, 0, 0, 0, 1, 0, 0, 0, 1⟩ 0
  have hns : (⟨1 / 2, 0, 0⟩ : V3 ℝ).normSq = (1 / 2) ^ 2 := by unfold V3.normSq V3.dot; norm_num
  obtain ⟨p, h1, -, -, h2⟩ := C53_member_partial (cellGen ⟨2, 0, 0, 0, 1, 0, 0, 0, 1⟩ 0 none) ⟨⟨2, 0, 0, 0, 1, 0, 0, 0, 1⟩, .scalar 1, 0⟩ rfl rfl
    (by rw [hsb]; simp [M3.det]) ⟨0, 0, 0⟩ (by rw [hsb, cart_eq]; ext <;> simp [M3.mulVec]) ⟨1, 0, 0⟩ ⟨1 / 2, 0, 0⟩
    (by rw [hsb]; intro f; rw [cart_eq]; simp [M3.mulVec, miller]; ring)
    (by unfold norm3; rw [hns, Real.sqrt_sq (by norm_num)]; unfold machEps; norm_num) "nearest" (.inl rfl)
    (cart ⟨2, 0, 0, 0, 1, 0, 0, 0, 1⟩ 0 ⟨7 / 5, 0, 0⟩)
  rw [hsb] at h2
  exact ⟨p, h1, h2⟩

end
end CZ
