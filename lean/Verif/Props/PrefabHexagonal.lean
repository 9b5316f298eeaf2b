import Verif.Props.PrefabWurtzite

/-!
# Property C94: stacking of the layers in the wurtzite prefab
-/

namespace CZ
open Spec

noncomputable section
open Classical

namespace Prefab

/-! ## Hexagonal layers -/

/-- Lateral positions of a close-packed layer; `m` modulo 3 is its letter. -/
def hexLayer (B : M3 ℝ) (m : ℤ) : Set (V3 ℝ) := {w | ∃ i j : ℤ, w = B.mulVec ⟨(i : ℝ) + 1 / 3 + (m : ℝ) / 3, (j : ℝ) + 2 / 3 - (m : ℝ) / 3, 0⟩}

theorem hexLayer_nonempty (B : M3 ℝ) (m : ℤ) : (hexLayer B m).Nonempty := ⟨_, 0, 0, rfl⟩

theorem hexLayer_shift (B : M3 ℝ) (m t : ℤ) :
    {w | ∃ u ∈ hexLayer B m, w = u + B.mulVec ⟨(t : ℝ) / 3, -(t : ℝ) / 3, 0⟩} = hexLayer B (m + t) := by
  ext w
  constructor
  · rintro ⟨u, ⟨i, j, rfl⟩, rfl⟩
    refine ⟨i, j, ?_⟩
    rw [← M3.mulVec_add]
    congr 1; ext <;> simp <;> ring
  · rintro ⟨i, j, rfl⟩
    refine ⟨_, ⟨i, j, rfl⟩, ?_⟩
    rw [← M3.mulVec_add]
    congr 1; ext <;> simp <;> ring

theorem hexLayer_eq_iff {B : M3 ℝ} (hd : B.det ≠ 0) (m m' : ℤ) : hexLayer B m = hexLayer B m' ↔ 3 ∣ m - m' := by
  constructor
  · intro e
    have h : B.mulVec ⟨((0 : ℤ) : ℝ) + 1 / 3 + (m : ℝ) / 3, ((0 : ℤ) : ℝ) + 2 / 3 - (m : ℝ) / 3, 0⟩ ∈ hexLayer B m := ⟨0, 0, rfl⟩
    rw [e] at h
    obtain ⟨i, j, h⟩ := h
    have := congrArg V3.x (mulVec_inj hd h)
    simp only at this
    have h' : ((m - m' : ℤ) : ℝ) = ((3 * i : ℤ) : ℝ) := by push_cast at this ⊢; linarith
    exact ⟨i, by exact_mod_cast h'⟩
  · rintro ⟨k, hk⟩
    obtain rfl : m = m' + 3 * k := by omega
    ext w
    constructor
    · rintro ⟨i, j, rfl⟩
      exact ⟨i + k, j - k, by congr 1; ext <;> push_cast <;> ring⟩
    · rintro ⟨i, j, rfl⟩
      exact ⟨i - k, j + k, by congr 1; ext <;> push_cast <;> ring⟩

/-- Crystal coordinates of hexagonal close-packed sites. -/
def InHcp (f : V3 ℝ) : Prop := ∃ l i j : ℤ, 2 * f.z = l ∧ f.x = i + 1 / 3 + ((l % 2 : ℤ) : ℝ) / 3 ∧ f.y = j + 2 / 3 - ((l % 2 : ℤ) : ℝ) / 3

theorem hcp_crystal {g : Gen ℝ} {x : Voxel ℝ} {s : Struct ℝ} {Z : ℤ} (hx : g.voxel = some x) (hs : g.struct = some s) (hZ : HcpSites s Z) {o : V3 ℤ}
    (ho : x.origin = cart x.sbases 0 ⟨(o.x : ℝ), (o.y : ℝ), (o.z : ℝ)⟩) (q : V3 ℝ) :
    (q, Z) ∈ CrystalOf g ↔ ∃ f, InHcp f ∧ q = x.sbases.mulVec f := by
  have hsite : ∀ n f, siteAt x.sbases x.origin n f = x.sbases.mulVec ⟨(o.x : ℝ) + n.x + f.x, (o.y : ℝ) + n.y + f.y, (o.z : ℝ) + n.z + f.z⟩ := by
    intro n f
    rw [siteAt_eq, ho, cart_eq, add_zero, ← M3.mulVec_add]
    rw [← M3.mulVec_add]; congr 1; ext <;> simp [Gen.castV] <;> ring
  constructor
  · rintro ⟨v', s', e1, e2, n, ⟨f, Z'⟩, hf, he⟩
    rw [hx] at e1; cases e1
    rw [hs] at e2; cases e2
    injection he with he1 he2
    simp only at he1 he2
    subst he2
    rw [he1, hsite]
    refine ⟨_, ?_, rfl⟩
    rcases (hZ f).mp hf with rfl | rfl
    · refine ⟨2 * (o.z + n.z), o.x + n.x, o.y + n.y, by push_cast; ring, ?_, ?_⟩ <;> rw [show 2 * (o.z + n.z) % 2 = 0 by omega] <;> push_cast <;> ring
    · refine ⟨2 * (o.z + n.z) + 1, o.x + n.x, o.y + n.y, by push_cast; ring, ?_, ?_⟩ <;> rw [show (2 * (o.z + n.z) + 1) % 2 = 1 by omega] <;> push_cast <;> ring
  · rintro ⟨f, ⟨l, i, j, hl, hi, hj⟩, rfl⟩
    have key : ∀ (e : V3 ℝ) (n : V3 ℤ), (e, Z) ∈ s.sites → f = ⟨(n.x : ℝ) + e.x, (n.y : ℝ) + e.y, (n.z : ℝ) + e.z⟩ →
        (x.sbases.mulVec f, Z) ∈ CrystalOf g := by
      intro e n he hf
      refine ⟨x, s, hx, hs, ⟨n.x - o.x, n.y - o.y, n.z - o.z⟩, (e, Z), he, ?_⟩
      rw [hsite, hf]
      congr 2
      ext <;> simp
    obtain ⟨k, rfl | rfl⟩ : ∃ k : ℤ, l = 2 * k ∨ l = 2 * k + 1 := ⟨l / 2, by omega⟩
    · rw [show 2 * k % 2 = 0 by omega] at hi hj
      refine key ⟨1 / 3, 2 / 3, 0⟩ ⟨i, j, k⟩ ((hZ _).mpr (.inl rfl)) ?_
      push_cast at hl hi hj
      ext <;> simp <;> linarith
    · rw [show (2 * k + 1) % 2 = 1 by omega] at hi hj
      refine key ⟨2 / 3, 1 / 3, 1 / 2⟩ ⟨i, j, k⟩ ((hZ _).mpr (.inr rfl)) ?_
      push_cast at hl hi hj
      ext <;> simp <;> linarith

/-- In an upright cell the third cell vector is along the normal of the planes (002), of length two spacings. -/
theorem upright_axis {B : M3 ℝ} (hd : B.det ≠ 0) (hc : UprightCell B) {r : V3 ℝ} (hr : IsReciprocal B ⟨0, 0, 2⟩ r) (h0 : 0 < len r) :
    B.mulVec ⟨0, 0, 1⟩ = (2 * (len r)⁻¹) • ((len r)⁻¹ • r) := by
  obtain ⟨c, hcd⟩ : ∃ c, c = B.mulVec ⟨0, 0, 1⟩ := ⟨_, rfl⟩
  have h1 : ∀ f : V3 ℝ, (B.mulVec f).dot c = f.z * c.normSq := by
    intro f
    have := hc f.x f.y
    rw [cart_eq, add_zero, cart_eq, add_zero, ← hcd] at this
    have e : B.mulVec f = B.mulVec ⟨f.x, f.y, 0⟩ + f.z • c := by
      rw [hcd, ← M3.mulVec_smul, ← M3.mulVec_add]; congr 1; ext <;> simp
    rw [e]
    unfold Perp at this
    simp only [V3.dot, V3.normSq, V3.add_x, V3.add_y, V3.add_z, V3.smul_x, V3.smul_y, V3.smul_z]
    linear_combination this
  have h2 : ∀ f : V3 ℝ, (B.mulVec f).dot r = 2 * f.z := by
    intro f; rw [dot_reciprocal hr]; simp [miller]
  obtain ⟨f, hf⟩ := frac_exists hd (c.normSq • r - (2 : ℝ) • c)
  have h3 : (c.normSq • r - (2 : ℝ) • c).normSq = 0 := by
    have e1 := h1 f
    have e2 := h2 f
    rw [← hf] at e1 e2
    rw [← dot_self]
    simp only [V3.dot, V3.sub_x, V3.sub_y, V3.sub_z, V3.smul_x, V3.smul_y, V3.smul_z] at e1 e2 ⊢
    linear_combination c.normSq * e2 - 2 * e1
  have h4 : c.normSq • r - (2 : ℝ) • c = 0 := by rw [← norm3_eq_zero]; unfold norm3; rw [h3, Real.sqrt_zero]
  have h5 : c = (c.normSq / 2) • r := by
    have ex := congrArg V3.x h4
    have ey := congrArg V3.y h4
    have ez := congrArg V3.z h4
    simp only [V3.sub_x, V3.sub_y, V3.sub_z, V3.smul_x, V3.smul_y, V3.smul_z, V3.zero_x, V3.zero_y, V3.zero_z] at ex ey ez
    ext <;> simp only [V3.smul_x, V3.smul_y, V3.smul_z] <;> linarith
  have h6 : c.normSq / 2 * len r ^ 2 = 2 := by
    have := h2 ⟨0, 0, 1⟩
    rw [← hcd] at this
    rw [h5] at this
    rw [len_eq, norm3_sq, show r.normSq = r.x * r.x + r.y * r.y + r.z * r.z from rfl]
    simp only [V3.dot, V3.smul_x, V3.smul_y, V3.smul_z] at this
    linear_combination this
  rw [← hcd, smul_smul]
  have h7 : 2 * (len r)⁻¹ * (len r)⁻¹ = c.normSq / 2 := by
    have := h0.ne'
    field_simp
    linear_combination -2 * h6
  rw [h7]
  exact h5

theorem hex_lateral {g : Gen ℝ} {x : Voxel ℝ} {s : Struct ℝ} {Z : ℤ} (hx : g.voxel = some x) (hs : g.struct = some s) (hZ : HcpSites s Z) {o : V3 ℤ}
    (ho : x.origin = cart x.sbases 0 ⟨(o.x : ℝ), (o.y : ℝ), (o.z : ℝ)⟩) (hd : x.sbases.det ≠ 0) (hc : UprightCell x.sbases) {r : V3 ℝ}
    (hr : IsReciprocal x.sbases ⟨0, 0, 2⟩ r) (h0 : 0 < len r) :
    Layers ((len r)⁻¹ • r) (len r)⁻¹ g Z ∧ ∀ j, Lateral ((len r)⁻¹ • r) (len r)⁻¹ g Z j = hexLayer x.sbases (j % 2) := by
  have hax := upright_axis hd hc hr h0
  have hh : ∀ f : V3 ℝ, height ((len r)⁻¹ • r) (x.sbases.mulVec f) = 2 * f.z * (len r)⁻¹ := by
    intro f; rw [height_miller hr h0, div_eq_mul_inv]; simp [miller]
  have hlat : ∀ f : V3 ℝ, x.sbases.mulVec f - height ((len r)⁻¹ • r) (x.sbases.mulVec f) • ((len r)⁻¹ • r) = x.sbases.mulVec ⟨f.x, f.y, 0⟩ := by
    intro f
    have e : x.sbases.mulVec f = x.sbases.mulVec ⟨f.x, f.y, 0⟩ + f.z • x.sbases.mulVec ⟨0, 0, 1⟩ := by
      rw [← M3.mulVec_smul, ← M3.mulVec_add]; congr 1; ext <;> simp
    rw [hh]
    conv_lhs => rw [e, hax]
    ext <;> simp <;> ring
  have hinv : (len r)⁻¹ ≠ 0 := inv_ne_zero h0.ne'
  constructor
  · intro q hq
    obtain ⟨f, ⟨l, i, j, hl, -, -⟩, rfl⟩ := (hcp_crystal hx hs hZ ho q).mp hq
    exact ⟨l, by rw [hh, hl]⟩
  · intro j
    ext w
    constructor
    · rintro ⟨q, hq, hj, rfl⟩
      obtain ⟨f, ⟨l, a, b, hl, ha, hb⟩, rfl⟩ := (hcp_crystal hx hs hZ ho q).mp hq
      rw [hh, hl] at hj
      obtain rfl : l = j := by exact_mod_cast mul_right_cancel₀ hinv hj
      exact ⟨a, b, by rw [hlat, ha, hb]⟩
    · rintro ⟨a, b, rfl⟩
      refine ⟨x.sbases.mulVec ⟨(a : ℝ) + 1 / 3 + ((j % 2 : ℤ) : ℝ) / 3, (b : ℝ) + 2 / 3 - ((j % 2 : ℤ) : ℝ) / 3, (j : ℝ) / 2⟩,
        (hcp_crystal hx hs hZ ho _).mpr ⟨_, ⟨j, a, b, by simp; ring, rfl, rfl⟩, rfl⟩, by rw [hh]; ring, by rw [hlat]⟩

/-! ## Parity of the planes -/

theorem len_comp {q : V3 ℝ} {M : ℝ} (h : len q ≤ M) : |q.x| ≤ M ∧ |q.y| ≤ M ∧ |q.z| ≤ M := by
  have h1 : ∀ t, t ^ 2 ≤ q.x ^ 2 + q.y ^ 2 + q.z ^ 2 → |t| ≤ M := fun t ht => le_trans (Real.abs_le_sqrt ht) h
  refine ⟨h1 _ ?_, h1 _ ?_, h1 _ ?_⟩ <;> nlinarith [sq_nonneg q.x, sq_nonneg q.y, sq_nonneg q.z]

theorem len_lt {q : V3 ℝ} {M : ℝ} (hM : 0 < M) (h : |q.x| ≤ M ∧ |q.y| ≤ M ∧ |q.z| ≤ M) : len q < 2 * M := by
  have h1 : ∀ t : ℝ, |t| ≤ M → t ^ 2 ≤ M ^ 2 := fun t ht => by rw [← sq_abs t]; exact pow_le_pow_left₀ (abs_nonneg t) ht 2
  unfold len
  rw [Real.sqrt_lt' (by linarith)]
  nlinarith [h1 _ h.1, h1 _ h.2.1, h1 _ h.2.2]

/-- The ends of the search. -/
theorem search_ends {env : Env} {v : Vol} {M : ℝ} (hM : SearchWithin env v M) {n0 : V3 ℝ} (hn : norm3 n0 = 1) {b : BBox} {se : V3 ℝ × V3 ℝ}
    (hb : v.boundingBox env = .ok b) (hse : boxSpan n0 b = .ok se) :
    len (sphereSpan n0 v.algs se).1 ≤ M ∧ len (sphereSpan n0 v.algs se).2 ≤ M := by
  have key : ∀ (as : List Alg) (se : V3 ℝ × V3 ℝ), ((∀ s, .sphere s ∉ as) → len se.1 ≤ M ∧ len se.2 ≤ M) → (∀ s, .sphere s ∈ as → |s.radius| ≤ M) →
      len (sphereSpan n0 as se).1 ≤ M ∧ len (sphereSpan n0 as se).2 ≤ M := by
    intro as
    induction as with
    | nil => intro se h _; exact h (by simp)
    | cons a as ih =>
      intro se h h'
      unfold sphereSpan
      rw [List.foldl_cons]
      refine ih _ ?_ (fun s hs => h' s (List.mem_cons_of_mem _ hs))
      intro hno
      cases a with
      | sphere s =>
        have := h' s List.mem_cons_self
        simp only [len_eq, norm3_smul, hn, mul_one, neg_mul, one_mul, abs_neg]
        exact ⟨this, this⟩
      | plane => exact h (by simpa using hno)
      | cyl => exact h (by simpa using hno)
  refine key v.algs se (fun hno => ?_) hM.1
  cases b with
  | rows ps =>
    cases ps with
    | nil => cases hse
    | cons p ps =>
      cases hse
      have := hM.2 hno _ hb
      refine ⟨this _ (rowMin_spec _ ps p).1, this _ ?_⟩
      rw [rowMax_eq]
      exact (rowMin_spec _ ps p).1
  | _ => cases hse

theorem half_round (K : ℤ) (hK : K % 2 = 1) : |((npRound ((K : ℝ) / 2) : ℤ) : ℝ) - (K : ℝ) / 2| = 1 / 2 := by
  have h1 := npRound_near ((K : ℝ) / 2)
  generalize npRound ((K : ℝ) / 2) = m at *
  rw [abs_le] at h1
  have a1 : K - 1 ≤ 2 * m := by
    have : ((K - 1 : ℤ) : ℝ) ≤ ((2 * m : ℤ) : ℝ) := by push_cast; linarith
    exact_mod_cast this
  have a2 : 2 * m ≤ K + 1 := by
    have : ((2 * m : ℤ) : ℝ) ≤ ((K + 1 : ℤ) : ℝ) := by push_cast; linarith
    exact_mod_cast this
  obtain h | h : K = 2 * m + 1 ∨ K = 2 * m - 1 := by omega
  · rw [h]; push_cast; rw [show (m : ℝ) - (2 * m + 1) / 2 = -(1 / 2) by ring, abs_neg, abs_of_pos (by norm_num)]
  · rw [h]; push_cast; rw [show (m : ℝ) - (2 * m - 1) / 2 = 1 / 2 by ring, abs_of_pos (by norm_num)]

/-- Where the two planes of the test lie. -/
theorem snapped_points {g : Gen ℝ} {y : Voxel ℝ} (hy : g.voxel = some y) (hs : g.strain = none) (hd : y.sbases.det ≠ 0) {f : V3 ℝ} {K : ℤ} (hf : 2 * f.z = K)
    {p1 p2 : Plane} (h1 : snapPlane (y.sbases.mulVec f) g ⟨0, 0, 1⟩ "nearest" = .ok p1) (h2 : snapPlane (y.sbases.mulVec f) g ⟨0, 0, 2⟩ "nearest" = .ok p2) :
    p2.point = y.sbases.mulVec f ∧
      p1.point = y.sbases.mulVec f + (((npRound ((K : ℝ) / 2) : ℤ) : ℝ) - (K : ℝ) / 2) • y.sbases.mulVec ⟨0, 0, 1⟩ := by
  have e1 := snapPlane_point hy hs hd h1
  have e2 := snapPlane_point hy hs hd h2
  have hz : f.z = K / 2 := by linarith
  have c2 : snapCoord "nearest" 2 f.z = f.z := by
    have := snapCoord_mul "nearest" (.inl rfl) 2 f.z
    rw [show snapInt "nearest" 2 f.z = npRound (((2 : ℤ) : ℝ) * f.z) by simp [snapInt], show ((2 : ℤ) : ℝ) * f.z = (K : ℤ) by push_cast; linarith,
      npRound_int] at this
    push_cast at this
    linarith
  have c1 : snapCoord "nearest" 1 f.z = (npRound ((K : ℝ) / 2) : ℤ) := by
    have := snapCoord_mul "nearest" (.inl rfl) 1 f.z
    rw [show snapInt "nearest" 1 f.z = npRound (((1 : ℤ) : ℝ) * f.z) by simp [snapInt], hz] at this
    push_cast at this
    rw [one_mul, one_mul] at this
    rw [hz]
    exact this
  have c0 : ∀ t, snapCoord "nearest" 0 t = t := fun t => by simp [snapCoord]
  have hp2 : p2.point = y.sbases.mulVec f := by rw [e2]; simp only [c0, c2]
  have hp1 : p1.point = y.sbases.mulVec f + (((npRound ((K : ℝ) / 2) : ℤ) : ℝ) - (K : ℝ) / 2) • y.sbases.mulVec ⟨0, 0, 1⟩ := by
    rw [e1, ← M3.mulVec_smul, ← M3.mulVec_add]
    simp only [c0, c1]
    congr 1; ext <;> simp <;> linarith
  exact ⟨hp2, hp1⟩

/-- The test of the code finds out whether the number of the plane is even. -/
theorem parity_test {g : Gen ℝ} {y : Voxel ℝ} (hy : g.voxel = some y) (hs : g.strain = none) (hd : y.sbases.det ≠ 0) {f : V3 ℝ} {K : ℤ} (hf : 2 * f.z = K)
    {p1 p2 : Plane} (h1 : snapPlane (y.sbases.mulVec f) g ⟨0, 0, 1⟩ "nearest" = .ok p1) (h2 : snapPlane (y.sbases.mulVec f) g ⟨0, 0, 2⟩ "nearest" = .ok p2)
    {T : ℝ} (hT : 0 ≤ T) (hq : |(y.sbases.mulVec f).x| ≤ T ∧ |(y.sbases.mulVec f).y| ≤ T ∧ |(y.sbases.mulVec f).z| ≤ T)
    (hfar : 4 * (1 / 10 ^ 8 + 1 / 10 ^ 5 * T) ≤ len (y.sbases.mulVec ⟨0, 0, 1⟩)) : allclose p1.point p2.point ↔ K % 2 = 0 := by
  obtain ⟨hp2, hp1⟩ := snapped_points hy hs hd hf h1 h2
  constructor
  · intro ha
    by_contra hK
    have hK : K % 2 = 1 := by omega
    have hr := half_round K hK
    rw [hp1, hp2] at ha
    generalize y.sbases.mulVec ⟨0, 0, 1⟩ = c at *
    generalize y.sbases.mulVec f = q at *
    unfold allclose at ha
    simp only [V3.add_x, V3.add_y, V3.add_z, V3.smul_x, V3.smul_y, V3.smul_z, add_sub_cancel_left, abs_mul, hr] at ha
    have hlt := len_lt (q := c) (M := 2 * (1 / 10 ^ 8 + 1 / 10 ^ 5 * T)) (by positivity) ⟨by linarith [ha.1, hq.1], by linarith [ha.2.1, hq.2.1], by linarith [ha.2.2, hq.2.2]⟩
    linarith
  · intro hK
    obtain ⟨m, rfl⟩ : ∃ m, K = 2 * m := ⟨K / 2, by omega⟩
    have : (((2 * m : ℤ) : ℝ)) / 2 = (m : ℤ) := by push_cast; ring
    rw [this, npRound_int] at hp1
    rw [show ((m : ℤ) : ℝ) - (m : ℤ) = 0 by ring, zero_smul, add_zero] at hp1
    rw [hp1, hp2]
    unfold allclose
    simp only [sub_self, abs_zero]
    refine ⟨?_, ?_, ?_⟩ <;> positivity

/-! ## C94 -/

/-- **C94, limit.** The size of the fault vector.  For an unstrained crystal and a plane through half-integer height `K/2` of its cell, the prefab
displaces the next grain by two thirds of [1,-1,0] when `K` is even, and also when `K` is odd but the plane is so far away that half a cell along c
is, in every coordinate, not larger than `1e-8 + 1e-5 |coordinate|`; otherwise by one third. -/
theorem C94_fault_vector (g : Gen ℝ) (y : Voxel ℝ) (hy : g.voxel = some y) (hs : g.strain = none) (hd : y.sbases.det ≠ 0) (bz : V3 ℝ) (pl : Plane) (f : V3 ℝ)
    (K : ℤ) (hp : pl.point = cart y.sbases 0 f) (hf : 2 * f.z = K) (sg : ℤ) (e : Tr ℝ × ℤ × Bool) (h : wurtziteDefect bz (.ok pl) g sg = .ok e) :
    ∃ b : ℕ, (b = 1 ∨ b = 2) ∧ e.1 = .translation ((sg : ℝ) • cart y.sbases 0 ⟨(b : ℝ) / 3, -(b : ℝ) / 3, 0⟩ + bz) true false ∧
      (b = 2 ↔ K % 2 = 0 ∨
        (|(cart y.sbases 0 ⟨0, 0, 1 / 2⟩).x| ≤ 1 / 10 ^ 8 + 1 / 10 ^ 5 * |pl.point.x| ∧
          |(cart y.sbases 0 ⟨0, 0, 1 / 2⟩).y| ≤ 1 / 10 ^ 8 + 1 / 10 ^ 5 * |pl.point.y| ∧
          |(cart y.sbases 0 ⟨0, 0, 1 / 2⟩).z| ≤ 1 / 10 ^ 8 + 1 / 10 ^ 5 * |pl.point.z|)) := by
  obtain ⟨y', p1, p2, hy', h1, h2, b, hb, hb2, rfl⟩ := wurtziteDefect_inv h
  obtain rfl : y = y' := Option.some.inj (hy.symm.trans hy')
  refine ⟨b, hb, ?_, ?_⟩
  · rw [cart_eq, add_zero]
    have : ((sg : ℝ) • y.sbases).mulVec ⟨(b : ℝ) / 3, -(b : ℝ) / 3, 0⟩ = (sg : ℝ) • y.sbases.mulVec ⟨(b : ℝ) / 3, -(b : ℝ) / 3, 0⟩ := by
      ext <;> simp [M3.mulVec, M3.smul_def] <;> ring
    rw [this]
  rw [hb2]
  rw [cart_eq, add_zero] at hp
  rw [hp] at h1 h2
  obtain ⟨e2, e1⟩ := snapped_points hy hs hd hf h1 h2
  have ec : cart y.sbases 0 ⟨0, 0, 1 / 2⟩ = (1 / 2 : ℝ) • y.sbases.mulVec ⟨0, 0, 1⟩ := by
    rw [cart_eq, add_zero, ← M3.mulVec_smul]; congr 1; ext <;> simp
  rw [e1, e2, hp, ec]
  generalize y.sbases.mulVec ⟨0, 0, 1⟩ = c at *
  generalize y.sbases.mulVec f = q at *
  unfold allclose
  simp only [V3.add_x, V3.add_y, V3.add_z, V3.smul_x, V3.smul_y, V3.smul_z, add_sub_cancel_left, abs_mul]
  rcases (by omega : K % 2 = 0 ∨ K % 2 = 1) with hK | hK
  · obtain ⟨m, rfl⟩ : ∃ m, K = 2 * m := ⟨K / 2, by omega⟩
    have : (((2 * m : ℤ) : ℝ)) / 2 = (m : ℤ) := by push_cast; ring
    rw [this, npRound_int, sub_self, abs_zero]
    refine iff_of_true ⟨?_, ?_, ?_⟩ (.inl hK) <;> rw [zero_mul] <;> positivity
  · rw [half_round K hK, abs_of_pos (by norm_num : (0 : ℝ) < 1 / 2)]
    exact ⟨.inr, fun h => h.resolve_left (by omega)⟩

set_option maxHeartbeats 1000000 in
/-- **C94.** Layers of the wurtzite prefab.  For an unstrained crystal whose c axis is perpendicular to a and b, with species `Z` on the
hexagonal close-packed sites and the origin on a lattice point, and a body not larger than about 3000 cells: whenever `build_object`
returns, the planes of the faults are atomic layers, all grains have the stacking ABAB, the layer at a fault is common to the grains on
both sides, and the layers above and below it are not on top of each other (…ABABCBC…: a basal fault of type I₁). -/
theorem C94_wurtzite_stacking (env : Env) (p : Wurtzite) (g : Gen ℝ) (v : Vol) (x : Voxel ℝ) (s : Struct ℝ) (r : V3 ℝ) (Z : ℤ) (hg : p.gen = some g)
    (hv : p.vol = some (.vol v)) (H : Regular g x s ⟨0, 0, 2⟩ r) (hs : ColumnScale x.scale) (hc : UprightCell x.sbases) (hZ : HcpSites s Z) (o : V3 ℤ)
    (ho : x.origin = cart x.sbases 0 ⟨(o.x : ℝ), (o.y : ℝ), (o.z : ℝ)⟩) (hi : Intact env v) (hN : 0 ≤ p.N) (hm : 0 ≤ p.minSep) (M : ℝ)
    (hM : SearchWithin env v M)
    (hfar : 4 * (1 / 10 ^ 8 + 3 / 10 ^ 5 * (M + len (cart x.sbases 0 ⟨0, 0, 1⟩) / 2)) ≤ len (cart x.sbases 0 ⟨0, 0, 1⟩))
    (split : ℕ → ℕ) (fuel : ℕ) (t : VTree) (h : p.build env split fuel = some (.ok t)) :
    ∃ (n : V3 ℝ) (d : ℝ) (K : ℕ → ℤ) (ws : ℕ → Vol) (gs : ℕ → Gen ℝ), 0 < d ∧ cart x.sbases 0 ⟨0, 0, 1⟩ = (2 * d) • n ∧ len n = 1 ∧
      t = .multi ((List.range (p.N.toNat + 1)).map fun k => .vol (ws k)) 0 none ∧
      (∀ i j, i < j → j < p.N.toNat → K j + p.minSep ≤ K i) ∧ gs 0 = g ∧
      (∀ k, k ≤ p.N.toNat → (ws k).gen = some (.crystal (gs k)) ∧ Layers n d (gs k) Z ∧ HexStack (Lateral n d (gs k) Z) ∧
        ∀ q, Owns env ws (p.N.toNat + 1) k q ↔ Inside env (.vol v) q ∧ InLayer n (fun k => K k * d) (1 / 10 ^ 5) p.N.toNat k q) ∧
      ∀ k, k < p.N.toNat → Lateral n d (gs (k + 1)) Z (K k) = Lateral n d (gs k) Z (K k) ∧
        Lateral n d (gs (k + 1)) Z (K k - 1) ≠ Lateral n d (gs k) Z (K k + 1) := by
  have h0 : 0 < len r := machEps_pos.trans H.length
  have e2 : norm3 ((len r)⁻¹ • r) = 1 := by rw [len_eq] at h0 ⊢; exact norm3_unit h0.ne'
  have hax := upright_axis H.det hc H.recip h0
  obtain ⟨R', n0, st, hR, hn0, rfl, R⟩ := wurtzite_run hg hv H.voxel hN h
  have hn0 : norm3 n0 = 1 := by
    unfold unitOrNan at hn0
    split at hn0
    · cases hn0
    · cases hn0; exact norm3_unit (by assumption)
  obtain ⟨b, se, Ss, Se, q0, K, X, gs, ss, ts, bs, ws, a1, a2, a3, a4, a5, a6, a7, a8, a9, a10, a11, a12, a13, sp, a14, a15⟩ := run_spec H hi hN hm R
  obtain ⟨l1, l2⟩ := hex_lateral H.voxel H.struct hZ ho H.det hc H.recip h0
  have hnz : nonzeros ⟨0, 0, 2⟩ = 1 := by simp [nonzeros]
  rw [hnz] at a3 a4
  obtain ⟨w1, w2⟩ := wurtzite_loop H.voxel hs (pl := fun k => rung ((len r)⁻¹ • r) q0 (len r)⁻¹ (X k)) a9 a10 a13
  obtain ⟨m1, m2⟩ := search_ends hM hn0 a1 a2
  obtain ⟨f0, hf0⟩ := frac_exists H.det (sphereSpan n0 v.algs se).1
  have hlen : len (x.sbases.mulVec ⟨0, 0, 1⟩) = 2 * (len r)⁻¹ := by
    rw [hax, len_eq, norm3_smul, e2, mul_one, abs_of_pos (by positivity)]
  rw [cart_eq, add_zero] at hfar ⊢
  have hM0 : 0 ≤ M := le_trans (by unfold len; exact Real.sqrt_nonneg _) m1
  have hh : ∀ f : V3 ℝ, height ((len r)⁻¹ • r) (x.sbases.mulVec f) = 2 * f.z * (len r)⁻¹ := by
    intro f; rw [height_miller H.recip h0, div_eq_mul_inv]; simp [miller]
  -- the points of the planes
  have hpt : ∀ k, q0 + ((X k : ℝ) * (len r)⁻¹) • ((len r)⁻¹ • r) = x.sbases.mulVec ⟨f0.x, f0.y, (K k : ℝ) / 2⟩ := by
    intro k
    have e1 := snapPlane_point H.voxel H.strain H.det (hf0 ▸ a14)
    rw [a15] at e1
    have c0 : ∀ t, snapCoord "floor" 0 t = t := fun t => by simp [snapCoord]
    simp only [c0] at e1
    have e3 := a12
    rw [e1, hh, div_eq_mul_inv] at e3
    have e4 := mul_right_cancel₀ (inv_ne_zero h0.ne') e3
    simp only at e4
    have e5 : snapCoord "floor" 2 f0.z = Ss / 2 := by linarith
    rw [e5] at e1
    have e6 : ((X k : ℝ) * (len r)⁻¹) • ((len r)⁻¹ • r) = ((X k : ℝ) / 2) • x.sbases.mulVec ⟨0, 0, 1⟩ := by
      rw [hax]; ext <;> simp only [V3.smul_x, V3.smul_y, V3.smul_z] <;> ring
    rw [e1, e6, ← M3.mulVec_smul, ← M3.mulVec_add, a11]
    congr 1
    ext <;> simp
    ring
  have hin : ∀ k, k < p.N.toNat → |(x.sbases.mulVec ⟨f0.x, f0.y, (K k : ℝ) / 2⟩).x| ≤ 3 * (M + (len r)⁻¹) ∧
      |(x.sbases.mulVec ⟨f0.x, f0.y, (K k : ℝ) / 2⟩).y| ≤ 3 * (M + (len r)⁻¹) ∧ |(x.sbases.mulVec ⟨f0.x, f0.y, (K k : ℝ) / 2⟩).z| ≤ 3 * (M + (len r)⁻¹) := by
    intro k hk
    have e : x.sbases.mulVec ⟨f0.x, f0.y, (K k : ℝ) / 2⟩ = (sphereSpan n0 v.algs se).1 +
        ((K k : ℝ) * (len r)⁻¹ - height ((len r)⁻¹ • r) (sphereSpan n0 v.algs se).1) • ((len r)⁻¹ • r) := by
      have e6 : ((K k : ℝ) * (len r)⁻¹ - 2 * f0.z * (len r)⁻¹) • ((len r)⁻¹ • r) = ((K k : ℝ) / 2 - f0.z) • x.sbases.mulVec ⟨0, 0, 1⟩ := by
        rw [hax]; ext <;> simp only [V3.smul_x, V3.smul_y, V3.smul_z] <;> ring
      conv_rhs => rw [hf0, hh, e6, ← M3.mulVec_smul, ← M3.mulVec_add]
      congr 1
      ext <;> simp
    obtain ⟨c1, c2, c3⟩ := len_comp m1
    have cn := len_comp (q := (len r)⁻¹ • r) (M := 1) (by rw [len_eq, e2])
    have hk5 := a5 k hk
    -- distance along the normal
    have hsq : ∀ q : V3 ℝ, |height ((len r)⁻¹ • r) q| ≤ len q := by
      intro q
      have hn : ((len r)⁻¹ • r).normSq = 1 := norm3_eq_one.mp e2
      generalize (len r)⁻¹ • r = n at hn
      rw [len_eq]
      refine Real.abs_le_sqrt ?_
      have e : q.normSq = n.normSq * q.normSq := by rw [hn, one_mul]
      rw [e]
      simp only [height, V3.normSq, V3.dot]
      nlinarith [sq_nonneg (n.x * q.y - n.y * q.x), sq_nonneg (n.x * q.z - n.z * q.x), sq_nonneg (n.y * q.z - n.z * q.y)]
    have s1 := le_trans (hsq _) m1
    have s2 := le_trans (hsq _) m2
    generalize hHs : height ((len r)⁻¹ • r) (sphereSpan n0 v.algs se).1 = Hs at *
    generalize height ((len r)⁻¹ • r) (sphereSpan n0 v.algs se).2 = He at *
    have hdist : |(K k : ℝ) * (len r)⁻¹ - Hs| ≤ 2 * M + 3 * (len r)⁻¹ := by
      have b1 : (Ss : ℝ) ≤ K k := by exact_mod_cast (by omega : Ss ≤ K k)
      have b2 : (K k : ℝ) ≤ Ss + |(Se : ℝ) - Ss| := by
        have : K k ≤ Ss + |Se - Ss| := by omega
        exact_mod_cast this
      rw [abs_lt] at a3 a4
      rw [abs_le] at s1 s2
      push_cast at a3 a4
      have hLM : len r * (-M) ≤ len r * Hs ∧ len r * Hs ≤ len r * M := ⟨by nlinarith, by nlinarith⟩
      have hLM' : len r * (-M) ≤ len r * He ∧ len r * He ≤ len r * M := ⟨by nlinarith, by nlinarith⟩
      have b3 : |(Se : ℝ) - Ss| ≤ 2 * (len r * M) + 2 := by rw [abs_le]; constructor <;> linarith
      have b4 : |(K k : ℝ) - len r * Hs| ≤ 2 * (len r * M) + 3 := by
        rw [abs_le]; constructor
        · have : 0 ≤ len r * M := by positivity
          linarith
        · linarith
      have : (K k : ℝ) * (len r)⁻¹ - Hs = ((K k : ℝ) - len r * Hs) * (len r)⁻¹ := by field_simp
      rw [this, abs_mul, abs_of_pos (inv_pos.mpr h0)]
      calc _ ≤ (2 * (len r * M) + 3) * (len r)⁻¹ := mul_le_mul_of_nonneg_right b4 (inv_pos.mpr h0).le
        _ = _ := by field_simp
    have hcomp : ∀ a c : ℝ, |a| ≤ M → |c| ≤ 1 → |a + ((K k : ℝ) * (len r)⁻¹ - Hs) * c| ≤ 3 * (M + (len r)⁻¹) := by
      intro a c ha hc'
      refine le_trans (abs_add_le _ _) ?_
      rw [abs_mul]
      have := mul_le_mul hdist hc' (abs_nonneg c) (by positivity)
      linarith
    rw [e]
    exact ⟨hcomp _ _ c1 cn.1, hcomp _ _ c2 cn.2.1, hcomp _ _ c3 cn.2.2⟩
  -- the displacements
  have hdis : ∀ k, k < p.N.toNat → ∃ b : ℕ, (b = 1 ∨ b = 2) ∧ (b = 2 ↔ K k % 2 = 0) ∧
      Displaced (((-1) ^ k : ℝ) • x.sbases.mulVec ⟨(b : ℝ) / 3, -(b : ℝ) / 3, 0⟩ + x.sbases.mulVec ⟨0, 0, -1 / 2⟩) (gs k) (gs (k + 1)) := by
    intro k hk
    obtain ⟨b, hb, ⟨p1, p2, s1, s2, hb2⟩, hD⟩ := w2 k hk
    obtain ⟨⟨y, y1, y2, y3⟩, y4, -⟩ := w1 k hk.le
    rw [cart_eq, add_zero, cart_eq, add_zero] at hD
    refine ⟨b, hb, hb2.trans ?_, hD⟩
    simp only [rung, hpt] at s1 s2
    rw [← y3] at s1 s2
    refine parity_test (f := ⟨f0.x, f0.y, (K k : ℝ) / 2⟩) (K := K k) y1 (y4.trans H.strain) (by rw [y3]; exact H.det) (mul_div_cancel₀ _ two_ne_zero) s1 s2 (T := 3 * (M + (len r)⁻¹)) (by positivity) ?_ ?_
    · rw [y3]; exact hin k hk
    · rw [y3]
      rw [hlen] at hfar ⊢
      linarith
  have hhz : ∀ (k b : ℕ), height ((len r)⁻¹ • r) (((-1) ^ k : ℝ) • x.sbases.mulVec ⟨(b : ℝ) / 3, -(b : ℝ) / 3, 0⟩ + x.sbases.mulVec ⟨0, 0, -1 / 2⟩) =
      ((-1 : ℤ) : ℝ) * (len r)⁻¹ := by
    intro k b
    rw [height_add, height_smul, hh, hh]; push_cast; ring
  have hlat : ∀ (k b : ℕ), ((-1) ^ k : ℝ) • x.sbases.mulVec ⟨(b : ℝ) / 3, -(b : ℝ) / 3, 0⟩ + x.sbases.mulVec ⟨0, 0, -1 / 2⟩ -
      (((-1 : ℤ) : ℝ) * (len r)⁻¹) • ((len r)⁻¹ • r) = x.sbases.mulVec ⟨(((-1) ^ k * b : ℤ) : ℝ) / 3, -(((-1) ^ k * b : ℤ) : ℝ) / 3, 0⟩ := by
    intro k b
    have e1 : x.sbases.mulVec ⟨0, 0, -1 / 2⟩ = (-1 / 2 : ℝ) • x.sbases.mulVec ⟨0, 0, 1⟩ := by
      rw [← M3.mulVec_smul]; congr 1; ext <;> simp
    have e2 : x.sbases.mulVec ⟨(((-1) ^ k * b : ℤ) : ℝ) / 3, -(((-1) ^ k * b : ℤ) : ℝ) / 3, 0⟩ = ((-1) ^ k : ℝ) • x.sbases.mulVec ⟨(b : ℝ) / 3, -(b : ℝ) / 3, 0⟩ := by
      rw [← M3.mulVec_smul]; congr 1; ext <;> simp only [V3.smul_x, V3.smul_y, V3.smul_z] <;> push_cast <;> ring
    rw [e1, e2, hax]
    push_cast
    ext <;> simp <;> ring
  have hstep : ∀ (k b : ℕ), Displaced (((-1) ^ k : ℝ) • x.sbases.mulVec ⟨(b : ℝ) / 3, -(b : ℝ) / 3, 0⟩ + x.sbases.mulVec ⟨0, 0, -1 / 2⟩) (gs k) (gs (k + 1)) →
      ∀ (c j : ℤ), Lateral ((len r)⁻¹ • r) (len r)⁻¹ (gs k) Z (j + 1) = hexLayer x.sbases c →
      Lateral ((len r)⁻¹ • r) (len r)⁻¹ (gs (k + 1)) Z j = hexLayer x.sbases (c + (-1) ^ k * b) := by
    intro k b hD c j hj
    rw [lateral_displaced hD Z (-1) (hhz k b), sub_neg_eq_add, hj, hhz, hlat, hexLayer_shift]
  have hst : ∀ k, k ≤ p.N.toNat → ∃ c : ℤ, Layers ((len r)⁻¹ • r) (len r)⁻¹ (gs k) Z ∧
      ∀ j, Lateral ((len r)⁻¹ • r) (len r)⁻¹ (gs k) Z j = hexLayer x.sbases ((j + k) % 2 + c) := by
    intro k
    induction k with
    | zero => intro _; rw [a9]; exact ⟨0, l1, fun j => by rw [l2]; simp⟩
    | succ k ih =>
      intro hk
      obtain ⟨c, i1, i2⟩ := ih (by omega)
      obtain ⟨b, -, -, hD⟩ := hdis k (by omega)
      refine ⟨c + (-1) ^ k * b, layers_displaced hD Z (-1) (hhz k b) i1, fun j => ?_⟩
      rw [hstep k b hD _ j (i2 (j + 1))]
      congr 1
      push_cast
      rw [show j + 1 + (k : ℤ) = j + (k + 1) by ring]
      ring
  refine ⟨(len r)⁻¹ • r, (len r)⁻¹, K, ws, gs, inv_pos.mpr h0, hax, by rw [len_eq, e2], a7, a6, a9, ?_, ?_⟩
  · intro k hk
    obtain ⟨c, i1, i2⟩ := hst k hk
    refine ⟨(a8 k hk).1, i1, fun j => ?_, fun q => ?_⟩
    · rw [i2, i2, i2]
      refine ⟨hexLayer_nonempty _ _, ?_, ?_⟩
      · rw [Ne, hexLayer_eq_iff H.det]; omega
      · rw [hexLayer_eq_iff H.det]; omega
    · rw [(a8 k hk).2]
      simp only [div_eq_mul_inv]
  · intro k hk
    obtain ⟨c, i1, i2⟩ := hst k hk.le
    obtain ⟨b, hb, hb2, hD⟩ := hdis k hk
    have s1 := hstep k b hD _ (K k) (i2 _)
    have s2 := hstep k b hD _ (K k - 1) (i2 _)
    rw [s1, s2, i2, i2, Ne, hexLayer_eq_iff H.det, hexLayer_eq_iff H.det]
    have hk2 : ((-1) ^ k = (1 : ℤ) ∧ (k : ℤ) % 2 = 0) ∨ ((-1) ^ k = (-1 : ℤ) ∧ (k : ℤ) % 2 = 1) := by
      rcases Nat.even_or_odd k with he | ho
      · left; exact ⟨he.neg_one_pow, by obtain ⟨m, rfl⟩ := he; push_cast; omega⟩
      · right; exact ⟨ho.neg_one_pow, by obtain ⟨m, rfl⟩ := ho; push_cast; omega⟩
    rcases hk2 with ⟨e, e'⟩ | ⟨e, e'⟩ <;> rw [e] <;> rcases hb with rfl | rfl <;> simp at hb2 <;> constructor <;> push_cast <;> omega

/-! ## A hexagonal crystal -/

/-- A hexagonal cell with a = 1 and c = 2, as taken over by the code from `lattice.matrix`. -/
def hexCell : M3 ℝ := ⟨1, 0, 0, -1 / 2, √3 / 2, 0, 0, 0, 2⟩

def hexStruct : Struct ℝ := ⟨hexCell, [(⟨1 / 3, 2 / 3, 0⟩, 30), (⟨2 / 3, 1 / 3, 1 / 2⟩, 30)]⟩

def hexGen : Gen ℝ := ⟨some hexStruct, some ⟨hexCell, .scalar 1, 0⟩, none, none⟩

def hexWurtzite : Wurtzite := ⟨some hexGen, some (.vol (ball 0 10)), 2, 3⟩

theorem hex_sbases : (⟨hexCell, .scalar 1, 0⟩ : Voxel ℝ).sbases = hexCell := by
  unfold Voxel.sbases; simp [M3.smul_def]

theorem hex_regular : Regular hexGen ⟨hexCell, .scalar 1, 0⟩ hexStruct ⟨0, 0, 2⟩ ⟨0, 0, 1⟩ where
  voxel := rfl
  struct := rfl
  strain := rfl
  det := by rw [hex_sbases]; simp [hexCell, M3.det]
  lattice := by simp [hexStruct, hexCell, M3.det]
  recip := by
    rw [hex_sbases]; intro f; rw [cart_eq, add_zero]; simp [miller, hexCell, M3.mulVec]
  length := by rw [len_e3]; exact machEps_lt_one
  spacing := ⟨⟨0, 0, 1⟩, by
    intro f
    rw [cart_eq, add_zero]; simp [miller, hexStruct, hexCell, M3.mulVec, M3.transpose], rfl⟩

/-- Concrete case of C70, C90 and C94: two faults in a ball of radius 10. -/
example (env : Env) : ∃ split fuel t, hexWurtzite.build env split fuel = some (.ok t) ∧
    ∃ (n : V3 ℝ) (d : ℝ) (K : ℕ → ℤ) (gs : ℕ → Gen ℝ), gs 0 = hexGen ∧ (∀ k, k ≤ 2 → HexStack (Lateral n d (gs k) 30)) ∧ K 1 + 3 ≤ K 0 ∧
      Lateral n d (gs 1) 30 (K 0) = Lateral n d (gs 0) 30 (K 0) ∧ Lateral n d (gs 1) 30 (K 0 - 1) ≠ Lateral n d (gs 0) 30 (K 0 + 1) := by
  have H := hex_regular
  have hi := ball_intact env 0 10
  have h2 : (0 : ℤ) ≤ hexWurtzite.N := by show (0 : ℤ) ≤ 2; norm_num
  have h3 : (0 : ℤ) ≤ hexWurtzite.minSep := by show (0 : ℤ) ≤ 3; norm_num
  have s3 : √3 ≠ 0 := by simp
  obtain ⟨-, split, fuel, t, ht⟩ := C90_wurtzite_returns_partial env hexWurtzite _ _ _ _ _ rfl rfl H (by rw [len_e3]; norm_num [machEps]) trivial hi h2 h3
    ⟨⟨1, 0, 0, 1 / √3, 2 / √3, 0, 0, 0, 1 / 2⟩, 1, by
      rw [hex_sbases]; ext <;> simp [hexCell, M3.mul_def, M3.one_def] <;> field_simp <;> norm_num, one_pos, by
      rw [cart_eq, add_zero]; ext <;> simp [M3.mulVec]⟩ (-10) 10 (ball_range env 0 (by norm_num) _) (by
      rw [len_e3]
      show (((2 + 1) * 3 + 1 : ℤ) : ℝ) ≤ _
      norm_num)
  refine ⟨split, fuel, t, ht, ?_⟩
  have hc : len (cart (⟨hexCell, .scalar 1, 0⟩ : Voxel ℝ).sbases 0 ⟨0, 0, 1⟩) = 2 := by
    rw [hex_sbases, cart_eq, add_zero]
    simp only [hexCell, M3.mulVec, len]
    norm_num
    rw [show (4 : ℝ) = 2 ^ 2 by norm_num]
    exact Real.sqrt_sq (by norm_num)
  obtain ⟨n, d, K, ws, gs, -, -, -, -, k1, k2, k3, k4⟩ := C94_wurtzite_stacking env hexWurtzite _ _ _ _ _ 30 rfl rfl H trivial
    (by intro u w; rw [hex_sbases, cart_eq, cart_eq, add_zero, add_zero]; simp [Perp, hexCell, M3.mulVec])
    (by intro f; simp [hexStruct, V3.ext_iff]) ⟨0, 0, 0⟩
    (by rw [hex_sbases, cart_eq, add_zero]; ext <;> simp [hexCell, M3.mulVec]) hi h2 h3 10
    ⟨by
      intro s hs
      obtain rfl : s = ⟨10, 0, 1 / 10 ^ 5⟩ := by simpa [ball] using hs
      norm_num, fun hno => absurd (List.mem_singleton.mpr rfl) (hno ⟨10, 0, 1 / 10 ^ 5⟩)⟩ (by rw [hc]; norm_num) _ _ _ ht
  have hN : hexWurtzite.N.toNat = 2 := rfl
  rw [hN] at k1 k3 k4
  exact ⟨n, d, K, gs, k2, fun k hk => (k3 k hk).2.2.1, k1 0 1 (by norm_num) (by norm_num), k4 0 (by norm_num)⟩

/-- Concrete case of the limit: from the plane through (0, 0, 100001) on, which is an odd one, the fault vector is that of the even planes. -/
example : ∃ e, wurtziteDefect 0 (.ok ⟨⟨0, 0, 1⟩, ⟨0, 0, 100001⟩, 0⟩) hexGen 1 = .ok e ∧
    e.1 = .translation (cart hexCell 0 ⟨2 / 3, -2 / 3, 0⟩) true false := by
  have hs := hex_sbases
  have hd := hex_regular.det
  obtain ⟨e, g', h, -, -⟩ := wurtziteDefect_ok hd (by simp [hexCell, M3.det] : hexCell.det ≠ 0) hex_regular.recip
    (by rw [← len_eq, len_e3]; norm_num [machEps]) 0 ⟨⟨0, 0, 1⟩, ⟨0, 0, 100001⟩, 0⟩ (g := hexGen) 1 ⟨rfl, _, rfl, rfl, rfl⟩
  refine ⟨e, h, ?_⟩
  obtain ⟨b, -, e1, e2⟩ := C94_fault_vector hexGen _ rfl rfl hd 0 _ ⟨0, 0, 100001 / 2⟩ 100001
    (by rw [hs, cart_eq, add_zero]; ext <;> simp [hexCell, M3.mulVec]; norm_num) (by norm_num) 1 e h
  rw [e1, e2.mpr (.inr ?_), hs]
  · norm_num
  · rw [hs, cart_eq, add_zero]
    simp only [hexCell, M3.mulVec]
    norm_num

end Prefab

end
end CZ
