import Verif.Props.PrefabReturns

/-!
# Cubic cells, concrete cases of C69, C70, C87, C88, C90, and refutations
-/

namespace CZ
open Spec

noncomputable section
open Classical

namespace Prefab

theorem cubic_det {a : ℝ} {B : M3 ℝ} (h : CubicCell a B) : B.det ≠ 0 := by
  intro hd
  have h2 := congrArg M3.det h.2.2
  rw [M3.det_mul, hd, mul_zero] at h2
  have : ((a ^ 2) • (1 : M3 ℝ)).det = (a ^ 2) ^ 3 := by simp only [M3.det, M3.smul_def, M3.one_def]; ring
  rw [this] at h2
  have := pow_pos (pow_pos h.1 2) 3
  linarith

theorem cubic_dot {a : ℝ} {B : M3 ℝ} (h : CubicCell a B) (u v : V3 ℝ) : (B.mulVec u).dot (B.mulVec v) = a ^ 2 * u.dot v := by
  rw [M3.dot_mulVec, ← M3.mulVec_mul, h.2.2]
  simp only [V3.dot, M3.mulVec, M3.smul_def, M3.one_def]; ring

theorem cubic_transpose {a : ℝ} {B : M3 ℝ} (h : CubicCell a B) : CubicCell a B.transpose := ⟨h.1, h.2.2, h.2.1⟩

theorem cubic_reciprocal {a : ℝ} {B : M3 ℝ} (hB : CubicCell a B) (h : V3 ℤ) : IsReciprocal B h ((a ^ 2)⁻¹ • B.mulVec (millerV h)) := by
  intro f
  rw [cart_eq, add_zero]
  have e := cubic_dot hB f (millerV h)
  have ha : a ^ 2 ≠ 0 := (pow_pos hB.1 2).ne'
  have : (B.mulVec f).dot ((a ^ 2)⁻¹ • B.mulVec (millerV h)) = f.dot (millerV h) := by
    rw [show (B.mulVec f).dot ((a ^ 2)⁻¹ • B.mulVec (millerV h)) = (a ^ 2)⁻¹ * (B.mulVec f).dot (B.mulVec (millerV h)) by
      simp only [V3.dot, V3.smul_x, V3.smul_y, V3.smul_z]; ring, e, inv_mul_cancel_left₀ ha]
  refine Eq.trans this ?_
  simp only [V3.dot, millerV, miller]; ring

theorem cubic_len {a : ℝ} {B : M3 ℝ} (hB : CubicCell a B) (w : V3 ℝ) : len ((a ^ 2)⁻¹ • B.mulVec w) = norm3 w / a := by
  have ha := hB.1
  have h1 : norm3 (B.mulVec w) = a * norm3 w := by
    have h2 := cubic_dot hB w w
    have e1 := norm3_sq (B.mulVec w)
    have e2 := norm3_sq w
    rw [dot_self, dot_self] at h2
    have h3 : norm3 (B.mulVec w) ^ 2 = (a * norm3 w) ^ 2 := by rw [mul_pow, e1, e2, h2]
    exact (pow_left_inj₀ (norm3_nonneg _) (mul_nonneg ha.le (norm3_nonneg _)) (by norm_num)).mp h3
  rw [len_eq, norm3_smul, h1, abs_of_pos (by positivity)]
  field_simp

/-- Every plane family of a cubic crystal is regular, and its normal is along [hkl]. -/
theorem regular_cubic {g : Gen ℝ} {x : Voxel ℝ} {s : Struct ℝ} (hv : g.voxel = some x) (hst : g.struct = some s) (hn : g.strain = none) {a : ℝ}
    (hB : CubicCell a x.sbases) (hL : CubicCell a s.latticeMatrix) {h : V3 ℤ} (h0 : machEps * a < norm3 (millerV h)) :
    Regular g x s h ((a ^ 2)⁻¹ • x.sbases.mulVec (millerV h)) where
  voxel := hv
  struct := hst
  strain := hn
  det := cubic_det hB
  lattice := cubic_det hL
  recip := cubic_reciprocal hB h
  length := by rw [cubic_len hB, lt_div_iff₀ hB.1]; exact h0
  spacing := ⟨_, cubic_reciprocal (cubic_transpose hL) h, by rw [cubic_len hB, cubic_len (cubic_transpose hL)]⟩

theorem cubic_dir {x : Voxel ℝ} {c a : ℝ} (hc : 0 < c) (hs : x.scale = .scalar c) (hB : CubicCell a x.sbases) (h : V3 ℤ) :
    ∃ e : ℝ, 0 < e ∧ cart x.bases 0 ⟨(h.x : ℝ), (h.y : ℝ), (h.z : ℝ)⟩ = e • ((a ^ 2)⁻¹ • x.sbases.mulVec (millerV h)) := by
  have ha := hB.1
  refine ⟨c⁻¹ * a ^ 2, by positivity, ?_⟩
  have : x.sbases = c • x.bases := by unfold Voxel.sbases; rw [hs]
  rw [cart_eq, add_zero, this, smul_smul, mul_assoc, mul_inv_cancel₀ (by positivity), mul_one]
  unfold millerV
  ext <;> simp only [M3.mulVec, M3.smul_def, V3.smul_x, V3.smul_y, V3.smul_z] <;> field_simp

/-- **C90 (fcc, cubic).** For an unstrained cubic crystal in any orientation (the only sphere or the box of the volume reaching from
height `lo` to `hi` along [hkl]): if the range has room for (N+1)·min_sep planes and five more, `build_object` never raises and can
return; its defects lie on planes of the family at least `min_sep` apart and inside the range. -/
theorem C90_cubic_partial (env : Env) (p : Fcc) (g : Gen ℝ) (v : Vol) (x : Voxel ℝ) (s : Struct ℝ) (a c : ℝ) (hg : p.gen = some g)
    (hv : p.vol = some (.vol v)) (hx : g.voxel = some x) (hst : g.struct = some s) (hn : g.strain = none) (hc : 0 < c) (hsc : x.scale = .scalar c)
    (hB : CubicCell a x.sbases) (hL : CubicCell a s.latticeMatrix) (h0 : machEps * a < len (millerV p.plane))
    (hi : Intact env v) (hN : 0 ≤ p.N) (hm : nonzeros p.plane ≤ p.minSep) (lo hi' : ℝ)
    (hr : SearchRange env v ((len (cart x.sbases 0 (millerV p.plane)))⁻¹ • cart x.sbases 0 (millerV p.plane)) lo hi')
    (room : ((p.N + 1) * p.minSep + 2 * nonzeros p.plane - 1 : ℤ) * a ≤ len (millerV p.plane) * (hi' - lo)) :
    (∀ split fuel rand e, p.build env split fuel rand ≠ some (.error e)) ∧
      ∃ split fuel, ∀ rand, ∃ t tw sf, p.build env split fuel rand = some (.ok (t, tw, sf)) ∧
        CutsBetween env v ((len (cart x.sbases 0 (millerV p.plane)))⁻¹ • cart x.sbases 0 (millerV p.plane)) lo hi' p.N.toNat t := by
  have ha := hB.1
  rw [len_eq] at h0
  have H := regular_cubic hx hst hn hB hL h0
  have hdir := cubic_dir hc hsc hB p.plane
  have hunit : (len (cart x.sbases 0 (millerV p.plane)))⁻¹ • cart x.sbases 0 (millerV p.plane) =
      (len ((a ^ 2)⁻¹ • x.sbases.mulVec (millerV p.plane)))⁻¹ • ((a ^ 2)⁻¹ • x.sbases.mulVec (millerV p.plane)) := by
    rw [cart_eq, add_zero, len_eq, len_eq, norm3_smul, abs_of_pos (by positivity), smul_smul]
    congr 1
    field_simp
  rw [hunit] at hr ⊢
  have hm0 : 0 ≤ p.minSep := by
    refine le_trans ?_ hm
    unfold nonzeros; split_ifs <;> norm_num
  obtain ⟨h1, split, fuel, h2⟩ := C90_fcc_returns_partial env p g v x s _ hg hv H (by rw [hsc]; trivial) hi hN hm0 hdir lo hi' hr (by
    rw [cubic_len hB, ← len_eq, div_mul_eq_mul_div, le_div_iff₀ ha]; exact room)
  refine ⟨h1, split, fuel, fun rand => ?_⟩
  obtain ⟨t, tw, sf, h3⟩ := h2 rand
  exact ⟨t, tw, sf, h3, C88_fcc_partial env p g v x s _ hg hv H hi hN hm hdir lo hi' hr split fuel rand t tw sf h3⟩

/-! ## Concrete objects -/

/-- A simple cubic crystal of unit cells with origin `o`. -/
def unitGen (o : V3 ℝ) : Gen ℝ := ⟨some ⟨1, [(0, 6)]⟩, some ⟨1, .scalar 1, o⟩, none, none⟩

/-- A Volume bounded by one sphere. -/
def ball (c : V3 ℝ) (r : ℝ) : Vol := ⟨none, none, none, [.sphere ⟨r, c, 1 / 10 ^ 5⟩], none, 0, 1 / 10 ^ 10, none, none⟩

/-- fccMixedTwinSF on the planes (001). -/
def unitFcc (o c : V3 ℝ) (r : ℝ) (N m : ℤ) : Fcc := ⟨some (unitGen o), some (.vol (ball c r)), 1 / 2, N, m, ⟨0, 0, 1⟩⟩

theorem len_e3 : len (⟨0, 0, 1⟩ : V3 ℝ) = 1 := by simp [len]

theorem unit_e3 : (len (⟨0, 0, 1⟩ : V3 ℝ))⁻¹ • (⟨0, 0, 1⟩ : V3 ℝ) = ⟨0, 0, 1⟩ := by rw [len_e3, inv_one, one_smul]

theorem unit_sbases (o : V3 ℝ) : (⟨1, .scalar 1, o⟩ : Voxel ℝ).sbases = 1 := by
  unfold Voxel.sbases; simp [M3.smul_def, M3.one_def]

theorem unit_regular (o : V3 ℝ) : Regular (unitGen o) ⟨1, .scalar 1, o⟩ ⟨1, [(0, 6)]⟩ ⟨0, 0, 1⟩ ⟨0, 0, 1⟩ where
  voxel := rfl
  struct := rfl
  strain := rfl
  det := by rw [unit_sbases, M3.det_one]; norm_num
  lattice := by rw [M3.det_one]; norm_num
  recip := by
    rw [unit_sbases]; intro f; rw [cart_eq, add_zero, M3.mulVec_one]; simp [miller]
  length := by rw [len_e3]; exact machEps_lt_one
  spacing := ⟨⟨0, 0, 1⟩, by
    intro f
    show _ = _
    rw [show (⟨1, [(0, 6)]⟩ : Struct ℝ).latticeMatrix.transpose = 1 from rfl, cart_eq, add_zero, M3.mulVec_one]; simp [miller], rfl⟩

theorem ball_intact (env : Env) (c : V3 ℝ) (r : ℝ) : Intact env (ball c r) := ⟨rfl, .inl ⟨rfl, rfl⟩⟩

theorem ball_range (env : Env) (c : V3 ℝ) {r : ℝ} (hr : 0 < r) (n : V3 ℝ) : SearchRange env (ball c r) n (-r) r :=
  .inr ⟨c, _, rfl, rfl, hr, rfl⟩

theorem unit_dir_e3 (o : V3 ℝ) : ∃ c : ℝ, 0 < c ∧
    cart (⟨1, .scalar 1, o⟩ : Voxel ℝ).bases 0 ⟨((0 : ℤ) : ℝ), ((0 : ℤ) : ℝ), ((1 : ℤ) : ℝ)⟩ = c • (⟨0, 0, 1⟩ : V3 ℝ) :=
  ⟨1, one_pos, by rw [cart_eq, add_zero, M3.mulVec_one]; simp⟩

/-- Runs exist when there is room. -/
theorem unit_returns (env : Env) (o c : V3 ℝ) {r : ℝ} (hr : 0 < r) {N m : ℤ} (hN : 0 ≤ N) (hm : 0 ≤ m) (room : (((N + 1) * m + 1 : ℤ) : ℝ) ≤ 2 * r) :
    ∃ split fuel, ∀ rand, ∃ t tw sf, (unitFcc o c r N m).build env split fuel rand = some (.ok (t, tw, sf)) :=
  (C90_fcc_returns_partial env (unitFcc o c r N m) _ _ _ _ _ rfl rfl (unit_regular o) trivial (ball_intact env c r) hN hm (unit_dir_e3 o) (-r) r
    (ball_range env c hr _) (by
      rw [len_e3]
      show (((N + 1) * m + 2 * 1 - 1 : ℤ) : ℝ) ≤ _
      push_cast at room ⊢
      linarith)).2

/-- Concrete case of C69, C70, C87, C88, C90: two defects in a ball of radius 10. -/
example (env : Env) : ∃ split fuel, ∀ rand, ∃ t tw sf, (unitFcc 0 0 10 2 3).build env split fuel rand = some (.ok (t, tw, sf)) ∧
    Layered env (ball 0 10) 2 t ∧ FamilyLayers env (ball 0 10) ⟨1, .scalar 1, 0⟩ ⟨0, 0, 1⟩ ⟨0, 0, 1⟩ 2 3 t ∧
    CutsBetween env (ball 0 10) ((len ⟨0, 0, 1⟩)⁻¹ • ⟨0, 0, 1⟩) (-10) 10 2 t := by
  obtain ⟨split, fuel, h⟩ := unit_returns env 0 0 (r := 10) (N := 2) (m := 3) (by norm_num) (by norm_num) (by norm_num) (by norm_num)
  refine ⟨split, fuel, fun rand => ?_⟩
  obtain ⟨t, tw, sf, ht⟩ := h rand
  refine ⟨t, tw, sf, ht, ?_, ?_, ?_⟩
  · exact C69_fcc_layers env _ _ rfl (ball_intact env 0 10) (by show (0 : ℤ) ≤ 2; norm_num) (by show (0 : ℤ) ≤ 3; norm_num) _ _ _ _ _ _ ht
  · exact C87_fcc_partial env _ _ _ _ _ _ rfl rfl (unit_regular 0) (ball_intact env 0 10) (by show (0 : ℤ) ≤ 2; norm_num)
      (by show (0 : ℤ) ≤ 3; norm_num) ⟨0, 0, 0⟩ (by rw [cart_eq, add_zero, unit_sbases, M3.mulVec_one]; simp; rfl) _ _ _ _ _ _ ht
  · exact C88_fcc_partial env _ _ _ _ _ _ rfl rfl (unit_regular 0) (ball_intact env 0 10) (by show (0 : ℤ) ≤ 2; norm_num)
      (by show nonzeros ⟨0, 0, 1⟩ ≤ 3; simp [nonzeros]) (unit_dir_e3 0) _ _ (ball_range env 0 (by norm_num) _) _ _ _ _ _ _ ht

/-! ## C90: no result -/

/-- **C90, finding.** A ball of radius 4 Å of a cubic crystal with cell 1 Å, two defects, minimum separation 3: the nine planes (001) have no
room for two defects, and `build_object` neither returns nor raises, whatever the random numbers. -/
theorem C90_refuted (env : Env) (split : ℕ → ℕ) (fuel : ℕ) (rand : ℕ → ℝ) : (unitFcc 0 0 4 2 3).build env split fuel rand = none := by
  have H := unit_regular 0
  obtain ⟨-, ⟨b, se, hb, hse⟩, hr⟩ := range_spec (n := ⟨0, 0, 1⟩) (by rw [← len_eq, len_e3]) (ball_range env 0 (r := 4) (by norm_num) ⟨0, 0, 1⟩)
  obtain ⟨r1, r2⟩ := hr b se hb hse
  obtain ⟨q0, Ss, Se, k1, -, k3, k4⟩ := candidates_regular H hb hse
  rw [unit_e3] at k1 k3 k4
  rw [r1, len_e3, show nonzeros ⟨0, 0, 1⟩ = 1 from by simp [nonzeros], abs_lt] at k3
  rw [r2, len_e3, show nonzeros ⟨0, 0, 1⟩ = 1 from by simp [nonzeros], abs_lt] at k4
  have e1 : Ss = -4 := by
    have h1 : (-5 : ℝ) < (Ss : ℤ) := by push_cast at k3; linarith
    have h2 : ((Ss : ℤ) : ℝ) < -3 := by push_cast at k3; linarith
    have h1' : -5 < Ss := by exact_mod_cast h1
    have h2' : Ss < -3 := by exact_mod_cast h2
    omega
  have e2 : Se = 4 := by
    have h1 : (3 : ℝ) < (Se : ℤ) := by push_cast at k4; linarith
    have h2 : ((Se : ℤ) : ℝ) < 5 := by push_cast at k4; linarith
    have h1' : 3 < Se := by exact_mod_cast h1
    have h2' : Se < 5 := by exact_mod_cast h2
    omega
  subst e1 e2
  have hn : unitOrNan ((1 : M3 ℝ).mulVec (millerV ⟨0, 0, 1⟩)) = .ok ⟨0, 0, 1⟩ := by
    have := (unit_dir (r := ⟨0, 0, 1⟩) (w := (1 : M3 ℝ).mulVec (millerV ⟨0, 0, 1⟩)) (by rw [len_e3]; norm_num) one_pos (by
      rw [M3.mulVec_one, one_smul]; simp [millerV])).1
    rwa [unit_e3] at this
  unfold Fcc.build
  simp only [unitFcc, H.voxel, hn, k1]
  rw [Splits.C56_never_returns 2 3 _ (by norm_num) (by norm_num) (by simp)]

/-! ## C87: other origins -/

/-- The height of the only plane is determined by what the grains own. -/
theorem cut_unique {env : Env} {n : V3 ℝ} (hn : norm3 n = 1) {r : ℝ} {c c' : ℕ → ℝ} {ws ws' : ℕ → Vol} (h1 : -r < c 0) (h2 : c 0 + 1 / 10 ^ 5 < r)
    (ht : VTree.multi ((List.range (1 + 1)).map fun k => .vol (ws k)) 0 none = .multi ((List.range (1 + 1)).map fun k => .vol (ws' k)) 0 none)
    (ho : ∀ q, Owns env ws (1 + 1) 1 q ↔ Inside env (.vol (ball 0 r)) q ∧ InLayer n c (1 / 10 ^ 5) 1 1 q)
    (ho' : ∀ q, Owns env ws' (1 + 1) 1 q ↔ Inside env (.vol (ball 0 r)) q ∧ InLayer n c' (1 / 10 ^ 5) 1 1 q) : c' 0 = c 0 := by
  have e : ws 0 = ws' 0 ∧ ws 1 = ws' 1 := by
    simp only [List.range_succ, List.range_zero, List.nil_append, List.map_cons, List.map_nil, VTree.multi.injEq, List.cons_append,
      List.cons.injEq, VTree.vol.injEq, and_true] at ht
    exact ht
  have howns : ∀ q, Owns env ws (1 + 1) 1 q ↔ Owns env ws' (1 + 1) 1 q := by
    intro q
    unfold Owns
    rw [e.2]
    refine and_congr_right fun _ => ?_
    constructor
    · intro h j hj hne
      obtain rfl : j = 0 := by omega
      have := h 0 hj hne
      rwa [e.1] at this
    · intro h j hj hne
      obtain rfl : j = 0 := by omega
      have := h 0 hj hne
      rwa [← e.1] at this
  have hin : ∀ s : ℝ, |s| < r → Inside env (.vol (ball 0 r)) (s • n) := by
    intro s hs
    refine .vol _ _ (fun t ht => by cases ht) ?_
    intro a ha
    obtain rfl : a = .sphere ⟨r, 0, 1 / 10 ^ 5⟩ := by simpa [ball] using ha
    show decide _ = true
    rw [decide_eq_true_iff]
    have hn1 : n.normSq = 1 := norm3_eq_one.mp hn
    have : (s • n - 0).normSq = s ^ 2 := by
      simp only [V3.normSq, V3.dot, sub_zero, V3.smul_x, V3.smul_y, V3.smul_z] at hn1 ⊢
      linear_combination s ^ 2 * hn1
    show (s • n - 0).normSq < _
    rw [this]
    have h0 := abs_nonneg s
    rw [← sq_abs s]
    show _ < (r + 1 / 10 ^ 5) ^ 2
    nlinarith
  have hl : ∀ (c : ℕ → ℝ) (s : ℝ), InLayer n c (1 / 10 ^ 5) 1 1 (s • n) ↔ s < c 0 + 1 / 10 ^ 5 := by
    intro c s
    unfold InLayer
    rw [height_smul, height_self hn, mul_one]
    constructor
    · intro h; exact h.1 0 rfl
    · intro h
      refine ⟨fun i hi => ?_, fun h => absurd h (by norm_num)⟩
      obtain rfl : i = 0 := by omega
      exact h
  have key : ∀ s, |s| < r → (s < c 0 + 1 / 10 ^ 5 ↔ s < c' 0 + 1 / 10 ^ 5) := by
    intro s hs
    have := howns (s • n)
    rw [ho, ho', hl, hl] at this
    have hi := hin s hs
    tauto
  rcases lt_trichotomy (c' 0) (c 0) with h | h | h
  · have := (key (max (c' 0 + 1 / 10 ^ 5) (c 0)) (by
      rw [abs_lt]; constructor
      · exact lt_of_lt_of_le h1 (le_max_right _ _)
      · exact max_lt (by linarith) (by linarith))).mp (max_lt (by linarith) (by linarith))
    exact absurd (le_max_left (c' 0 + 1 / 10 ^ 5) (c 0)) (not_le.mpr this)
  · exact h
  · have := (key (c 0 + 1 / 10 ^ 5) (by rw [abs_lt]; constructor <;> linarith)).mpr (by linarith)
    exact absurd this (lt_irrefl _)

/-- **C87, finding.** If the origin of the generator is half a cell along the normal, the defect planes are never planes of the
crystal: `snap_plane_near_point` measures from the coordinate origin. -/
theorem C87_refuted (env : Env) :
    (∃ split fuel, ∀ rand, ∃ t tw sf, (unitFcc ⟨0, 0, 1 / 2⟩ 0 10 1 3).build env split fuel rand = some (.ok (t, tw, sf))) ∧
    ∀ split fuel rand t tw sf, (unitFcc ⟨0, 0, 1 / 2⟩ 0 10 1 3).build env split fuel rand = some (.ok (t, tw, sf)) →
      ¬ FamilyLayers env (ball 0 10) ⟨1, .scalar 1, ⟨0, 0, 1 / 2⟩⟩ ⟨0, 0, 1⟩ ⟨0, 0, 1⟩ 1 3 t := by
  refine ⟨unit_returns env _ 0 (by norm_num) (by norm_num) (by norm_num) (by norm_num), ?_⟩
  intro split fuel rand t tw sf h hF
  have H := unit_regular ⟨0, 0, 1 / 2⟩
  obtain ⟨n0, st, hn0, rfl, R⟩ := fcc_run rfl rfl H.voxel (by show (0 : ℤ) ≤ 1; norm_num) h
  have hn : unitOrNan ((1 : M3 ℝ).mulVec (millerV ⟨0, 0, 1⟩)) = .ok ⟨0, 0, 1⟩ := by
    have := (unit_dir (r := ⟨0, 0, 1⟩) (w := (1 : M3 ℝ).mulVec (millerV ⟨0, 0, 1⟩)) (by rw [len_e3]; norm_num) one_pos (by
      rw [M3.mulVec_one, one_smul]; simp [millerV])).1
    rwa [unit_e3] at this
  change unitOrNan ((1 : M3 ℝ).mulVec (millerV ⟨0, 0, 1⟩)) = .ok n0 at hn0
  rw [hn] at hn0
  cases hn0
  have hu : norm3 (⟨0, 0, 1⟩ : V3 ℝ) = 1 := by rw [← len_eq, len_e3]
  obtain ⟨b, se, Ss, Se, q0, K, X, gs, ss, ts, bs, ws, a1, a2, a3, a4, a5, a6, a7, a8, -⟩ :=
    run_spec H (ball_intact env 0 10) (by show (0 : ℤ) ≤ 1; norm_num) (by show (0 : ℤ) ≤ 3; norm_num) R
  obtain ⟨-, -, hr⟩ := range_spec hu (ball_range env 0 (r := 10) (by norm_num) ⟨0, 0, 1⟩)
  obtain ⟨r1, r2⟩ := hr b se a1 a2
  rw [unit_e3] at a3 a4
  rw [r1, len_e3, show nonzeros ⟨0, 0, 1⟩ = 1 from by simp [nonzeros], abs_lt] at a3
  rw [r2, len_e3, show nonzeros ⟨0, 0, 1⟩ = 1 from by simp [nonzeros], abs_lt] at a4
  have e1 : Ss = -10 := by
    have h1 : (-11 : ℝ) < (Ss : ℤ) := by push_cast at a3; linarith
    have h2 : ((Ss : ℤ) : ℝ) < -9 := by push_cast at a3; linarith
    have h1' : -11 < Ss := by exact_mod_cast h1
    have h2' : Ss < -9 := by exact_mod_cast h2
    omega
  have e2 : Se = 10 := by
    have h1 : (9 : ℝ) < (Se : ℤ) := by push_cast at a4; linarith
    have h2 : ((Se : ℤ) : ℝ) < 11 := by push_cast at a4; linarith
    have h1' : 9 < Se := by exact_mod_cast h1
    have h2' : Se < 11 := by exact_mod_cast h2
    omega
  subst e1 e2
  obtain ⟨b1, b2⟩ := a5 0 (by show 0 < (1 : ℤ).toNat; norm_num)
  change -10 + (3 : ℤ) ≤ K 0 at b1
  change K 0 ≤ -10 + |10 - -10| - (3 : ℤ) at b2
  norm_num at b1 b2
  obtain ⟨c', J, ws', f1, f2, f3, -⟩ := hF
  have hb1 : (-7 : ℝ) ≤ K 0 := by exact_mod_cast b1
  have hb2 : (K 0 : ℝ) ≤ 7 := by exact_mod_cast b2
  have hc := cut_unique (n := ⟨0, 0, 1⟩) (r := 10) (c := fun k => K k / len (⟨0, 0, 1⟩ : V3 ℝ)) (c' := c') hu
    (by rw [len_e3, div_one]; linarith) (by rw [len_e3, div_one]; linarith) (a7.symm.trans f1)
    (fun q => by have := (a8 1 le_rfl).2 q; rwa [unit_e3] at this) (fun q => by have := f2 1 le_rfl q; rwa [unit_e3] at this)
  have h3 := f3 0 one_pos
  rw [hc, unit_e3, len_e3, div_one] at h3
  have hmem : (⟨0, 0, (K 0 : ℝ)⟩ : V3 ℝ) ∈ {q | height (⟨0, 0, 1⟩ : V3 ℝ) q = ((fun k => (K k : ℝ)) 0)} := by
    rw [Set.mem_ofPred_eq]; simp [height]
  dsimp only at hmem
  rw [h3] at hmem
  obtain ⟨f, g1, g2⟩ := hmem
  rw [unit_sbases, cart_eq, M3.mulVec_one] at g1
  have gz := congrArg V3.z g1
  simp only [V3.add_z] at gz
  simp only [miller] at g2
  have : (2 * (K 0 : ℝ)) = 2 * J 0 + 1 := by push_cast at g2; linarith
  have : 2 * K 0 = 2 * J 0 + 1 := by exact_mod_cast this
  omega

/-! ## C88: spheres elsewhere -/

/-- **C88, finding.** The centre of the sphere is not taken into account: if the sphere lies at heights above its radius, all
defect planes are below it, and all grains except the first are empty. -/
theorem C88_offcentre (env : Env) (p : Fcc) (g : Gen ℝ) (v : Vol) (x : Voxel ℝ) (s : Struct ℝ) (r : V3 ℝ) (hg : p.gen = some g)
    (hv : p.vol = some (.vol v)) (H : Regular g x s p.plane r) (hi : Intact env v) (hN : 0 ≤ p.N) (hm : nonzeros p.plane ≤ p.minSep)
    (hdir : ∃ c : ℝ, 0 < c ∧ cart x.bases 0 ⟨(p.plane.x : ℝ), (p.plane.y : ℝ), (p.plane.z : ℝ)⟩ = c • r) (R tol : ℝ) (C : V3 ℝ) (hR : 0 < R) (htol : 0 ≤ tol)
    (hp : v.points = none) (ha : v.algs = [.sphere ⟨R, C, tol⟩]) (hoff : R + 1 / 10 ^ 5 ≤ height ((len r)⁻¹ • r) C - (R + tol))
    (split : ℕ → ℕ) (fuel : ℕ) (rand : ℕ → ℝ) (t : VTree) (tw sf : Bool) (h : p.build env split fuel rand = some (.ok (t, tw, sf))) :
    ∃ ws : ℕ → Vol, t = .multi ((List.range (p.N.toNat + 1)).map fun k => .vol (ws k)) 0 none ∧
      ∀ k, 1 ≤ k → k ≤ p.N.toNat → ∀ q, ¬ Owns env ws (p.N.toNat + 1) k q := by
  have h0 : 0 < len r := machEps_pos.trans H.length
  obtain ⟨c, ws, h1, h2, h3⟩ := C88_fcc_partial env p g v x s r hg hv H hi hN hm hdir (-R) R (.inr ⟨C, tol, hp, ha, hR, rfl⟩) split fuel rand t tw sf h
  refine ⟨ws, h1, fun k hk hk' q ho => ?_⟩
  obtain ⟨hin, hl, -⟩ := (h2 k hk' q).mp ho
  have hk1 := hl (k - 1) (by omega)
  have hc := (h3 (k - 1) (by omega)).2
  cases hin with
  | vol _ _ hh hal =>
    have := hal (.sphere ⟨R, C, tol⟩) (by rw [ha]; exact List.mem_cons_self)
    change decide ((q - C).normSq < (R + tol) ^ 2) = true at this
    rw [decide_eq_true_iff] at this
    have hn : ((len r)⁻¹ • r).normSq = 1 := by
      rw [len_eq] at h0 ⊢; exact norm3_eq_one.mp (norm3_unit h0.ne')
    generalize (len r)⁻¹ • r = n at *
    have cs : (height n (q - C)) ^ 2 ≤ (q - C).normSq := by
      have e : (q - C).normSq = n.normSq * (q - C).normSq := by rw [hn, one_mul]
      rw [e]
      generalize q - C = w
      simp only [height, V3.normSq, V3.dot]
      nlinarith [sq_nonneg (n.x * w.y - n.y * w.x), sq_nonneg (n.x * w.z - n.z * w.x), sq_nonneg (n.y * w.z - n.z * w.y)]
    have hh2 : height n (q - C) = height n q - height n C := by
      simp only [height, V3.sub_x, V3.sub_y, V3.sub_z]; ring
    have := abs_lt_of_sq_lt_sq (lt_of_le_of_lt cs this) (by linarith)
    rw [hh2, abs_lt] at this
    linarith

/-- **C88, finding (instance).** Two defects asked for in a ball of radius 10 around (0,0,100): the first grain owns the whole ball. -/
theorem C88_refuted (env : Env) :
    (∃ split fuel, ∀ rand, ∃ t tw sf, (unitFcc 0 ⟨0, 0, 100⟩ 10 2 3).build env split fuel rand = some (.ok (t, tw, sf))) ∧
    ∀ split fuel rand t tw sf, (unitFcc 0 ⟨0, 0, 100⟩ 10 2 3).build env split fuel rand = some (.ok (t, tw, sf)) →
      ∃ ws : ℕ → Vol, t = .multi ((List.range 3).map fun k => .vol (ws k)) 0 none ∧ ∀ k, 1 ≤ k → k ≤ 2 → ∀ q, ¬ Owns env ws 3 k q := by
  refine ⟨unit_returns env _ _ (by norm_num) (by norm_num) (by norm_num) (by norm_num), ?_⟩
  intro split fuel rand t tw sf h
  exact C88_offcentre env _ _ _ _ _ _ rfl rfl (unit_regular 0) (ball_intact env _ 10) (by show (0 : ℤ) ≤ 2; norm_num)
    (by show nonzeros ⟨0, 0, 1⟩ ≤ 3; simp [nonzeros]) (unit_dir_e3 0) 10 (1 / 10 ^ 5) ⟨0, 0, 100⟩ (by norm_num) (by norm_num) rfl rfl
    (by rw [unit_e3]; simp [height]; norm_num) split fuel rand t tw sf h

end Prefab

end
end CZ
