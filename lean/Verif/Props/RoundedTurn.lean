import Verif.Props.RoundedAdsorbate

/-!
# Property C147, continued: the angle about the normal

`mol_rotation` turns the molecule about the normal by that angle: `rot_v` in rounded arithmetic against the exact rotation, and the
placement with an angle against the placement without.
-/

namespace CZ

/-- The vector `v` turned about the direction `n` of length one by the angle `θ`. -/
noncomputable def Spec.turnedAbout (n : V3 ℝ) (θ : ℝ) (v : V3 ℝ) : V3 ℝ :=
  Real.cos θ • v + Real.sin θ • n.cross v + ((1 - Real.cos θ) * n.dot v) • n

namespace Fl

open Spec

variable (A : Arith) (T : Trig) (S : RotVec)

/-- The same by the formula of Rodrigues. -/
noncomputable def rod (a : V3 ℝ) (t : ℝ) (v : V3 ℝ) : V3 ℝ := v + Real.sin t • a.cross v + (1 - Real.cos t) • a.cross (a.cross v)

theorem turned_rod {n : V3 ℝ} (hn : norm3 n = 1) (θ : ℝ) (v : V3 ℝ) : turnedAbout n θ v = rod n θ v := by
  have h : n.x * n.x + n.y * n.y + n.z * n.z = 1 := by
    have := norm3_sq n
    rw [hn] at this
    simp only [V3.normSq, V3.dot] at this
    linarith
  unfold turnedAbout rod
  ext <;> simp [V3.cross, V3.dot]
  · linear_combination (1 - Real.cos θ) * v.x * h
  · linear_combination (1 - Real.cos θ) * v.y * h
  · linear_combination (1 - Real.cos θ) * v.z * h

theorem rod_neg (n : V3 ℝ) (θ : ℝ) (v : V3 ℝ) : rod (-n) (-θ) v = rod n θ v := by
  unfold rod
  rw [Real.sin_neg, Real.cos_neg]
  ext <;> simp [V3.cross] <;> ring

/-- Rotations whose rotation vectors are close are close. -/
theorem rod_lip {a b : V3 ℝ} (ha : norm3 a = 1) (hb : norm3 b = 1) {s t : ℝ} (hs : 0 ≤ s) (ht : 0 ≤ t) (v : V3 ℝ) :
    norm3 (rod a s v - rod b t v) ≤ 8 * norm3 (s • a - t • b) * norm3 v := by
  have hd : |s - t| ≤ norm3 (s • a - t • b) := by
    have := abs_norm3_sub (s • a) (t • b)
    rwa [norm3_smul, norm3_smul, ha, hb, mul_one, mul_one, abs_of_nonneg hs, abs_of_nonneg ht] at this
  generalize hD : norm3 (s • a - t • b) = d at *
  have hd0 : 0 ≤ d := (abs_nonneg _).trans hd
  have hab : s * norm3 (a - b) ≤ 2 * d := by
    have e : s • (a - b) = (s • a - t • b) - (s - t) • b := by
      ext <;> simp <;> ring
    have h := norm3_sub_le (s • a - t • b) ((s - t) • b)
    rw [← e, norm3_smul, norm3_smul, hb, mul_one, abs_of_nonneg hs, hD] at h
    linarith
  have hv := norm3_nonneg v
  have e : rod a s v - rod b t v = (Real.sin s • (a - b).cross v + (Real.sin s - Real.sin t) • b.cross v) +
      ((1 - Real.cos s) • ((a - b).cross (a.cross v) + b.cross ((a - b).cross v)) + (Real.cos t - Real.cos s) • b.cross (b.cross v)) := by
    unfold rod
    ext <;> simp [V3.cross] <;> ring
  rw [e]
  have c1 := norm3_cross_le (a - b) v
  have c2 := norm3_cross_le b v
  have c3 := norm3_cross_le (a - b) (a.cross v)
  have c4 := norm3_cross_le a v
  have c5 := norm3_cross_le b ((a - b).cross v)
  have c6 := norm3_cross_le b (b.cross v)
  rw [ha, one_mul] at c4
  rw [hb, one_mul] at c2 c5 c6
  have n0 := norm3_nonneg (a - b)
  have c3' := c3.trans (mul_le_mul_of_nonneg_left c4 n0)
  have c5' := c5.trans c1
  have c6' := c6.trans c2
  have habv : s * (norm3 (a - b) * norm3 v) ≤ 2 * d * norm3 v := by
    rw [← mul_assoc]; exact mul_le_mul_of_nonneg_right hab hv
  have hsin : |Real.sin s| ≤ s := by
    have := Real.abs_sin_le_abs (x := s)
    rwa [abs_of_nonneg hs] at this
  have hcos : |1 - Real.cos s| ≤ s := by
    have h1 := Real.one_sub_sq_div_two_le_cos (x := s)
    have h2 := Real.neg_one_le_cos s
    have h3 := Real.cos_le_one s
    rw [abs_of_nonneg (by linarith)]
    rcases le_total s 2 with h | h
    · nlinarith
    · linarith
  have t1 : norm3 (Real.sin s • (a - b).cross v) ≤ 2 * d * norm3 v := by
    rw [norm3_smul]
    exact (mul_le_mul hsin c1 (norm3_nonneg _) hs).trans habv
  have t2 : norm3 ((Real.sin s - Real.sin t) • b.cross v) ≤ d * norm3 v := by
    rw [norm3_smul]
    exact mul_le_mul ((Real.abs_sin_sub_sin_le s t).trans hd) c2 (norm3_nonneg _) hd0
  have t3 : norm3 ((1 - Real.cos s) • ((a - b).cross (a.cross v) + b.cross ((a - b).cross v))) ≤ 4 * d * norm3 v := by
    rw [norm3_smul]
    have g := (norm3_add_le ((a - b).cross (a.cross v)) (b.cross ((a - b).cross v))).trans (add_le_add c3' c5')
    have := mul_le_mul hcos g (norm3_nonneg _) hs
    linarith
  have t4 : norm3 ((Real.cos t - Real.cos s) • b.cross (b.cross v)) ≤ d * norm3 v := by
    rw [norm3_smul]
    refine mul_le_mul ((Real.abs_cos_sub_cos_le t s).trans ?_) c6' (norm3_nonneg _) hd0
    rwa [abs_sub_comm]
  have g1 := norm3_add_le (Real.sin s • (a - b).cross v) ((Real.sin s - Real.sin t) • b.cross v)
  have g2 := norm3_add_le ((1 - Real.cos s) • ((a - b).cross (a.cross v) + b.cross ((a - b).cross v))) ((Real.cos t - Real.cos s) • b.cross (b.cross v))
  refine (norm3_add_le _ _).trans ?_
  linarith

/-- scipy's matrix for a rotation vector near `θ n`. -/
theorem RotVec.turn {n : V3 ℝ} (hn : norm3 n = 1) {θ : ℝ} {u : V3 ℝ} (v : V3 ℝ) :
    norm3 ((S.mat u).mulVec v - turnedAbout n θ v) ≤ (6 * (1024 * unit) + 8 * norm3 (u - θ • n)) * norm3 v := by
  rw [turned_rod hn]
  -- the exact rotation by a nonnegative angle
  obtain ⟨b, t, hb, ht, e1, e2⟩ : ∃ b t, norm3 b = 1 ∧ 0 ≤ t ∧ θ • n = t • b ∧ rod n θ v = rod b t v := by
    rcases le_total 0 θ with h | h
    · exact ⟨n, θ, hn, h, rfl, rfl⟩
    · exact ⟨-n, -θ, by rw [norm3_neg, hn], by linarith, by ext <;> simp, (rod_neg n θ v).symm⟩
  rw [e1, e2]
  obtain ⟨R, a, ha, hR, eR, eu⟩ : ∃ R a, norm3 a = 1 ∧ Close (1024 * unit) (S.mat u) R ∧ R.mulVec v = rod a (norm3 u) v ∧ u = norm3 u • a := by
    by_cases h : u = 0
    · subst h
      refine ⟨1, n, hn, S.zero, ?_, ?_⟩
      · rw [(norm3_eq_zero _).mpr rfl]
        unfold rod
        ext <;> simp [M3.mulVec, M3.one_def]
      · rw [(norm3_eq_zero _).mpr rfl]
        ext <;> simp
    · obtain ⟨R, h1, h2, -⟩ := rodrigues_ok h (norm3 u)
      have hu : norm3 u ≠ 0 := ((norm3_pos u).mpr h).ne'
      refine ⟨R, (norm3 u)⁻¹ • u, norm3_unit hu, S.near u R h1, ?_, ?_⟩
      · rw [h2, rodMat_mulVec]; rfl
      · ext <;> simp <;> field_simp
  have h1 := hR.mulVec v
  have h2 := rod_lip ha hb (norm3_nonneg u) ht v
  rw [← eu] at h2
  rw [eR] at h1
  have := norm3_tri ((S.mat u).mulVec v) (rod a (norm3 u) v) (rod b t v)
  linarith

/-- **C147.** `rot_v` in rounded arithmetic turns every vector about the normal by the angle asked for, up to 2^-37 of its length. -/
theorem C147_turn {n : V3 ℝ} (hn : |len n - 1| ≤ (1 / 2) ^ 40) {θ : ℝ} (ht : |θ| ≤ 64) {M : M3 ℝ} (hM : rotV A S n θ = .ok M) (v : V3 ℝ) :
    Spec.dist (M.mulVec v) (turnedAbout ((len n)⁻¹ • n) θ v) ≤ (1 / 2) ^ 37 * len v := by
  rw [dist_eq, len_eq, len_eq]
  rw [len_eq] at hn
  obtain ⟨hn1, hn2⟩ := abs_le.mp hn
  have hN := norm_near A n
  rw [show A.rnd (Real.sqrt (A.dot n n)) = norm A n from rfl] at hN
  have htau := tau_le
  have hu0 := unit_pos
  have hn3 : norm3 n ≤ 2 := by norm_num at *; linarith
  have hn0 : norm3 n ≠ 0 := by
    intro h
    rw [h] at hn1
    norm_num at hn1
  have hN' : |norm A n - norm3 n| ≤ 14 * unit := by
    generalize (1 / 2 : ℝ) ^ 530 = τ at *
    refine hN.trans ?_
    rw [unit_eq] at *
    norm_num at *
    linarith
  have b1 : 3 / 4 ≤ norm A n := by
    have := (abs_le.mp hN').1
    rw [unit_eq] at this
    norm_num at *
    linarith
  have hN0 : norm A n ≠ 0 := by linarith
  rw [rotV, if_neg hN0] at hM
  obtain rfl := Except.ok.inj hM
  have hq : |θ / norm A n| ≤ 96 := by
    rw [abs_div, abs_of_pos (by linarith : 0 < norm A n), div_le_iff₀ (by linarith)]
    linarith
  have hq1 := A.near (θ / norm A n)
  have htiny := tiny_le_unit
  have hc' : |A.rnd (θ / norm A n) - θ / norm A n| ≤ 97 * unit := by
    refine hq1.trans ?_
    have := mul_le_mul_of_nonneg_left hq hu0.le
    generalize tiny = τ at *
    generalize |θ / norm A n| = q at *
    rw [unit_eq] at *
    norm_num at *
    linarith
  have hc : |A.rnd (θ / norm A n)| ≤ 97 := by
    have := abs_add_le (A.rnd (θ / norm A n) - θ / norm A n) (θ / norm A n)
    rw [sub_add_cancel] at this
    rw [unit_eq] at hc'
    norm_num at *
    linarith
  have hcn : |A.rnd (θ / norm A n) * norm3 n - θ| ≤ 2048 * unit := by
    have e : A.rnd (θ / norm A n) * norm3 n - θ = (A.rnd (θ / norm A n) - θ / norm A n) * norm3 n + θ / norm A n * (norm3 n - norm A n) := by
      field_simp
      ring
    rw [e]
    refine (abs_add_le _ _).trans ?_
    rw [abs_mul, abs_mul, abs_of_nonneg (norm3_nonneg n), abs_sub_comm (norm3 n)]
    have g1 := mul_le_mul hc' hn3 (norm3_nonneg _) (by positivity)
    have g2 := mul_le_mul hq hN' (abs_nonneg _) (by norm_num)
    linarith
  generalize A.rnd (θ / norm A n) = c at *
  obtain ⟨cx, cy, cz⟩ := comp_le n
  have comp {x : ℝ} (hx : |x| ≤ norm3 n) : |A.rnd (x * c) - c * x| ≤ (1 / 2) ^ 45 := by
    have h1 := A.near (x * c)
    rw [mul_comm c x]
    have h2 : |x * c| ≤ 194 := by
      rw [abs_mul]
      have := mul_le_mul (hx.trans hn3) hc (abs_nonneg _) (by norm_num)
      linarith
    generalize |x * c| = y at *
    refine h1.trans ?_
    generalize tiny = τ at *
    rw [unit_eq] at *
    norm_num at *
    linarith
  have hd : norm3 (scale A n c - c • n) ≤ 2 * (1 / 2) ^ 45 :=
    norm3_le_of_comp (by simpa [scale] using comp cx) (by simpa [scale] using comp cy) (by simpa [scale] using comp cz)
  have hunit : norm3 ((norm3 n)⁻¹ • n) = 1 := norm3_unit hn0
  have hd2 : norm3 (c • n - θ • (norm3 n)⁻¹ • n) ≤ 2048 * unit := by
    have e : c • n - θ • (norm3 n)⁻¹ • n = (c * norm3 n - θ) • (norm3 n)⁻¹ • n := by
      ext <;> simp <;> field_simp
    rw [e, norm3_smul, hunit, mul_one]
    exact hcn
  have hd3 := norm3_tri (scale A n c) (c • n) (θ • (norm3 n)⁻¹ • n)
  refine (S.turn hunit (θ := θ) v).trans (mul_le_mul_of_nonneg_right ?_ (norm3_nonneg v))
  rw [unit_eq] at *
  norm_num at *
  linarith

theorem rod_linear (a : V3 ℝ) (t : ℝ) (v w : V3 ℝ) : rod a t (v - w) = rod a t v - rod a t w := by
  unfold rod
  ext <;> simp [V3.cross] <;> ring

theorem norm3_rod {a : V3 ℝ} (ha : norm3 a = 1) (t : ℝ) (v : V3 ℝ) : norm3 (rod a t v) ≤ 5 * norm3 v := by
  unfold rod
  have c1 := norm3_cross_le a v
  have c2 := norm3_cross_le a (a.cross v)
  rw [ha, one_mul] at c1 c2
  have g1 := norm3_add_le (v + Real.sin t • a.cross v) ((1 - Real.cos t) • a.cross (a.cross v))
  have g2 := norm3_add_le v (Real.sin t • a.cross v)
  rw [norm3_smul] at g1 g2
  have h1 := mul_le_mul (Real.abs_sin_le_one t) c1 (norm3_nonneg _) (by norm_num)
  have h2 : |1 - Real.cos t| ≤ 2 := by
    have h2 := Real.neg_one_le_cos t
    have h3 := Real.cos_le_one t
    rw [abs_le]; constructor <;> linarith
  have h3 := mul_le_mul h2 (c2.trans c1) (norm3_nonneg _) (by norm_num)
  have := norm3_nonneg v
  linarith

/-- **C147, partial** (the angle between molecule and normal is neither 0 nor 180 degrees up to about 10^-6).  `mol_rotation` turns the
molecule about the normal: seen from the bonding atom, the molecule placed with the angle θ is the molecule placed with the angle zero,
turned about the normal by θ, up to 2^-31 `R`. -/
theorem C147_rotated_partial {R : ℝ} (hR : 1 ≤ R) {mol : Mol ℝ} (hl : mol.species.length = mol.atoms.length) (hp : ∀ p ∈ mol.atoms, len p ≤ R) {i : ℕ} {o : V3 ℝ}
    (hi : mol.atoms[i]? = some o) {vec w : V3 ℝ} (ew : w = mulVec A mol.orientation vec) {θ bond : ℝ} {target n : V3 ℝ} (ht : len target ≤ R)
    (hb : |bond| ≤ R) (hn : |len n - 1| ≤ (1 / 2) ^ 40) (hth : |θ| ≤ 64) (hw : (1 / 2) ^ 200 ≤ len w)
    (hc : (1 / 2) ^ 20 * (len w * len n) ≤ len (w.cross n)) :
    ∃ m0 m, place A T S mol (.int i) vec 0 bond target n = .ok m0 ∧ place A T S mol (.int i) vec θ bond target n = .ok m ∧
      ∀ (j : ℕ) (o0 p0 o' p' : V3 ℝ), m0.atoms[i]? = some o0 → m0.atoms[j]? = some p0 → m.atoms[i]? = some o' → m.atoms[j]? = some p' →
        Spec.dist (p' - o') (turnedAbout ((len n)⁻¹ • n) θ (p0 - o0)) ≤ (1 / 2) ^ 31 * R := by
  have hom : o ∈ mol.atoms := List.mem_of_getElem? hi
  have hn200 : (1 / 2) ^ 200 ≤ len n := by
    have h1 := (abs_le.mp hn).1
    have h2 : (1 / 2 : ℝ) ^ 200 ≤ (1 / 2) ^ 1 := half_pow_le (by norm_num)
    norm_num at *
    linarith
  have hn0 : norm3 n ≠ 0 := by
    rw [← len_eq]
    exact (lt_of_lt_of_le (by positivity) hn200).ne'
  have hunit : norm3 ((norm3 n)⁻¹ • n) = 1 := norm3_unit hn0
  obtain ⟨M1, r1, keep1, acc1, -⟩ := C143_aligns_partial A T hw hn200 hc (some o) true false
  rw [r1] at acc1
  obtain ⟨M2, r2, keep2, acc2, -⟩ := rotV_near A S (n := n) (by rwa [← len_eq]) hth
  obtain ⟨M3, r3, keep3, acc3, -⟩ := rotV_near A S (n := n) (theta := 0) (by rwa [← len_eq]) (by norm_num)
  have ho : norm3 o ≤ R := by rw [← len_eq]; exact hp o hom
  have t2 := C147_turn A S hn hth r2
  have t3 := C147_turn A S hn (θ := 0) (by norm_num) r3
  simp only [len_eq, dist_eq] at ht hn t2 t3 ⊢
  have r1' : rotVtv A T (mulVec A mol.orientation vec) n = .ok M1 := by rw [← r1, ew]
  obtain ⟨m, o2, s, hpl, -, hat, hm, hpath, -⟩ := place_calls A T S hR hl hi ho ht hb hn r1' keep1 acc1 r2 keep2 acc2
  obtain ⟨m0, o3, s', hpl0, -, hat0, hm0, hpath0, -⟩ := place_calls A T S hR hl hi ho ht hb hn r1' keep1 acc1 r3 keep3 acc3
  refine ⟨m0, m, hpl0, hpl, ?_⟩
  intro j o0 p0 o' p' h1 h2 h3 h4
  obtain ⟨p, hj, rfl⟩ : ∃ p, mol.atoms[j]? = some p ∧ pointOf A [.matrix M1 (some o), .matrix M2 (some o2), .shift s] p = p' := by
    rw [hat, List.getElem?_map] at h4
    cases hq : mol.atoms[j]? with
    | none => rw [hq] at h4; simp at h4
    | some p => rw [hq] at h4; exact ⟨p, rfl, Option.some.inj h4⟩
  rw [hat0, List.getElem?_map, hj] at h2
  rw [hat0, List.getElem?_map, hi] at h1
  rw [hat, List.getElem?_map, hi] at h3
  obtain rfl := Option.some.inj h1
  obtain rfl := Option.some.inj h2
  obtain rfl := Option.some.inj h3
  have hpn : norm3 p ≤ R := by rw [← len_eq]; exact hp p (List.mem_of_getElem? hj)
  have d1 := hm.difference A (hpath p hpn) (hpath o ho)
  have d0 := hm0.difference A (hpath0 p hpn) (hpath0 o ho)
  rw [show turn [.matrix M1 (some o), .matrix M2 (some o2), .shift s] (p - o) = M2.mulVec (M1.mulVec (p - o)) from rfl] at d1
  rw [show turn [.matrix M1 (some o), .matrix M3 (some o3), .shift s'] (p - o) = M3.mulVec (M1.mulVec (p - o)) from rfl] at d0
  generalize pointOf A [.matrix M1 (some o), .matrix M2 (some o2), .shift s] p - pointOf A [.matrix M1 (some o), .matrix M2 (some o2), .shift s] o = d at *
  generalize pointOf A [.matrix M1 (some o), .matrix M3 (some o3), .shift s'] p - pointOf A [.matrix M1 (some o), .matrix M3 (some o3), .shift s'] o = d' at *
  have hpo : norm3 (p - o) ≤ 2 * R := (norm3_sub_le _ _).trans (by linarith)
  have hk := (keep1.norm (by positivity) (by norm_num) (p - o)).1
  have hv : norm3 (M1.mulVec (p - o)) ≤ 4 * R := by norm_num at *; linarith
  have t2' := t2 (M1.mulVec (p - o))
  have t3' := t3 (M1.mulVec (p - o))
  generalize M1.mulVec (p - o) = v at *
  rw [turned_rod hunit] at t2' t3' ⊢
  have z : rod ((norm3 n)⁻¹ • n) 0 v = v := by
    unfold rod
    ext <;> simp
  rw [z] at t3'
  have l1 : norm3 (rod ((norm3 n)⁻¹ • n) θ v - rod ((norm3 n)⁻¹ • n) θ d') ≤ 5 * norm3 (v - d') := by
    rw [← rod_linear]
    exact norm3_rod hunit θ _
  have l2 := norm3_tri d' (M3.mulVec v) v
  have l3 := norm3_tri d (M2.mulVec v) (rod ((norm3 n)⁻¹ • n) θ v)
  have l4 := norm3_tri d (rod ((norm3 n)⁻¹ • n) θ v) (rod ((norm3 n)⁻¹ • n) θ d')
  rw [show v - d' = -(d' - v) by ext <;> simp, norm3_neg] at l1
  rw [slack] at d0 d1
  simp only [List.length_cons, List.length_nil] at d0 d1
  norm_num at *
  linarith

/-- Water on a horizontal surface: a quarter of a turn takes x to y and y to -x. -/
example : ∃ m0 m, place binary64 T exactRotVec ⟨[⟨0, 0, 0⟩, ⟨1, 0, 0⟩, ⟨0, 1, 0⟩], [8, 1, 1], 0, 1, false, none, some ⟨0, 0, 0⟩, true⟩ (.int 0) ⟨1, 0, 0⟩ 0 2
      ⟨5, 5, 5⟩ ⟨0, 0, 1⟩ = .ok m0 ∧ place binary64 T exactRotVec ⟨[⟨0, 0, 0⟩, ⟨1, 0, 0⟩, ⟨0, 1, 0⟩], [8, 1, 1], 0, 1, false, none, some ⟨0, 0, 0⟩, true⟩ (.int 0)
      ⟨1, 0, 0⟩ (Real.pi / 2) 2 ⟨5, 5, 5⟩ ⟨0, 0, 1⟩ = .ok m ∧
      ∀ (j : ℕ) (o0 p0 o' p' : V3 ℝ), m0.atoms[0]? = some o0 → m0.atoms[j]? = some p0 → m.atoms[0]? = some o' → m.atoms[j]? = some p' →
        Spec.dist (p' - o') ⟨-(p0 - o0).y, (p0 - o0).x, (p0 - o0).z⟩ ≤ 1 / 10 ^ 8 := by
  have hsq : ∀ x y z : ℝ, len (⟨x, y, z⟩ : V3 ℝ) = Real.sqrt (x ^ 2 + y ^ 2 + z ^ 2) := fun x y z => rfl
  have h10 : ∀ x : ℝ, x ≤ 100 → Real.sqrt x ≤ 10 := fun x hx => (Real.sqrt_le_left (by norm_num)).mpr (by linarith)
  have hlx : len (⟨1, 0, 0⟩ : V3 ℝ) = 1 := by rw [hsq]; norm_num
  have hlz : len (⟨0, 0, 1⟩ : V3 ℝ) = 1 := by rw [hsq]; norm_num
  obtain ⟨m0, m, h1, h2, h3⟩ := C147_rotated_partial binary64 T exactRotVec (R := 10) (by norm_num)
    (mol := ⟨[⟨0, 0, 0⟩, ⟨1, 0, 0⟩, ⟨0, 1, 0⟩], [8, 1, 1], 0, 1, false, none, some ⟨0, 0, 0⟩, true⟩) rfl
    (by
      intro p hp
      simp only [List.mem_cons, List.not_mem_nil, or_false] at hp
      rcases hp with rfl | rfl | rfl <;> rw [hsq] <;> exact h10 _ (by norm_num))
    (i := 0) (o := ⟨0, 0, 0⟩) rfl (vec := ⟨1, 0, 0⟩) (w := ⟨1, 0, 0⟩) ex_direction.symm (θ := Real.pi / 2) (bond := 2) (target := ⟨5, 5, 5⟩) (n := ⟨0, 0, 1⟩)
    (by rw [hsq]; exact h10 _ (by norm_num)) (by norm_num) (by rw [hlz]; norm_num)
    (by
      have h := Real.pi_pos
      have h' := Real.pi_le_four
      rw [abs_of_pos (by linarith)]
      linarith)
    (by rw [hlx]; exact (half_pow_le (m := 200) (n := 0) (by norm_num)).trans (by norm_num))
    (by
      rw [hlx, hlz, show (⟨1, 0, 0⟩ : V3 ℝ).cross ⟨0, 0, 1⟩ = ⟨0, -1, 0⟩ by ext <;> simp [V3.cross], hsq]
      norm_num)
  refine ⟨m0, m, h1, h2, ?_⟩
  intro j o0 p0 o' p' a b c d
  have h := h3 j o0 p0 o' p' a b c d
  rw [hlz] at h
  rw [show turnedAbout ((1 : ℝ)⁻¹ • (⟨0, 0, 1⟩ : V3 ℝ)) (Real.pi / 2) (p0 - o0) = ⟨-(p0 - o0).y, (p0 - o0).x, (p0 - o0).z⟩ by
    unfold turnedAbout
    ext <;> simp [V3.cross, V3.dot]] at h
  refine h.trans (by norm_num)

/-- Water that already points along the normal: it is placed, and its hydrogen is at the height it had along its direction. -/
example : ∃ m o' p q, place binary64 T exactRotVec ⟨[⟨0, 0, 0⟩, ⟨1, 0, 0⟩, ⟨0, 1, 0⟩], [8, 1, 1], 0, 1, false, none, some ⟨0, 0, 0⟩, true⟩ (.int 0) ⟨1, 0, 0⟩ 1 2
      ⟨5, 5, 5⟩ ⟨1, 0, 0⟩ = .ok m ∧ m.atoms = [o', p, q] ∧ |(p - o').dot ⟨1, 0, 0⟩ - 1| ≤ 1 / 10 ^ 5 := by
  have hsq : ∀ x y z : ℝ, len (⟨x, y, z⟩ : V3 ℝ) = Real.sqrt (x ^ 2 + y ^ 2 + z ^ 2) := fun x y z => rfl
  have h10 : ∀ x : ℝ, x ≤ 100 → Real.sqrt x ≤ 10 := fun x hx => (Real.sqrt_le_left (by norm_num)).mpr (by linarith)
  have hlx : len (⟨1, 0, 0⟩ : V3 ℝ) = 1 := by rw [hsq]; norm_num
  have hr : rotVtv binary64 T ⟨1, 0, 0⟩ ⟨1, 0, 0⟩ = .ok 1 := by
    have hd : binary64.dot ⟨1, 0, 0⟩ ⟨1, 0, 0⟩ = 1 := by
      show loopDot rnd64 _ _ = 1
      simp [loopDot, rnd64_one, rnd64_zero]
    have hN : norm binary64 ⟨1, 0, 0⟩ = 1 := by
      unfold norm
      rw [hd, Real.sqrt_one]
      exact rnd64_one
    have h1 : binary64.rnd 1 = 1 := rnd64_one
    unfold rotVtv
    simp only [hd, hN]
    norm_num [h1, T.acos_one, machEps]
  rcases C147_upright binary64 T exactRotVec binary64_zeroed.1 (R := 10) (by norm_num)
    (mol := ⟨[⟨0, 0, 0⟩, ⟨1, 0, 0⟩, ⟨0, 1, 0⟩], [8, 1, 1], 0, 1, false, none, some ⟨0, 0, 0⟩, true⟩) rfl
    (by
      intro p hp
      simp only [List.mem_cons, List.not_mem_nil, or_false] at hp
      rcases hp with rfl | rfl | rfl <;> rw [hsq] <;> exact h10 _ (by norm_num))
    (i := 0) (o := ⟨0, 0, 0⟩) rfl (vec := ⟨1, 0, 0⟩) (theta := 1) (bond := 2) (target := ⟨5, 5, 5⟩) (n := ⟨1, 0, 0⟩) ex_direction.symm
    (by rw [hsq]; exact h10 _ (by norm_num)) (by norm_num) (by rw [hlx]; norm_num) (by norm_num) with h | h
  · exfalso
    obtain ⟨M2, r2, keep2, acc2, -⟩ := rotV_near binary64 exactRotVec (n := ⟨1, 0, 0⟩) (theta := 1) (by rw [← len_eq, hlx]; norm_num) (by norm_num)
    have r : Close (1024 * unit) (1 : M3 ℝ) 1 := by
      have := unit_pos
      simp only [Close, sub_self, abs_zero]
      refine ⟨?_, ?_, ?_, ?_, ?_, ?_, ?_, ?_, ?_⟩ <;> positivity
    obtain ⟨m, -, -, hm, -⟩ := place_calls binary64 T exactRotVec (R := 10) (by norm_num)
      (mol := ⟨[⟨0, 0, 0⟩, ⟨1, 0, 0⟩, ⟨0, 1, 0⟩], [8, 1, 1], 0, 1, false, none, some ⟨0, 0, 0⟩, true⟩) rfl (i := 0) (o := ⟨0, 0, 0⟩) rfl
      (by rw [← len_eq, hsq]; exact h10 _ (by norm_num)) (vec := ⟨1, 0, 0⟩) (theta := 1) (bond := 2) (target := ⟨5, 5, 5⟩) (n := ⟨1, 0, 0⟩)
      (by rw [← len_eq, hsq]; exact h10 _ (by norm_num)) (by norm_num) (by rw [← len_eq, hlx]; norm_num)
      (by rw [ex_direction]; exact hr) (r.keeps one_proper.1) (r.accepted one_proper _ _ _) r2 keep2 acc2
    rw [h] at hm
    cases hm
  · obtain ⟨m, o', h1, h2, h3, h4, -, -, h7⟩ := h
    obtain ⟨a, b, c, he⟩ : ∃ a b c, m.atoms = [a, b, c] := by
      match m.atoms, h3 with
      | [a, b, c], _ => exact ⟨a, b, c, rfl⟩
    rw [he] at h4 h7
    obtain rfl : a = o' := Option.some.inj h4
    refine ⟨m, a, b, c, h1, he, ?_⟩
    have hp := h7 1 ⟨1, 0, 0⟩ b rfl rfl
    rw [hlx, show ((⟨1, 0, 0⟩ : V3 ℝ) - ⟨0, 0, 0⟩).dot ⟨1, 0, 0⟩ / 1 = 1 by simp [V3.dot]] at hp
    exact hp.trans (by norm_num)

end Fl
end CZ
