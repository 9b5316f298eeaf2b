import Verif.Props.RoundedExact

/-!
# Properties C143 and C147, continued: exactly opposite vectors

`rot_vtv(v, -v)` in rounded arithmetic and adsorbates that have to be turned over.
-/

namespace CZ
namespace Fl

open Spec

variable (A : Arith) (T : Trig) (S : RotVec)

theorem norm3_unitVec (i : Fin 3) : norm3 (Tr.unitVec i) = 1 := by
  fin_cases i <;> simp [Tr.unitVec, norm3, V3.normSq, V3.dot]

/-- Half a turn about a direction perpendicular to `v` is the reversal of `v`. -/
theorem half_turn {k v : V3 ℝ} (hk : norm3 k = 1) (hv : k.dot v = 0) : (rodMat k 0 (-1)).mulVec v = -v := by
  have h : k.x * k.x + k.y * k.y + k.z * k.z = 1 := by
    have := norm3_sq k
    rw [hk] at this
    simp only [V3.normSq, V3.dot] at this
    linarith
  simp only [V3.dot] at hv
  rw [rodMat_mulVec]
  ext <;> simp [V3.cross]
  · linear_combination 2 * k.x * hv - 2 * v.x * h
  · linear_combination 2 * k.y * hv - 2 * v.y * h
  · linear_combination 2 * k.z * hv - 2 * v.z * h

/-- **C143 (opposite vectors).** `rot_vtv(v, -v)` is NaN or a rotation that turns `v` over, when `v` is not nearly along the negative
direction of its smallest coordinate (C45): the axis is `v × e`, `e` the unit vector of that coordinate. -/
theorem C143_flip (hA : Zeroed A) {v : V3 ℝ} (hv : (1 / 2) ^ 200 ≤ len v) (hc : (1 / 2) ^ 20 * len v ≤ len (v.cross (Tr.unitVec (Tr.argmin3 v)))) :
    rotVtv A T v (-v) = .error .nan ∨
    ∃ M, rotVtv A T v (-v) = .ok M ∧ Keeps ((1 / 2) ^ 39) M ∧
      (∀ origin locked basisOnly, Tr.mkRotation M origin locked basisOnly = .ok (.matrix .rotation M origin locked basisOnly)) ∧
      len (M.mulVec v + v) ≤ (1 / 2) ^ 24 * len v := by
  simp only [len_eq] at *
  have p200 : (0 : ℝ) < (1 / 2) ^ 200 := by positivity
  have hLv : 0 < norm3 v := lt_of_lt_of_le p200 hv
  have hw : (1 / 2) ^ 200 ≤ norm3 (-v) := by rwa [norm3_neg]
  obtain ⟨hD, hq⟩ := cosine_near A hv hw
  have e : v.dot (-v) / (norm3 v * norm3 (-v)) = -1 := by
    rw [norm3_neg, ← sq, show v.dot (-v) = -(norm3 v ^ 2) by rw [norm3_sq]; simp [V3.dot, V3.normSq]; ring, neg_div, div_self (pow_ne_zero 2 hLv.ne')]
  rw [e] at hq
  have hu := unit_pos
  have ht := small_unit
  generalize hed : Tr.unitVec (Tr.argmin3 v) = w at *
  have hw1 : norm3 w = 1 := by rw [← hed]; exact norm3_unitVec _
  have hPlow : (1 / 2) ^ 400 ≤ norm3 v * norm3 w := by
    rw [hw1, mul_one]
    exact (half_pow_le (by norm_num)).trans hv
  have hx := cross_near A hPlow
  rw [hw1, mul_one] at hx
  have hCpos : 0 < norm3 (v.cross w) := lt_of_lt_of_le (by positivity) hc
  have hperp : ((norm3 (v.cross w))⁻¹ • v.cross w).dot v = 0 := by
    simp [V3.dot, V3.cross]; ring
  -- the axis
  have hrel : norm3 (cross A v w - v.cross w) ≤ (1 / 2) ^ 30 * norm3 (v.cross w) := by
    refine hx.trans ?_
    rw [unit_eq]
    norm_num at *
    linarith
  have hbig : norm3 (v.cross w) / 2 ≤ norm3 (cross A v w) := by
    have := (abs_le.mp (abs_norm3_sub (cross A v w) (v.cross w))).1
    norm_num at *
    linarith
  have h450 : (1 / 2) ^ 450 ≤ norm3 (cross A v w) := by
    have e : (1 / 2 : ℝ) ^ 450 ≤ (1 / 2) ^ 50 * (1 / 2) ^ 200 := by rw [← pow_add]; exact half_pow_le (by norm_num)
    refine e.trans ?_
    generalize (1 / 2 : ℝ) ^ 200 = τ at *
    norm_num at *
    linarith
  have hd : 0 < norm3 (cross A v w) := lt_of_lt_of_le (by positivity) h450
  obtain ⟨hN, ax, ay, az⟩ := normalised_near A h450
  have hdir := direction_close hCpos hd hrel
  have hk1 := norm3_unit hd.ne'
  have hn1 := norm3_unit hCpos.ne'
  generalize hqd : A.rnd (A.dot v (-v) / A.rnd (norm A v * norm A (-v))) = q at *
  by_cases hq1 : |q| ≤ 1
  swap
  · left
    unfold rotVtv
    simp only [hqd]
    rw [if_neg hD, if_pos (not_le.mp hq1)]
  have hacos := T.acos_near q hq1
  have hq0 : q ≤ 0 := by
    have := (abs_le.mp hq).2
    rw [unit_eq] at this
    norm_num at this
    linarith
  have harc : 1 ≤ Real.arccos q := by
    have h1 : Real.pi / 2 ≤ Real.arccos q := by
      have := Real.antitone_arccos hq0
      rwa [Real.arccos_zero] at this
    linarith [Real.two_le_pi]
  have b1 : ¬ T.acos q < machEps := by
    rw [machEps_eq]
    have := (abs_le.mp hacos).1
    rw [unit_eq] at this
    norm_num at *
    linarith
  by_cases b2 : A.rnd (T.pi - T.acos q) < machEps
  swap
  · left
    unfold rotVtv
    simp only [hqd]
    rw [if_neg hD, if_neg (not_lt.mpr hq1), if_neg b1, if_neg b2, cross_opposite A hA, rodrigues_zero A T hA]
  right
  have hrot : rotVtv A T v (-v) = .ok (rodriguesOf A ⟨A.rnd ((cross A v w).x / norm A (cross A v w)), A.rnd ((cross A v w).y / norm A (cross A v w)),
      A.rnd ((cross A v w).z / norm A (cross A v w))⟩ (T.sin (T.acos q)) (A.rnd (1 - T.cos (T.acos q)))) := by
    unfold rotVtv
    simp only [hqd, hed]
    rw [if_neg hD, if_neg (not_lt.mpr hq1), if_neg b1, if_pos b2]
    unfold rodrigues
    simp only
    rw [if_neg hN]
  -- the angle
  have hangle : |T.acos q - Real.pi| ≤ 64 * unit := by
    have g1 := (abs_le.mp hacos).2
    have g2 := Real.arccos_le_pi q
    have g3 := T.pi_near
    have g4 := A.near (T.pi - T.acos q)
    have g5 : T.pi - T.acos q ≤ 32 * unit := by
      by_contra hcon
      have hcon := not_lt.mp fun h => hcon (le_of_lt h)
      have hp : 0 ≤ T.pi - T.acos q := le_trans (by positivity) hcon
      rw [abs_of_nonneg hp] at g4
      have := (abs_le.mp g4).1
      rw [machEps_eq] at b2
      generalize A.rnd (T.pi - T.acos q) = y at *
      generalize T.pi - T.acos q = z at *
      generalize tiny = τ at *
      rw [unit_eq] at *
      norm_num at *
      linarith
    have := (abs_le.mp g3).1
    rw [abs_le]
    constructor <;> linarith
  have hsin := T.sin_near (T.acos q)
  have hcos := T.cos_near (T.acos q)
  have hsc := Real.abs_sin_sub_sin_le (T.acos q) Real.pi
  have hcc := Real.abs_cos_sub_cos_le (T.acos q) Real.pi
  rw [Real.sin_pi] at hsc
  rw [Real.cos_pi] at hcc
  have p2 := Real.sin_sq_add_cos_sq (T.acos q)
  have s2 := Real.abs_sin_le_one (T.acos q)
  have c2 := Real.abs_cos_le_one (T.acos q)
  generalize Real.sin (T.acos q) = s at *
  generalize Real.cos (T.acos q) = c at *
  have hc' : |A.rnd (1 - T.cos (T.acos q)) - (1 - c)| ≤ 5 * unit := by
    have h1 : |1 - T.cos (T.acos q) - (1 - c)| ≤ 2 * unit := by
      rw [← abs_neg]; convert hcos using 2; ring
    have h2 : |1 - c| ≤ 2 := by have := abs_sub (1 : ℝ) c; rw [abs_one] at this; linarith
    refine (A.step h1).trans ?_
    rw [unit_eq] at *
    norm_num at *
    linarith
  have hclose := rodrigues_near A (a := ⟨A.rnd ((cross A v w).x / norm A (cross A v w)), A.rnd ((cross A v w).y / norm A (cross A v w)),
    A.rnd ((cross A v w).z / norm A (cross A v w))⟩) hk1 ax ay az hsin hc' s2 c2
  have hku := norm3_eq_one.mp hk1
  have hprop : ProperRotation (rodMat ((norm3 (cross A v w))⁻¹ • cross A v w) s c) := ⟨rodMat_orth hku p2, rodMat_det hku p2⟩
  refine ⟨_, hrot, hclose.keeps hprop.1, fun origin locked basisOnly => hclose.accepted hprop origin locked basisOnly, ?_⟩
  have g1 := hclose.mulVec v
  have g2 := rod_close (v := v) (s := s) (c := c) (s0 := 0) (c0 := -1) hk1 hn1 (by norm_num) (by norm_num)
  rw [half_turn hn1 hperp] at g2
  rw [← sub_neg_eq_add]
  refine (norm3_tri _ ((rodMat ((norm3 (cross A v w))⁻¹ • cross A v w) s c).mulVec v) _).trans ?_
  have g3 : (|s - 0| + |c - -1| + 5 * norm3 ((norm3 (cross A v w))⁻¹ • cross A v w - (norm3 (v.cross w))⁻¹ • v.cross w)) * norm3 v ≤
      (1 / 2) ^ 26 * norm3 v := by
    refine mul_le_mul_of_nonneg_right ?_ hLv.le
    rw [unit_eq] at *
    norm_num at *
    linarith
  rw [unit_eq] at *
  norm_num at *
  linarith

/-- The case left out: the negative direction of an axis is never turned over, whatever the rounding. -/
theorem C143_flip_refuted (hA : Zeroed A) (i : Fin 3) : rotVtv A T (-Tr.unitVec i) (Tr.unitVec i) = .error .nan := by
  have hm : Tr.argmin3 (-Tr.unitVec i : V3 ℝ) = i := by
    fin_cases i <;> norm_num [Tr.argmin3, Tr.unitVec] <;> rfl
  have h1 : (1 / 2 : ℝ) ^ 200 ≤ 1 := pow_le_one₀ (by norm_num) (by norm_num)
  have hv : (1 / 2) ^ 200 ≤ norm3 (-Tr.unitVec i) := by rw [norm3_neg, norm3_unitVec]; exact h1
  have hw : (1 / 2) ^ 200 ≤ norm3 (Tr.unitVec i) := by rw [norm3_unitVec]; exact h1
  have hx : cross A (-Tr.unitVec i) (Tr.unitVec i) = 0 := by
    have := cross_opposite A hA (-Tr.unitVec i)
    rwa [neg_neg] at this
  obtain ⟨hD, hq⟩ := cosine_near A hv hw
  have e : (-Tr.unitVec i : V3 ℝ).dot (Tr.unitVec i) / (norm3 (-Tr.unitVec i) * norm3 (Tr.unitVec i)) = -1 := by
    rw [norm3_neg, norm3_unitVec]
    fin_cases i <;> simp [Tr.unitVec, V3.dot]
  rw [e] at hq
  generalize hqd : A.rnd (A.dot (-Tr.unitVec i) (Tr.unitVec i) / A.rnd (norm A (-Tr.unitVec i) * norm A (Tr.unitVec i))) = q at *
  unfold rotVtv
  simp only [hqd, hm]
  rw [if_neg hD]
  by_cases hq1 : |q| ≤ 1
  swap
  · rw [if_pos (not_le.mp hq1)]
  have hacos := T.acos_near q hq1
  have hq0 : q ≤ 0 := by
    have := (abs_le.mp hq).2
    rw [unit_eq] at this
    norm_num at this
    linarith
  have harc : 1 ≤ Real.arccos q := by
    have h1 : Real.pi / 2 ≤ Real.arccos q := by
      have := Real.antitone_arccos hq0
      rwa [Real.arccos_zero] at this
    linarith [Real.two_le_pi]
  have b1 : ¬ T.acos q < machEps := by
    rw [machEps_eq]
    have := (abs_le.mp hacos).1
    rw [unit_eq] at this
    clear hv hw h1
    norm_num at *
    linarith
  rw [if_neg (not_lt.mpr hq1), if_neg b1, hx, rodrigues_zero A T hA, ite_self]

/-- **C147 (turned over).** With the direction exactly opposite to the normal: an AssertionError, or the molecule placed as in
`C147_placed_partial`, with the direction along the normal. -/
theorem C147_flip (hA : Zeroed A) {R : ℝ} (hR : 1 ≤ R) {mol : Mol ℝ} (hl : mol.species.length = mol.atoms.length) (hp : ∀ p ∈ mol.atoms, len p ≤ R) {i : ℕ} {o : V3 ℝ}
    (hi : mol.atoms[i]? = some o) {vec : V3 ℝ} {theta bond : ℝ} {target n : V3 ℝ} (ew : -n = mulVec A mol.orientation vec) (ht : len target ≤ R)
    (hb : |bond| ≤ R) (hn : |len n - 1| ≤ (1 / 2) ^ 40) (hth : |theta| ≤ 64)
    (hc : (1 / 2) ^ 20 * len n ≤ len ((-n).cross (Tr.unitVec (Tr.argmin3 (-n))))) :
    place A T S mol (.int i) vec theta bond target n = .error .assertion ∨
    ∃ m o', place A T S mol (.int i) vec theta bond target n = .ok m ∧ m.species = mol.species ∧ m.atoms.length = mol.atoms.length ∧
      m.atoms[i]? = some o' ∧ Spec.dist o' (target + bond • n) ≤ (1 / 2) ^ 46 * R ∧
      (∀ (j k : ℕ) (p q p' q' : V3 ℝ), mol.atoms[j]? = some p → mol.atoms[k]? = some q → m.atoms[j]? = some p' → m.atoms[k]? = some q' →
        |Spec.dist p' q' - Spec.dist p q| ≤ (1 / 2) ^ 36 * (Spec.dist p q + R)) ∧
      ∀ (j : ℕ) (p p' : V3 ℝ), mol.atoms[j]? = some p → m.atoms[j]? = some p' →
        |(p' - o').dot n - (p - o).dot (-n) / len n| ≤ (1 / 2) ^ 21 * R := by
  have ln : len (-n) = len n := by rw [len_eq, len_eq, norm3_neg]
  have hn200 : (1 / 2) ^ 200 ≤ len (-n) := by
    rw [ln]
    have h1 := (abs_le.mp hn).1
    have h2 : (1 / 2 : ℝ) ^ 200 ≤ (1 / 2) ^ 1 := half_pow_le (by norm_num)
    norm_num at *
    linarith
  have hn0 : len n ≠ 0 := by rw [← ln]; exact (lt_of_lt_of_le (by positivity) hn200).ne'
  rcases C143_flip A T hA hn200 (by rw [ln]; exact hc) with h | ⟨M, h, keep, acc, al⟩
  · left
    rw [neg_neg] at h
    obtain ⟨hlt, -⟩ := List.getElem?_eq_some_iff.mp hi
    unfold place
    simp only [Mol.fromMolecule]
    have g0 : mol.setOriginByIdx (.int i) = ({ mol with tracking := true, originIdx := some (i : ℤ) }, .ok ()) := by
      simp only [Mol.setOriginByIdx, Mol.setOriginIdx, MolVal.asInt]
      rw [if_pos (by simpa using hlt)]
    rw [g0]
    simp only [← ew, h]
  · rw [neg_neg] at h
    have := placed_with A T S hR hl hp hi ew ht hb hn hth hn200 h keep (acc _ _ _) (by
      rw [ln, div_self hn0, one_smul, sub_eq_add_neg]
      rw [ln] at al
      exact al)
    rw [ln] at this
    exact Or.inr this

/-- Over a surface whose normal is the x, y or z axis, a molecule that points exactly into the surface is never turned over: always an
AssertionError. -/
theorem C147_flip_refuted (hA : Zeroed A) (k : Fin 3) {mol : Mol ℝ} {i : ℕ} (hi : i < mol.atoms.length) {vec : V3 ℝ} (theta bond : ℝ) (target : V3 ℝ)
    (ew : mulVec A mol.orientation vec = -Tr.unitVec k) : place A T S mol (.int i) vec theta bond target (Tr.unitVec k) = .error .assertion := by
  unfold place
  simp only [Mol.fromMolecule]
  have g0 : mol.setOriginByIdx (.int i) = ({ mol with tracking := true, originIdx := some (i : ℤ) }, .ok ()) := by
    simp only [Mol.setOriginByIdx, Mol.setOriginIdx, MolVal.asInt]
    rw [if_pos (by simpa using hi)]
  rw [g0]
  simp only [ew, C143_flip_refuted A T hA k]

theorem up_axis : (1 / 2) ^ 20 * len (⟨0, 0, 1⟩ : V3 ℝ) ≤ len ((⟨0, 0, 1⟩ : V3 ℝ).cross (Tr.unitVec (Tr.argmin3 ⟨0, 0, 1⟩))) := by
  have h : Tr.argmin3 (⟨0, 0, 1⟩ : V3 ℝ) = 0 := by norm_num [Tr.argmin3]
  rw [h]
  norm_num [len, Tr.unitVec, V3.cross]

theorem up_len : len (⟨0, 0, 1⟩ : V3 ℝ) = 1 := by norm_num [len]

/-- The z axis turned over in 64-bit floats. -/
example : rotVtv binary64 T ⟨0, 0, 1⟩ (-⟨0, 0, 1⟩) = .error .nan ∨
    ∃ M, rotVtv binary64 T ⟨0, 0, 1⟩ (-⟨0, 0, 1⟩) = .ok M ∧ len (M.mulVec ⟨0, 0, 1⟩ + ⟨0, 0, 1⟩) ≤ (1 / 2) ^ 24 := by
  rcases C143_flip binary64 T binary64_zeroed.1 (v := ⟨0, 0, 1⟩) (by rw [up_len]; exact pow_le_one₀ (by norm_num) (by norm_num)) up_axis with h | ⟨M, h, -, -, g⟩
  · exact Or.inl h
  · rw [up_len, mul_one] at g
    exact Or.inr ⟨M, h, g⟩

theorem up_direction : mulVec binary64 1 ⟨0, 0, 1⟩ = ⟨0, 0, 1⟩ := by
  ext <;> simp [mulVec, binary64, loopDot, M3.one_def, M3.row0, M3.row1, M3.row2, rnd64_one, rnd64_zero]

theorem down_direction : mulVec binary64 1 ⟨0, 0, -1⟩ = ⟨0, 0, -1⟩ := by
  have h : rnd64 (-1) = -1 := by
    rw [rnd64_at (-52) (-4503599627370496) (by norm_num) (by norm_num) (by norm_num) (by norm_num)]
    norm_num
  ext <;> simp [mulVec, binary64, loopDot, M3.one_def, M3.row0, M3.row1, M3.row2, rnd64_zero, h]

/-- Two atoms, one over the other, hung under a surface that faces down: an AssertionError, or the second atom is 1 lower than the first. -/
example : place binary64 T S ⟨[⟨0, 0, 0⟩, ⟨0, 0, 1⟩], [8, 1], 0, 1, false, none, some ⟨0, 0, 0⟩, true⟩ (.int 0) ⟨0, 0, 1⟩ 1 2 ⟨5, 5, 5⟩ ⟨0, 0, -1⟩ = .error .assertion ∨
    ∃ m o' p', place binary64 T S ⟨[⟨0, 0, 0⟩, ⟨0, 0, 1⟩], [8, 1], 0, 1, false, none, some ⟨0, 0, 0⟩, true⟩ (.int 0) ⟨0, 0, 1⟩ 1 2 ⟨5, 5, 5⟩ ⟨0, 0, -1⟩ = .ok m ∧
      m.atoms[0]? = some o' ∧ m.atoms[1]? = some p' ∧ |(p' - o').dot ⟨0, 0, -1⟩ - 1| ≤ 1 / 10 ^ 5 := by
  have en : -(⟨0, 0, -1⟩ : V3 ℝ) = ⟨0, 0, 1⟩ := by ext <;> simp
  have l1 : len (⟨0, 0, -1⟩ : V3 ℝ) = 1 := by norm_num [len]
  have l5 : len (⟨5, 5, 5⟩ : V3 ℝ) ≤ 10 := by
    unfold len
    exact (Real.sqrt_le_left (by norm_num)).mpr (by norm_num)
  rcases C147_flip binary64 T S binary64_zeroed.1 (R := 10) (by norm_num) (mol := ⟨[⟨0, 0, 0⟩, ⟨0, 0, 1⟩], [8, 1], 0, 1, false, none, some ⟨0, 0, 0⟩, true⟩) rfl (i := 0)
    (o := ⟨0, 0, 0⟩) (by intro p hp; simp at hp; rcases hp with h | h <;> subst h <;> norm_num [len]) rfl (vec := ⟨0, 0, 1⟩) (theta := 1) (bond := 2) (target := ⟨5, 5, 5⟩) (n := ⟨0, 0, -1⟩)
    (by rw [en, up_direction]) l5 (by norm_num) (by rw [l1]; norm_num) (by norm_num) (by have := up_axis; rw [up_len] at this; rw [en, l1]; exact this)
    with h | ⟨m, o', h, hs, hl, ho, -, -, hd⟩
  · exact Or.inl h
  · right
    have h1 : 1 < m.atoms.length := by rw [hl]; simp
    refine ⟨m, o', m.atoms[1], h, ho, List.getElem?_eq_getElem h1, ?_⟩
    have := hd 1 ⟨0, 0, 1⟩ m.atoms[1] rfl (List.getElem?_eq_getElem h1)
    rw [en, l1] at this
    norm_num [V3.dot] at this ⊢
    linarith

/-- The same two atoms the other way round, over a surface that faces up. -/
example : place binary64 T S ⟨[⟨0, 0, 0⟩, ⟨0, 0, -1⟩], [8, 1], 0, 1, false, none, some ⟨0, 0, 0⟩, true⟩ (.int 0) ⟨0, 0, -1⟩ 1 2 ⟨5, 5, 5⟩ ⟨0, 0, 1⟩ = .error .assertion := by
  have := C147_flip_refuted binary64 T S binary64_zeroed.1 2 (mol := ⟨[⟨0, 0, 0⟩, ⟨0, 0, -1⟩], [8, 1], 0, 1, false, none, some ⟨0, 0, 0⟩, true⟩) (i := 0) (by simp)
    (vec := ⟨0, 0, -1⟩) 1 2 ⟨5, 5, 5⟩ (by rw [down_direction]; ext <;> simp [Tr.unitVec])
  simpa [Tr.unitVec] using this

end Fl
end CZ
