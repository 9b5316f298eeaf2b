import Verif.RoundedAmorphous
import Verif.Props.RoundedMotion
import Verif.Props.Amorphous

/-!
# Property C141: amorphous blocks keep their minimal distance in floats

C60 is about exact arithmetic.  In floats a coordinate may be put into the wrong voxel, differences, squares and sums are rounded, and
the comparison is with a rounded square.
-/

namespace CZ
namespace Fl
namespace Amo
open Spec

noncomputable section

variable (A : Arith)

/-! ## Specification -/

/-- Rounding does not change the sign. -/
def Signed : Prop := ∀ x, 0 ≤ x → 0 ≤ A.rnd x

/-- A usual minimal distance and box: neither is near the smallest numbers, and the box is at most 2^20 minimal distances long. -/
def Usual (m : ℝ) (dims : V3 ℝ) : Prop :=
  (1 / 2) ^ 480 ≤ m ∧ (m / 2 ^ 20 ≤ dims.x ∧ dims.x ≤ 2 ^ 20 * m) ∧ (m / 2 ^ 20 ≤ dims.y ∧ dims.y ≤ 2 ^ 20 * m) ∧
    (m / 2 ^ 20 ≤ dims.z ∧ dims.z ≤ 2 ^ 20 * m)

/-- The square of the minimal distance up to two units in the last place. -/
def Square (m m2 : ℝ) : Prop := |m2 - m ^ 2| ≤ 4 * unit * m ^ 2

/-- Random numbers of one draw, at most `1 - ε`. -/
def Draw (ε : ℝ) (u : V3 ℝ) : Prop := (0 ≤ u.x ∧ u.x ≤ 1 - ε) ∧ (0 ≤ u.y ∧ u.y ≤ 1 - ε) ∧ (0 ≤ u.z ∧ u.z ≤ 1 - ε)

/-! ## Distances -/

theorem tiny_m {m : ℝ} (hm : (1 / 2) ^ 480 ≤ m) : 0 < m ∧ tiny * 2 ^ 50 ≤ m ∧ tiny * 2 ^ 50 ≤ m ^ 2 := by
  have h0 : 0 < m := lt_of_lt_of_le (by positivity) hm
  refine ⟨h0, tiny_small hm, ?_⟩
  have h1 : (1 / 2 : ℝ) ^ 480 * (1 / 2) ^ 480 ≤ m ^ 2 := by
    rw [sq]; exact mul_le_mul hm hm (by positivity) h0.le
  refine le_trans ?_ h1
  unfold tiny
  rw [show (1075 : ℕ) = 480 + (480 + (50 + 65)) from rfl, pow_add, pow_add, pow_add]
  have e : (1 / 2 : ℝ) ^ 50 * 2 ^ 50 = 1 := by rw [← mul_pow]; norm_num
  have p : (0 : ℝ) ≤ (1 / 2) ^ 480 := by positivity
  have l : (1 / 2 : ℝ) ^ 65 ≤ 1 := pow_le_one₀ (by norm_num) (by norm_num)
  generalize (1 / 2 : ℝ) ^ 480 = c at *
  calc c * (c * ((1 / 2) ^ 50 * (1 / 2) ^ 65)) * 2 ^ 50 = c * c * ((1 / 2) ^ 65) * ((1 / 2) ^ 50 * 2 ^ 50) := by ring
    _ = c * c * (1 / 2) ^ 65 := by rw [e, mul_one]
    _ ≤ c * c * 1 := mul_le_mul_of_nonneg_left l (mul_nonneg p p)
    _ = c * c := mul_one _

/-- The smaller of the two differences is not much larger than the direct one. -/
theorem min_near (L a : ℝ) (hL : 0 ≤ L) : |min |A.rnd a| (A.rnd (L - |A.rnd a|))| ≤ (1 + 3 * unit) * |a| + 3 * tiny := by
  have h1 := A.near a
  have hu := unit_pos
  have ht := tiny_pos
  have hu1 : unit ≤ 1 / 2 ^ 50 := by rw [unit_eq]; norm_num
  have hb : |A.rnd a| ≤ (1 + unit) * |a| + tiny := by
    have := abs_sub_abs_le_abs_sub (A.rnd a) a
    linarith
  have ha := abs_nonneg a
  have hr := abs_nonneg (A.rnd a)
  generalize |A.rnd a| = r at *
  have h2 := A.near (L - r)
  generalize A.rnd (L - r) = s at *
  have huu : unit * unit ≤ unit := by nlinarith
  have hua : unit * unit * |a| ≤ unit * |a| := mul_le_mul_of_nonneg_right huu ha
  have hut : unit * tiny ≤ tiny := by nlinarith
  have hfin : (1 + unit) * r + tiny ≤ (1 + 3 * unit) * |a| + 3 * tiny := by
    have := mul_le_mul_of_nonneg_left hb (by linarith : 0 ≤ 1 + unit)
    have e : (1 + unit) * ((1 + unit) * |a| + tiny) = |a| + 2 * (unit * |a|) + unit * unit * |a| + tiny + unit * tiny := by ring
    rw [e] at this
    linarith
  have hru : 0 ≤ unit * r := mul_nonneg hu.le hr
  rcases le_total r s with h | h
  · rw [min_eq_left h, abs_of_nonneg hr]
    linarith
  · rw [min_eq_right h, abs_le]
    refine ⟨?_, by linarith⟩
    have h3 := (abs_le.mp h2).1
    rcases le_total r L with h4 | h4
    · rw [abs_of_nonneg (by linarith : 0 ≤ L - r)] at h3
      have : 0 ≤ (1 - unit) * (L - r) := mul_nonneg (by linarith) (by linarith)
      nlinarith
    · rw [abs_of_nonpos (by linarith : L - r ≤ 0)] at h3
      have : unit * (-(L - r)) ≤ unit * r := mul_le_mul_of_nonneg_left (by linarith) hu.le
      nlinarith

theorem norm3_mono {v w : V3 ℝ} (hx : |v.x| ≤ w.x) (hy : |v.y| ≤ w.y) (hz : |v.z| ≤ w.z) : norm3 v ≤ norm3 w := by
  unfold norm3
  apply Real.sqrt_le_sqrt
  simp only [V3.normSq, V3.dot]
  have := mul_self_le_mul_self (abs_nonneg _) hx
  have := mul_self_le_mul_self (abs_nonneg _) hy
  have := mul_self_le_mul_self (abs_nonneg _) hz
  rw [abs_mul_abs_self] at *
  linarith

/-- Atoms closer than the minimal distance less 2^-30 of it are found too close. -/
theorem pDist_close {m m2 : ℝ} {dims : V3 ℝ} (hU : Usual m dims) (h2 : Square m m2) (p q : V3 ℝ)
    (h : Spec.dist p q ≤ (1 - (1 / 2) ^ 30) * m) : pDist A dims p q < m2 := by
  obtain ⟨hm, hx, hy, -⟩ := hU
  obtain ⟨m0, t1, t2⟩ := tiny_m hm
  have hu := unit_pos
  have ht := tiny_pos
  rw [dist_eq] at h
  unfold pDist
  simp only
  have m20 : 0 ≤ m / 2 ^ 20 := by positivity
  have bx := min_near A dims.x (p.x - q.x) (by linarith)
  have by' := min_near A dims.y (p.y - q.y) (by linarith)
  have bz : |(|A.rnd (p.z - q.z)|)| ≤ (1 + 3 * unit) * |p.z - q.z| + 3 * tiny := by
    rw [abs_abs]
    have h1 := A.near (p.z - q.z)
    have := abs_sub_abs_le_abs_sub (A.rnd (p.z - q.z)) (p.z - q.z)
    have := mul_nonneg hu.le (abs_nonneg (p.z - q.z))
    linarith
  generalize hw : (⟨_, _, _⟩ : V3 ℝ) = w
  have hn : norm3 w ≤ (1 + 3 * unit) * norm3 (p - q) + 6 * tiny := by
    have h1 : norm3 w ≤ norm3 ((1 + 3 * unit) • (⟨|p.x - q.x|, |p.y - q.y|, |p.z - q.z|⟩ : V3 ℝ) + ⟨3 * tiny, 3 * tiny, 3 * tiny⟩) := by
      rw [← hw]
      exact norm3_mono (by simpa using bx) (by simpa using by') (by simpa using bz)
    refine h1.trans ((norm3_add_le _ _).trans (add_le_add ?_ ?_))
    · have e : norm3 (⟨|p.x - q.x|, |p.y - q.y|, |p.z - q.z|⟩ : V3 ℝ) = norm3 (p - q) := by
        unfold norm3; congr 1; simp [V3.normSq, V3.dot]
      rw [norm3_smul, e, abs_of_pos (by linarith)]
    · unfold norm3
      rw [Real.sqrt_le_left (by linarith)]
      simp only [V3.normSq, V3.dot]
      nlinarith
  have hs := (abs_le.mp (sumSq_near A le_rfl (by norm_num) (d := w) (D := w) (e := 0) (by simpa using mul_nonneg hu.le (abs_nonneg _))
    (by simpa using mul_nonneg hu.le (abs_nonneg _)) (by simpa using mul_nonneg hu.le (abs_nonneg _)))).2
  have hq := (abs_le.mp h2).1
  rw [← norm3_sq] at hs
  have hn0 := norm3_nonneg w
  have hn2 : norm3 w ≤ (1 - (1 / 2) ^ 31) * m := by
    have := mul_le_mul_of_nonneg_left h (by linarith : 0 ≤ 1 + 3 * unit)
    refine hn.trans ?_
    rw [unit_eq] at *
    norm_num at *
    linarith
  have hn3 : norm3 w ^ 2 ≤ (1 - (1 / 2) ^ 31) * m ^ 2 := by
    have h1 := pow_le_pow_left₀ hn0 hn2 2
    refine h1.trans ?_
    rw [mul_pow]
    refine mul_le_mul_of_nonneg_right ?_ (by positivity)
    norm_num
  have hm2 : 0 < m ^ 2 := by positivity
  rw [unit_eq] at *
  generalize norm3 w ^ 2 = N at *
  generalize m ^ 2 = M at *
  norm_num at *
  linarith

/-! ## Voxels -/

/-- Rounded quotients of close coordinates have neighbouring whole parts. -/
theorem near_of_close (hA : Signed A) (n : ℕ) (per : Bool) {m a b : ℝ} (hm : 0 < m) (ha : 0 ≤ a) (hb : 0 ≤ b)
    (ha' : a ≤ 2 ^ 21 * m) (hb' : b ≤ 2 ^ 21 * m) (h : |a - b| ≤ (1 - (1 / 2) ^ 30) * m) :
    AxisNear n per ⌊A.rnd (a / m)⌋.toNat ⌊A.rnd (b / m)⌋.toNat := by
  have hfa : 0 ≤ ⌊A.rnd (a / m)⌋ := Int.floor_nonneg.mpr (hA _ (div_nonneg ha hm.le))
  have hfb : 0 ≤ ⌊A.rnd (b / m)⌋ := Int.floor_nonneg.mpr (hA _ (div_nonneg hb hm.le))
  have qa : a / m ≤ 2 ^ 21 := by rw [div_le_iff₀ hm]; exact ha'
  have qb : b / m ≤ 2 ^ 21 := by rw [div_le_iff₀ hm]; exact hb'
  have na := A.near (a / m)
  have nb := A.near (b / m)
  rw [abs_of_nonneg (div_nonneg ha hm.le)] at na
  rw [abs_of_nonneg (div_nonneg hb hm.le)] at nb
  have hd : |a / m - b / m| ≤ 1 - (1 / 2) ^ 30 := by
    rw [← sub_div, abs_div, abs_of_pos hm, div_le_iff₀ hm]; exact h
  have ht : tiny ≤ 1 / 2 ^ 60 := tiny_le_unit
  have na' := abs_le.mp na
  have nb' := abs_le.mp nb
  have hd' := abs_le.mp hd
  rw [unit_eq] at na' nb'
  generalize A.rnd (a / m) = x at *
  generalize A.rnd (b / m) = y at *
  have x0 := Int.floor_le x
  have x1 := Int.lt_floor_add_one x
  have y0 := Int.floor_le y
  have y1 := Int.lt_floor_add_one y
  norm_num at hd' ht
  have u1 : ((⌊y⌋ - ⌊x⌋ : ℤ) : ℝ) < 2 := by push_cast; linarith
  have u2 : (-2 : ℝ) < ((⌊y⌋ - ⌊x⌋ : ℤ) : ℝ) := by push_cast; linarith
  have u1' : ⌊y⌋ - ⌊x⌋ < 2 := by exact_mod_cast u1
  have u2' : -2 < ⌊y⌋ - ⌊x⌋ := by exact_mod_cast u2
  refine ⟨⌊y⌋ - ⌊x⌋, by omega, ?_⟩
  rw [Int.toNat_of_nonneg hfa, Int.toNat_of_nonneg hfb]
  cases per <;> simp

/-- Index of the voxel of a point. -/
def cell (m : ℝ) (p : V3 ℝ) : ℕ × ℕ × ℕ := ((block A m p).1.toNat, (block A m p).2.1.toNat, (block A m p).2.2.toNat)

/-- The point is neither left of the box nor far right of it. -/
def Placed (m : ℝ) (p : V3 ℝ) : Prop :=
  (0 ≤ p.x ∧ p.x ≤ 2 ^ 21 * m) ∧ (0 ≤ p.y ∧ p.y ≤ 2 ^ 21 * m) ∧ (0 ≤ p.z ∧ p.z ≤ 2 ^ 21 * m)

/-- The voxel of the point exists. -/
def OnGrid (dims : V3 ℝ) (m : ℝ) (p : V3 ℝ) : Prop :=
  ∃ tl, CZ.Amo.neighbours (numBlocks A m dims) (block A m p) = .ok tl

theorem onGrid_cell {dims p : V3 ℝ} {m : ℝ} (h : OnGrid A dims m p) :
    (cell A m p).1 < (numBlocks A m dims).1 ∧ (cell A m p).2.1 < (numBlocks A m dims).2.1 ∧ (cell A m p).2.2 < (numBlocks A m dims).2.2 := by
  obtain ⟨tl, h⟩ := h
  unfold CZ.Amo.neighbours at h
  split_ifs at h with hc
  unfold cell
  simp only
  omega

theorem mem_neighbours {dims p : V3 ℝ} {m : ℝ} {tl : List (ℕ × ℕ × ℕ)}
    (h : CZ.Amo.neighbours (numBlocks A m dims) (block A m p) = .ok tl) {t : ℕ × ℕ × ℕ}
    (ht : t.1 < (numBlocks A m dims).1 ∧ t.2.1 < (numBlocks A m dims).2.1 ∧ t.2.2 < (numBlocks A m dims).2.2)
    (hn : CZ.Amo.CellNear (numBlocks A m dims) (cell A m p) t) : t ∈ tl := by
  obtain ⟨c1, c2, c3⟩ := onGrid_cell A ⟨tl, h⟩
  unfold CZ.Amo.neighbours at h
  split_ifs at h with hc
  obtain rfl := Except.ok.inj h
  rw [CZ.Amo.mem_tuples]
  exact ⟨(CZ.Amo.mem_tmpPeriodic c1).mpr ⟨ht.1, hn.1⟩, (CZ.Amo.mem_tmpPeriodic c2).mpr ⟨ht.2.1, hn.2.1⟩,
    (CZ.Amo.mem_tmpOpen c3).mpr ⟨ht.2.2, hn.2.2⟩⟩

/-- What holds of the state between draws. -/
structure Inv (dims : V3 ℝ) (m : ℝ) (st : CZ.Amo.State ℝ) : Prop where
  grid : ∀ p ∈ st.coords, OnGrid A dims m p
  short : ∀ t, ∀ i ∈ st.voxels t, i < st.coords.length
  held : ∀ i p, st.coords[i]? = some p → i ∈ st.voxels (cell A m p)

theorem tryCoord_spec {dims new : V3 ℝ} {m m2 : ℝ} {st : CZ.Amo.State ℝ} (h : Inv A dims m st) :
    (OnGrid A dims m new → ∃ r, tryCoord A dims m m2 st new = .ok r) ∧
    ∀ st', tryCoord A dims m m2 st new = .ok (some st') → st'.coords = st.coords ++ [new] ∧ Inv A dims m st' ∧
      ∀ q ∈ st.coords, CZ.Amo.CellNear (numBlocks A m dims) (cell A m new) (cell A m q) → m2 ≤ pDist A dims q new := by
  unfold tryCoord
  simp only
  cases htl : CZ.Amo.neighbours (numBlocks A m dims) (block A m new) with
  | error e =>
    refine ⟨?_, ?_⟩
    · rintro ⟨tl, h1⟩; rw [htl] at h1; cases h1
    · intro st' h1; cases h1
  | ok tl =>
    obtain ⟨ps, hps, -, hps'⟩ := mapM_pyGet st.coords (tl.flatMap st.voxels) (by
      intro i hi
      obtain ⟨t, -, hi⟩ := List.mem_flatMap.mp hi
      exact h.short t i hi)
    simp only [bind, Except.bind, hps, pure, Except.pure]
    split_ifs with hany
    · exact ⟨fun _ => ⟨_, rfl⟩, fun st' h1 => by cases h1⟩
    · refine ⟨fun _ => ⟨_, rfl⟩, fun st' h1 => ?_⟩
      obtain rfl := Option.some.inj (Except.ok.inj h1)
      refine ⟨rfl, ⟨?_, ?_, ?_⟩, ?_⟩
      · intro p hp
        rcases List.mem_append.mp hp with hp | hp
        · exact h.grid p hp
        · rw [List.mem_singleton] at hp; subst hp; exact ⟨tl, htl⟩
      · intro t i hi
        simp only [List.length_append, List.length_singleton] at hi ⊢
        split_ifs at hi with ht
        · rcases List.mem_append.mp hi with hi | hi
          · have := h.short t i hi; omega
          · rw [List.mem_singleton] at hi; omega
        · have := h.short t i hi; omega
      · intro i p hi
        rcases lt_trichotomy i st.coords.length with hl | rfl | hl
        · rw [List.getElem?_append_left hl] at hi
          have := h.held i p hi
          simp only
          split_ifs
          · exact List.mem_append_left _ this
          · exact this
        · rw [List.getElem?_append_right le_rfl] at hi
          simp at hi
          subst hi
          simp only
          split_ifs with hh
          · simp
          · exact absurd rfl hh
        · rw [List.getElem?_eq_none (by simp; omega)] at hi
          cases hi
      · intro q hq hnear
        by_contra hlt
        apply hany
        rw [List.any_eq_true]
        obtain ⟨i, hi, rfl⟩ := List.mem_iff_getElem.mp hq
        refine ⟨st.coords[i], (hps' _).mpr ⟨i, List.mem_flatMap.mpr ⟨cell A m st.coords[i], ?_, ?_⟩, List.getElem?_eq_getElem hi⟩, ?_⟩
        · exact mem_neighbours A htl (onGrid_cell A (h.grid _ hq)) hnear
        · exact h.held i _ (List.getElem?_eq_getElem hi)
        · rw [decide_eq_true_eq]; exact not_le.mp hlt

/-- The loops keep what each accepted atom keeps. -/
theorem loop_result {dims : V3 ℝ} {m m2 : ℝ} {numC : ℕ} {rng : ℕ → V3 ℝ} (Q : V3 ℝ → Prop) (hQ : ∀ k, Q (scale A dims (rng k)))
    (R : V3 ℝ → V3 ℝ → Prop)
    (hR : ∀ q new, Q q → Q new → (CZ.Amo.CellNear (numBlocks A m dims) (cell A m new) (cell A m q) → m2 ≤ pDist A dims q new) → R q new)
    (fuel : ℕ) : ∀ (k : ℕ) (st : CZ.Amo.State ℝ), Inv A dims m st → (∀ p ∈ st.coords, Q p) → st.coords.Pairwise R → st.coords.length ≤ numC →
      ((∀ k, OnGrid A dims m (scale A dims (rng k))) → ∀ e, loop A dims m m2 numC rng fuel k st ≠ some (.error e)) ∧
      ∀ ps, loop A dims m m2 numC rng fuel k st = some (.ok ps) → ps.Pairwise R ∧ (∀ p ∈ ps, Q p) ∧ ps.length = numC := by
  induction fuel with
  | zero =>
    intro k st hi hq hp hl
    unfold loop
    split_ifs with hc
    · exact ⟨by simp, by simp⟩
    · refine ⟨by simp, fun ps h => ?_⟩
      obtain rfl := Except.ok.inj (Option.some.inj h)
      exact ⟨hp, hq, by omega⟩
  | succ fuel ih =>
    intro k st hi hq hp hl
    unfold loop
    split_ifs with hc
    · obtain ⟨h1, h2⟩ := tryCoord_spec A (m2 := m2) (new := scale A dims (rng k)) hi
      simp only
      cases ht : tryCoord A dims m m2 st (scale A dims (rng k)) with
      | error e =>
        refine ⟨fun hg => ?_, fun ps h => by cases h⟩
        obtain ⟨r, hr⟩ := h1 (hg k)
        rw [ht] at hr; cases hr
      | ok r =>
        cases r with
        | none => exact ih (k + 1) st hi hq hp hl
        | some st' =>
          obtain ⟨e1, e2, e3⟩ := h2 st' ht
          refine ih (k + 1) st' e2 ?_ ?_ ?_
          · rw [e1]
            intro p hp
            rcases List.mem_append.mp hp with hp | hp
            · exact hq p hp
            · rw [List.mem_singleton] at hp; subst hp; exact hQ k
          · rw [e1]
            exact CZ.Amo.pairwise_snoc hp fun q hqm => hR q _ (hq q hqm) (hQ k) (e3 q hqm)
          · rw [e1]; simp; omega
    · refine ⟨by simp, fun ps h => ?_⟩
      obtain rfl := Except.ok.inj (Option.some.inj h)
      exact ⟨hp, hq, by omega⟩

/-! ## Draws -/

theorem tiny_hundred {m : ℝ} (hm : (1 / 2) ^ 480 ≤ m) : tiny * 2 ^ 100 ≤ m ∧ tiny ≤ 1 / 2 ^ 100 := by
  have e : (1 / 2 : ℝ) ^ 100 * 2 ^ 100 = 1 := by rw [← mul_pow]; norm_num
  refine ⟨le_trans ?_ hm, ?_⟩
  · unfold tiny
    rw [show (1075 : ℕ) = 480 + (100 + 495) from rfl, pow_add, pow_add]
    have p : (0 : ℝ) ≤ (1 / 2) ^ 480 := by positivity
    have l : (1 / 2 : ℝ) ^ 495 ≤ 1 := pow_le_one₀ (by norm_num) (by norm_num)
    generalize (1 / 2 : ℝ) ^ 480 = c at *
    generalize (1 / 2 : ℝ) ^ 495 = g at *
    calc c * ((1 / 2) ^ 100 * g) * 2 ^ 100 = c * g * ((1 / 2) ^ 100 * 2 ^ 100) := by ring
      _ = c * g := by rw [e, mul_one]
      _ ≤ c * 1 := mul_le_mul_of_nonneg_left l p
      _ = c := mul_one _
  · have h : (1 / 2 : ℝ) ^ 1075 ≤ (1 / 2) ^ 100 := half_pow_le (by norm_num)
    have e : ((1 : ℝ) / 2) ^ 100 = 1 / 2 ^ 100 := by norm_num
    unfold tiny; exact h.trans e.le

theorem coord_placed (hA : Signed A) {m d u : ℝ} (hm : (1 / 2) ^ 480 ≤ m) (hd : m / 2 ^ 20 ≤ d) (h0 : 0 ≤ u) (h1 : u ≤ 1) :
    0 ≤ A.rnd (u * d) ∧ A.rnd (u * d) ≤ (1 + (1 / 2) ^ 50) * d := by
  obtain ⟨t1, -⟩ := tiny_hundred hm
  have m0 := (tiny_m hm).1
  have hd0 : 0 < d := lt_of_lt_of_le (by positivity) hd
  have hud : 0 ≤ u * d := mul_nonneg h0 hd0.le
  refine ⟨hA _ hud, ?_⟩
  have h := (abs_le.mp (A.near (u * d))).2
  rw [abs_of_nonneg hud] at h
  have : u * d ≤ d := by nlinarith
  rw [unit_eq] at h
  norm_num at *
  linarith

theorem coord_below {m d u : ℝ} (hm : (1 / 2) ^ 480 ≤ m) (hd : m / 2 ^ 20 ≤ d) (h0 : 0 ≤ u)
    (h1 : u ≤ 1 - 4 * unit) (hp : 0 ≤ A.rnd (u * d)) : A.rnd (A.rnd (u * d) / m) < A.rnd (d / m) := by
  obtain ⟨t1, t2⟩ := tiny_hundred hm
  have m0 := (tiny_m hm).1
  have hd0 : 0 < d := lt_of_lt_of_le (by positivity) hd
  have hud : 0 ≤ u * d := mul_nonneg h0 hd0.le
  have a1 := (abs_le.mp (A.near (u * d))).2
  rw [abs_of_nonneg hud] at a1
  have a2 := (abs_le.mp (A.near (A.rnd (u * d) / m))).2
  rw [abs_of_nonneg (div_nonneg hp m0.le)] at a2
  have a3 := (abs_le.mp (A.near (d / m))).1
  rw [abs_of_nonneg (div_nonneg hd0.le m0.le)] at a3
  have b1 : A.rnd (u * d) / m ≤ (1 + unit) * (1 - 4 * unit) * (d / m) + tiny / m := by
    rw [← mul_div_assoc, ← add_div]
    refine div_le_div_of_nonneg_right ?_ m0.le
    have : u * d ≤ (1 - 4 * unit) * d := mul_le_mul_of_nonneg_right h1 hd0.le
    have hu := unit_pos
    nlinarith
  have b2 : tiny / m ≤ 1 / 2 ^ 100 := by
    rw [div_le_div_iff₀ m0 (by positivity), one_mul]; exact t1
  have b3 : 1 / 2 ^ 20 ≤ d / m := by
    rw [le_div_iff₀ m0]
    linarith
  generalize A.rnd (A.rnd (u * d) / m) = X at *
  generalize A.rnd (u * d) / m = x at *
  generalize d / m = y at *
  generalize tiny / m = s at *
  generalize tiny = t at *
  rw [unit_eq] at *
  norm_num at *
  linarith

theorem floor_lt_ceil {x y : ℝ} (hx : 0 ≤ x) (h : x < y) : 0 ≤ ⌊x⌋ ∧ ⌊x⌋ < (⌈y⌉.toNat : ℤ) := by
  refine ⟨Int.floor_nonneg.mpr hx, ?_⟩
  have h1 : ((⌊x⌋ : ℤ) : ℝ) < (⌈y⌉ : ℤ) := (Int.floor_le x).trans_lt (h.trans_le (Int.le_ceil y))
  have h2 : ⌊x⌋ < ⌈y⌉ := by exact_mod_cast h1
  have := Int.floor_nonneg.mpr hx
  omega

theorem scale_onGrid (hA : Signed A) {m : ℝ} {dims u : V3 ℝ} (hU : Usual m dims) (hu : Draw (4 * unit) u) :
    OnGrid A dims m (scale A dims u) := by
  obtain ⟨hm, ⟨hx, -⟩, ⟨hy, -⟩, hz, -⟩ := hU
  obtain ⟨⟨x0, x1⟩, ⟨y0, y1⟩, z0, z1⟩ := hu
  have m0 := (tiny_m hm).1
  have hu := unit_pos
  have px := (coord_placed A hA hm hx x0 (by linarith)).1
  have py := (coord_placed A hA hm hy y0 (by linarith)).1
  have pz := (coord_placed A hA hm hz z0 (by linarith)).1
  have gx := floor_lt_ceil (hA _ (div_nonneg px m0.le)) (coord_below A hm hx x0 x1 px)
  have gy := floor_lt_ceil (hA _ (div_nonneg py m0.le)) (coord_below A hm hy y0 y1 py)
  have gz := floor_lt_ceil (hA _ (div_nonneg pz m0.le)) (coord_below A hm hz z0 z1 pz)
  unfold OnGrid CZ.Amo.neighbours
  rw [if_pos ⟨gx.1, gx.2, gy.1, gy.2, gz.1, gz.2⟩]
  exact ⟨_, rfl⟩

/-- Volume times density as computed. -/
theorem count_near {dims : V3 ℝ} {ρ : ℝ} (hx : 0 ≤ dims.x) (hy : 0 ≤ dims.y) (hz : 0 ≤ dims.z) (hρ : 0 ≤ ρ) :
    |A.rnd (A.rnd (A.rnd (dims.x * dims.y) * dims.z) * ρ) - dims.x * dims.y * dims.z * ρ| ≤
      (1 / 2) ^ 50 * (dims.x * dims.y * dims.z * ρ) + 2 * tiny * (dims.z * ρ + ρ + 1) := by
  obtain ⟨x, y, z⟩ := dims
  simp only at *
  have hu := unit_pos
  have ht := tiny_pos
  have hu1 : unit ≤ 1 / 2 ^ 50 := by rw [unit_eq]; norm_num
  have h1 := A.near (x * y)
  rw [abs_of_nonneg (mul_nonneg hx hy)] at h1
  generalize A.rnd (x * y) = a at *
  have h2 := A.near (a * z)
  rw [abs_mul, abs_of_nonneg hz] at h2
  generalize A.rnd (a * z) = b at *
  have h3 := A.near (b * ρ)
  rw [abs_mul, abs_of_nonneg hρ] at h3
  generalize A.rnd (b * ρ) = c at *
  have hxy := mul_nonneg hx hy
  generalize x * y = s at *
  have ea : |a| ≤ s + (unit * s + tiny) := by
    have := abs_add_le s (a - s)
    rw [add_sub_cancel, abs_of_nonneg hxy] at this
    linarith
  have eb : |b| ≤ |a| * z + (unit * (|a| * z) + tiny) := by
    have := abs_add_le (a * z) (b - a * z)
    rw [add_sub_cancel, abs_mul, abs_of_nonneg hz] at this
    linarith
  have e1 : |a * z * ρ - s * z * ρ| ≤ (unit * s + tiny) * (z * ρ) := by
    rw [show a * z * ρ - s * z * ρ = (a - s) * (z * ρ) by ring, abs_mul, abs_of_nonneg (mul_nonneg hz hρ)]
    exact mul_le_mul_of_nonneg_right h1 (mul_nonneg hz hρ)
  have e2 : |b * ρ - a * z * ρ| ≤ (unit * (|a| * z) + tiny) * ρ := by
    rw [← sub_mul, abs_mul, abs_of_nonneg hρ]
    exact mul_le_mul_of_nonneg_right h2 hρ
  have e3 : |c - s * z * ρ| ≤ |c - b * ρ| + |b * ρ - a * z * ρ| + |a * z * ρ - s * z * ρ| := by
    have := abs_add_le (c - b * ρ) (b * ρ - a * z * ρ)
    have := abs_add_le (c - a * z * ρ) (a * z * ρ - s * z * ρ)
    rw [show c - b * ρ + (b * ρ - a * z * ρ) = c - a * z * ρ by ring] at *
    rw [show c - a * z * ρ + (a * z * ρ - s * z * ρ) = c - s * z * ρ by ring] at *
    linarith
  have fa : |a| * z * ρ ≤ (1 + unit) * (s * z * ρ) + tiny * (z * ρ) := by
    have := mul_le_mul_of_nonneg_right ea (mul_nonneg hz hρ)
    nlinarith
  have fb : |b| * ρ ≤ (1 + unit) * (|a| * z * ρ) + tiny * ρ := by
    have := mul_le_mul_of_nonneg_right eb hρ
    nlinarith
  have p1 : 0 ≤ s * z * ρ := mul_nonneg (mul_nonneg hxy hz) hρ
  have p2 : 0 ≤ tiny * (z * ρ) := mul_nonneg ht.le (mul_nonneg hz hρ)
  have p3 : 0 ≤ tiny * ρ := mul_nonneg ht.le hρ
  rw [show (unit * s + tiny) * (z * ρ) = unit * (s * z * ρ) + tiny * (z * ρ) by ring] at e1
  rw [show (unit * (|a| * z) + tiny) * ρ = unit * (|a| * z * ρ) + tiny * ρ by ring] at e2
  rw [show 2 * tiny * (z * ρ + ρ + 1) = 2 * (tiny * (z * ρ)) + 2 * (tiny * ρ) + 2 * tiny by ring]
  generalize s * z * ρ = V at *
  generalize tiny * (z * ρ) = T1 at *
  generalize tiny * ρ = T2 at *
  generalize |a| * z * ρ = AA at *
  generalize |b| * ρ = BB at *
  generalize tiny = t at *
  rw [unit_eq] at *
  norm_num at *
  linarith

/-- The distance of two placed points which are not compared, or not found too close. -/
theorem apart_of {m m2 : ℝ} {dims : V3 ℝ} (hA : Signed A) (hU : Usual m dims) (h2 : Square m m2) {q new : V3 ℝ} (hq : Placed m q)
    (hn : Placed m new)
    (h : CZ.Amo.CellNear (numBlocks A m dims) (cell A m new) (cell A m q) → m2 ≤ pDist A dims q new) :
    (1 - (1 / 2) ^ 30) * m ≤ Spec.dist q new := by
  by_contra hlt
  rw [not_le] at hlt
  have m0 := (tiny_m hU.1).1
  have hd := hlt.le
  rw [dist_eq] at hd
  obtain ⟨qx, qy, qz⟩ := hq
  obtain ⟨nx, ny, nz⟩ := hn
  have cx : |new.x - q.x| ≤ (1 - (1 / 2) ^ 30) * m := by rw [abs_sub_comm]; exact (comp_le (q - new)).1.trans hd
  have cy : |new.y - q.y| ≤ (1 - (1 / 2) ^ 30) * m := by rw [abs_sub_comm]; exact (comp_le (q - new)).2.1.trans hd
  have cz : |new.z - q.z| ≤ (1 - (1 / 2) ^ 30) * m := by rw [abs_sub_comm]; exact (comp_le (q - new)).2.2.trans hd
  have := h ⟨near_of_close A hA _ _ m0 nx.1 qx.1 nx.2 qx.2 cx, near_of_close A hA _ _ m0 ny.1 qy.1 ny.2 qy.2 cy,
    near_of_close A hA _ _ m0 nz.1 qz.1 nz.2 qz.2 cz⟩
  exact absurd (pDist_close A hU h2 q new hlt.le) (not_lt.mpr this)

/-! ## The property -/

/-- **C141 (distances).** Whatever the draws, if `gen_p_substrate` returns then no two atoms are closer than `min_dist` less 2^-30 of
it, all atoms are in the box up to 2^-50 of its lengths, and their number is volume times density up to 1/2 and 2^-50 of it. -/
theorem C141_separation (hA : Signed A) {m m2 ρ : ℝ} {dims : V3 ℝ} (hU : Usual m dims) (h2 : Square m m2) (hρ : 0 ≤ ρ) (rng : ℕ → V3 ℝ)
    (hr : ∀ k, Draw 0 (rng k)) (fuel : ℕ) (ps : List (V3 ℝ)) (h : genPSubstrate A dims m m2 ρ rng fuel = some (.ok ps)) :
    (ps.Pairwise fun p q => (1 - (1 / 2) ^ 30) * m ≤ Spec.dist p q) ∧
    (∀ p ∈ ps, (0 ≤ p.x ∧ p.x ≤ (1 + (1 / 2) ^ 50) * dims.x) ∧ (0 ≤ p.y ∧ p.y ≤ (1 + (1 / 2) ^ 50) * dims.y) ∧
      (0 ≤ p.z ∧ p.z ≤ (1 + (1 / 2) ^ 50) * dims.z)) ∧
    |(ps.length : ℝ) - dims.x * dims.y * dims.z * ρ| ≤
      1 / 2 + (1 / 2) ^ 50 * (dims.x * dims.y * dims.z * ρ) + 2 * tiny * (dims.z * ρ + ρ + 1) := by
  have m0 := (tiny_m hU.1).1
  obtain ⟨hm, hx, hy, hz⟩ := id hU
  have d0 : 0 ≤ m / 2 ^ 20 := by positivity
  have cn := count_near A (by linarith [hx.1] : 0 ≤ dims.x) (by linarith [hy.1]) (by linarith [hz.1]) hρ
  have rn := npRound_near (A.rnd (A.rnd (A.rnd (dims.x * dims.y) * dims.z) * ρ))
  unfold genPSubstrate at h
  simp only at h
  split_ifs at h with hneg
  · cases Option.some.inj h
  · have hcast := Int.toNat_of_nonneg (not_lt.mp hneg)
    obtain ⟨h1, h3, h4⟩ := (loop_result A (m2 := m2) (rng := rng)
      (fun p => (0 ≤ p.x ∧ p.x ≤ (1 + (1 / 2) ^ 50) * dims.x) ∧ (0 ≤ p.y ∧ p.y ≤ (1 + (1 / 2) ^ 50) * dims.y) ∧
      (0 ≤ p.z ∧ p.z ≤ (1 + (1 / 2) ^ 50) * dims.z)) (fun k => by
        obtain ⟨⟨x0, x1⟩, ⟨y0, y1⟩, z0, z1⟩ := hr k
        exact ⟨coord_placed A hA hm hx.1 x0 (by linarith), coord_placed A hA hm hy.1 y0 (by linarith),
          coord_placed A hA hm hz.1 z0 (by linarith)⟩)
      (fun p q => (1 - (1 / 2) ^ 30) * m ≤ Spec.dist p q) (fun q new hq hn hc => by
        have up (d : ℝ) (hd : d ≤ 2 ^ 20 * m) : (1 + (1 / 2) ^ 50) * d ≤ 2 ^ 21 * m := by
          norm_num at *; linarith
        exact apart_of A hA hU h2 ⟨⟨hq.1.1, hq.1.2.trans (up _ hx.2)⟩, ⟨hq.2.1.1, hq.2.1.2.trans (up _ hy.2)⟩,
          hq.2.2.1, hq.2.2.2.trans (up _ hz.2)⟩ ⟨⟨hn.1.1, hn.1.2.trans (up _ hx.2)⟩, ⟨hn.2.1.1, hn.2.1.2.trans (up _ hy.2)⟩,
          hn.2.2.1, hn.2.2.2.trans (up _ hz.2)⟩ hc)
      fuel 0 ⟨[], fun _ => []⟩ ⟨by simp, by simp, by simp⟩ (by simp) List.Pairwise.nil (by simp)).2 ps h
    refine ⟨h1, h3, ?_⟩
    have e : (ps.length : ℝ) = (npRound (A.rnd (A.rnd (A.rnd (dims.x * dims.y) * dims.z) * ρ)) : ℝ) := by
      rw [h4]; exact_mod_cast congrArg (Int.cast : ℤ → ℝ) hcast
    rw [e]
    refine (abs_sub_le _ (A.rnd (A.rnd (A.rnd (dims.x * dims.y) * dims.z) * ρ)) _).trans ?_
    linarith

/-- **C141 (no exception, partial).** `gen_p_substrate` does not raise if no random number exceeds 1 - 2^-51.  Of the numbers the
generator can draw only the three largest are excluded. -/
theorem C141_no_exception_partial (hA : Signed A) {m m2 ρ : ℝ} {dims : V3 ℝ} (hU : Usual m dims) (hρ : 0 ≤ ρ) (rng : ℕ → V3 ℝ)
    (hr : ∀ k, Draw (4 * unit) (rng k)) (fuel : ℕ) (e : PyErr) : genPSubstrate A dims m m2 ρ rng fuel ≠ some (.error e) := by
  obtain ⟨hm, hx, hy, hz⟩ := id hU
  have m0 := (tiny_m hm).1
  have d0 : 0 ≤ m / 2 ^ 20 := by positivity
  unfold genPSubstrate
  simp only
  rw [if_neg]
  · exact (loop_result A (m2 := m2) (rng := rng) (fun _ => True) (fun _ => trivial) (fun _ _ => True) (fun _ _ _ _ _ => trivial)
      fuel 0 ⟨[], fun _ => []⟩ ⟨by simp, by simp, by simp⟩ (by simp) List.Pairwise.nil (by simp)).1
      (fun k => scale_onGrid A hA hU (hr k)) e
  · rw [not_lt]
    apply npRound_nonneg
    exact hA _ (mul_nonneg (hA _ (mul_nonneg (hA _ (mul_nonneg (by linarith [hx.1]) (by linarith [hy.1]))) (by linarith [hz.1]))) hρ)

/-! ## 64-bit floats -/

/-- Floats keep the sign. -/
theorem binary64_signed : Signed binary64 ∧ Signed binary64Fma := by
  have h : ∀ x, 0 ≤ x → 0 ≤ rnd64 x := fun x hx => by
    unfold rnd64
    have : 0 ≤ npRound (x / 2 ^ exponent x) := npRound_nonneg (div_nonneg hx (by positivity))
    have h2 : (0 : ℝ) ≤ (npRound (x / 2 ^ exponent x) : ℝ) := by exact_mod_cast this
    positivity
  exact ⟨h, h⟩

theorem rnd64_eq {x : ℝ} (e k : ℤ) (he : -1074 ≤ e) (h0 : 2 ^ (e + 52) ≤ x) (h1 : x < 2 ^ (e + 53)) (h : |x - k * 2 ^ e| < 2 ^ e / 2) :
    rnd64 x = k * 2 ^ e := by
  have hx : 0 < x := lt_of_lt_of_le (by positivity) h0
  have hp : (0 : ℝ) < 2 ^ e := by positivity
  have l0 : e + 52 ≤ Int.log 2 |x| := by
    rw [abs_of_pos hx]
    exact (Int.zpow_le_iff_le_log (by norm_num) hx).mp (by exact_mod_cast h0)
  have l1 : Int.log 2 |x| < e + 53 := by
    rw [abs_of_pos hx]
    exact (Int.lt_zpow_iff_log_lt (by norm_num) hx).mp (by exact_mod_cast h1)
  have hex : exponent x = e := by unfold exponent; omega
  unfold rnd64
  rw [hex]
  congr 2
  have n := npRound_near (x / 2 ^ e)
  have h2 : |x / 2 ^ e - k| < 1 / 2 := by
    rw [show x / 2 ^ e - k = (x - k * 2 ^ e) / 2 ^ e by field_simp, abs_div, abs_of_pos hp, div_lt_iff₀ hp]
    linarith
  have n' := abs_le.mp n
  have h2' := abs_lt.mp h2
  generalize npRound (x / 2 ^ e) = r at *
  have a1 : ((r - k : ℤ) : ℝ) < 1 := by push_cast; linarith
  have a2 : (-1 : ℝ) < ((r - k : ℤ) : ℝ) := by push_cast; linarith
  have b1 : r - k < 1 := by exact_mod_cast a1
  have b2 : -1 < r - k := by exact_mod_cast a2
  omega

/-- A minimal distance near 4/3 and a box length near 4, both floats; the length is three times the distance and 2^-52 more. -/
def badM : ℝ := 6004799503160659 / 2 ^ 52
/-- See `badM`. -/
def badD : ℝ := 9007199254740989 / 2 ^ 51

theorem bad_blocks : rnd64 (badD / badM) = 3 := by
  rw [rnd64_eq (-51) (3 * 2 ^ 51) (by norm_num) (by unfold badD badM; norm_num) (by unfold badD badM; norm_num)
    (by unfold badD badM; rw [abs_lt]; norm_num)]
  norm_num

theorem bad_coord : rnd64 ((1 - 1 / 2 ^ 53) * badD) = 9007199254740988 / 2 ^ 51 := by
  rw [rnd64_eq (-51) 9007199254740988 (by norm_num) (by unfold badD; norm_num) (by unfold badD; norm_num)
    (by unfold badD; rw [abs_lt]; norm_num)]
  norm_num

theorem bad_block : rnd64 (9007199254740988 / 2 ^ 51 / badM) = 3 := by
  rw [rnd64_eq (-51) (3 * 2 ^ 51) (by norm_num) (by unfold badM; norm_num) (by unfold badM; norm_num)
    (by unfold badM; rw [abs_lt]; norm_num)]
  norm_num

theorem bad_usual : Usual badM ⟨badD, 1, 1⟩ := by
  refine ⟨?_, ?_⟩
  · have : (1 / 2 : ℝ) ^ 480 ≤ (1 / 2) ^ 0 := half_pow_le (by norm_num)
    refine this.trans ?_
    unfold badM; norm_num
  · unfold badM badD; norm_num

/-- **C141 (no exception, refuted).** In 64-bit floats `gen_p_substrate` can raise an IndexError: for a box of (almost) three minimal
distances the largest number the generator draws, 1 - 2^-53, gives a coordinate inside the box whose voxel index is 3, while there are
three voxels. -/
theorem C141_index_refuted (m2 : ℝ) : Usual badM ⟨badD, 1, 1⟩ ∧ Draw 0 ⟨1 - 1 / 2 ^ 53, 0, 0⟩ ∧
    genPSubstrate binary64 ⟨badD, 1, 1⟩ badM m2 1 (fun _ => ⟨1 - 1 / 2 ^ 53, 0, 0⟩) 1 = some (.error .index) := by
  refine ⟨bad_usual, by unfold Draw; norm_num, ?_⟩
  have hd : 2 ≤ badD ∧ badD ≤ 4 := by unfold badD; norm_num
  have cn := count_near binary64 (dims := ⟨badD, 1, 1⟩) (ρ := 1) (by simp only; linarith) (by norm_num) (by norm_num) (by norm_num)
  have rn := npRound_near (binary64.rnd (binary64.rnd (binary64.rnd (badD * 1) * 1) * 1))
  have ht := tiny_le_unit
  unfold genPSubstrate
  simp only at cn ⊢
  generalize binary64.rnd (binary64.rnd (binary64.rnd (badD * 1) * 1) * 1) = c at *
  have hn : 0 < npRound c := by
    have h1 := (abs_le.mp cn).1
    have h2 := (abs_le.mp rn).1
    have hd' := hd.1
    have hd'' := hd.2
    have : (0 : ℝ) < npRound c := by
      norm_num at h1 ht
      linarith
    exact_mod_cast this
  rw [if_neg (by omega)]
  unfold loop
  rw [if_pos (by simp; omega)]
  simp only
  have ht : tryCoord binary64 ⟨badD, 1, 1⟩ badM m2 ⟨[], fun _ => []⟩ (scale binary64 ⟨badD, 1, 1⟩ ⟨1 - 1 / 2 ^ 53, 0, 0⟩) = .error .index := by
    unfold tryCoord
    simp only
    have : CZ.Amo.neighbours (numBlocks binary64 badM ⟨badD, 1, 1⟩)
        (block binary64 badM (scale binary64 ⟨badD, 1, 1⟩ ⟨1 - 1 / 2 ^ 53, 0, 0⟩)) = .error .index := by
      unfold CZ.Amo.neighbours
      rw [if_neg]
      rintro ⟨-, h, -⟩
      have e1 : (numBlocks binary64 badM ⟨badD, 1, 1⟩).1 = 3 := by
        show ⌈rnd64 (badD / badM)⌉.toNat = 3
        rw [bad_blocks, show (3 : ℝ) = ((3 : ℤ) : ℝ) by norm_num, Int.ceil_intCast]; rfl
      have e2 : (block binary64 badM (scale binary64 ⟨badD, 1, 1⟩ ⟨1 - 1 / 2 ^ 53, 0, 0⟩)).1 = 3 := by
        show ⌊rnd64 (rnd64 ((1 - 1 / 2 ^ 53) * badD) / badM)⌋ = 3
        rw [bad_coord, bad_block]; norm_num
      rw [e1, e2] at h
      norm_num at h
    rw [this]
    rfl
  rw [ht]

/-! ## Concrete cases -/

/-- Arithmetic without errors. -/
def exact : Arith := ⟨id, fun x => by
  have := tiny_pos; have := mul_nonneg unit_pos.le (abs_nonneg x); simp only [id, sub_self, abs_zero]; linarith, fun a b => a.dot b, fun a b => by
    rw [sub_self, abs_zero]; have := tiny_pos; have := unit_pos; positivity⟩

theorem cube_usual : Usual 1 ⟨2, 2, 2⟩ := by
  have : (1 / 2 : ℝ) ^ 480 ≤ (1 / 2) ^ 0 := half_pow_le (by norm_num)
  refine ⟨this.trans (by norm_num), ?_⟩
  norm_num

/-- Concrete case: two atoms in a cube of edge 2, drawn at a corner and in the middle. -/
example : genPSubstrate exact ⟨2, 2, 2⟩ 1 1 (1 / 4) (fun k => if k = 0 then 0 else ⟨1 / 2, 1 / 2, 1 / 2⟩) 2 =
    some (.ok [0, ⟨1, 1, 1⟩]) := by
  have hn : npRound (exact.rnd (exact.rnd (exact.rnd (2 * 2) * 2) * (1 / 4))) = 2 := by
    have e : exact.rnd (exact.rnd (exact.rnd (2 * 2) * 2) * (1 / 4)) = ((2 : ℤ) : ℝ) := by
      show ((2 : ℝ) * 2) * 2 * (1 / 4) = _; norm_num
    rw [e, npRound_int]
  have nb : numBlocks exact 1 ⟨2, 2, 2⟩ = (2, 2, 2) := by
    have : ⌈(2 : ℝ) / 1⌉.toNat = 2 := by
      rw [show (2 : ℝ) / 1 = ((2 : ℤ) : ℝ) by norm_num, Int.ceil_intCast]; rfl
    show (⌈(2 : ℝ) / 1⌉.toNat, ⌈(2 : ℝ) / 1⌉.toNat, ⌈(2 : ℝ) / 1⌉.toNat) = _
    rw [this]
  have b0 : block exact 1 0 = (0, 0, 0) := by
    show (⌊(0 : ℝ) / 1⌋, ⌊(0 : ℝ) / 1⌋, ⌊(0 : ℝ) / 1⌋) = _
    norm_num
  have b1 : block exact 1 ⟨1, 1, 1⟩ = (1, 1, 1) := by
    show (⌊(1 : ℝ) / 1⌋, ⌊(1 : ℝ) / 1⌋, ⌊(1 : ℝ) / 1⌋) = _
    norm_num
  have s0 : scale exact ⟨2, 2, 2⟩ 0 = 0 := by
    show (⟨0 * 2, 0 * 2, 0 * 2⟩ : V3 ℝ) = 0
    ext <;> simp
  have s1 : scale exact ⟨2, 2, 2⟩ ⟨1 / 2, 1 / 2, 1 / 2⟩ = ⟨1, 1, 1⟩ := by
    show (⟨1 / 2 * 2, 1 / 2 * 2, 1 / 2 * 2⟩ : V3 ℝ) = _
    ext <;> norm_num
  have hp : ¬ pDist exact ⟨2, 2, 2⟩ 0 ⟨1, 1, 1⟩ < 1 := by
    unfold pDist sumSq exact
    simp
  unfold genPSubstrate
  simp only
  rw [hn]
  simp only [show ¬ ((2 : ℤ) < 0) by norm_num, if_false]
  unfold loop
  simp only [List.length_nil, show (0 : ℕ) < (2 : ℤ).toNat by decide, if_true]
  rw [s0]
  have t0 : tryCoord exact ⟨2, 2, 2⟩ 1 1 ⟨[], fun _ => []⟩ 0 = .ok (some ⟨[0], fun s => if s = (0, 0, 0) then [0] else []⟩) := by
    unfold tryCoord
    rw [nb, b0]
    rfl
  have t1 : ∃ st', tryCoord exact ⟨2, 2, 2⟩ 1 1 ⟨[0], fun s => if s = (0, 0, 0) then [0] else []⟩ ⟨1, 1, 1⟩ = .ok (some st') ∧
      st'.coords = [0, ⟨1, 1, 1⟩] := by
    unfold tryCoord
    rw [nb, b1]
    simp only
    obtain ⟨tl, htl⟩ : ∃ tl, CZ.Amo.neighbours (2, 2, 2) (1, 1, 1) = .ok tl := ⟨_, rfl⟩
    obtain ⟨ps, hps, -, hps'⟩ := mapM_pyGet [(0 : V3 ℝ)] (tl.flatMap fun s => if s = (0, 0, 0) then [0] else []) (by
      intro i hi
      obtain ⟨t, -, hi⟩ := List.mem_flatMap.mp hi
      split_ifs at hi
      · simpa using hi
      · simp at hi)
    simp only [bind, Except.bind, htl, hps, pure, Except.pure]
    rw [if_neg]
    · exact ⟨_, rfl, rfl⟩
    · rw [List.any_eq_true]
      rintro ⟨p, hp', hlt⟩
      obtain ⟨i, -, hi⟩ := (hps' p).mp hp'
      have : p = 0 := by simpa using List.mem_of_getElem? hi
      rw [this, decide_eq_true_eq] at hlt
      exact hp hlt
  obtain ⟨st', e1, e2⟩ := t1
  rw [t0]
  simp only
  unfold loop
  rw [if_pos (by decide)]
  simp only [show ¬ (0 + 1 = 0) by decide, if_false]
  rw [s1, e1]
  simp only
  unfold loop
  rw [e2, if_neg (by decide)]

/-- Concrete case: in 64-bit floats nothing in a cube of edge 2 is closer than 1 - 2^-30, and nothing is raised. -/
example (rng : ℕ → V3 ℝ) (hr : ∀ k, Draw (4 * unit) (rng k)) (fuel : ℕ) :
    (∀ e, genPSubstrate binary64 ⟨2, 2, 2⟩ 1 1 (1 / 4) rng fuel ≠ some (.error e)) ∧
      ∀ ps, genPSubstrate binary64 ⟨2, 2, 2⟩ 1 1 (1 / 4) rng fuel = some (.ok ps) → ps.Pairwise fun p q => 1 - (1 / 2) ^ 30 ≤ Spec.dist p q := by
  refine ⟨C141_no_exception_partial _ binary64_signed.1 cube_usual (by norm_num) rng hr fuel, fun ps h => ?_⟩
  have := (C141_separation _ binary64_signed.1 cube_usual (by unfold Square; norm_num; exact unit_pos.le) (by norm_num) rng (fun k => by
    obtain ⟨⟨x0, x1⟩, ⟨y0, y1⟩, z0, z1⟩ := hr k
    have := unit_pos
    exact ⟨⟨x0, by linarith⟩, ⟨y0, by linarith⟩, z0, by linarith⟩) fuel ps h).1
  simpa using this

end
end Amo
end Fl
end CZ
