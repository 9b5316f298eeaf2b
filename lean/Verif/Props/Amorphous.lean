import Verif.Amorphous
import Verif.Spec.Amorphous
import Verif.Props.Measure
import Mathlib.Data.Rat.Floor

/-!
# Properties C60, C61: amorphous blocks
-/

set_option linter.unusedSectionVars false

namespace CZ
open Spec

/-- `coords[parts, :]` with indices in range. -/
theorem mapM_pyGet {α : Type} (xs : List α) (is : List ℕ) (h : ∀ i ∈ is, i < xs.length) :
    ∃ ps, is.mapM (pyGet xs) = .ok ps ∧ ps.length = is.length ∧ ∀ p, p ∈ ps ↔ ∃ i ∈ is, xs[i]? = some p := by
  induction is with
  | nil => exact ⟨[], rfl, rfl, by simp⟩
  | cons i is ih =>
    obtain ⟨ps, hp, hl, hm⟩ := ih fun j hj => h j (by simp [hj])
    have hi := h i (by simp)
    refine ⟨xs[i] :: ps, ?_, by simp [hl], ?_⟩
    · rw [List.mapM_cons]
      have : pyGet xs i = .ok xs[i] := by unfold pyGet; rw [List.getElem?_eq_getElem hi]
      rw [this]
      simp only [bind, Except.bind, hp, pure, Except.pure]
    · intro p
      rw [List.mem_cons, hm]
      constructor
      · rintro (rfl | ⟨j, hj, e⟩)
        · exact ⟨i, by simp, List.getElem?_eq_getElem hi⟩
        · exact ⟨j, by simp [hj], e⟩
      · rintro ⟨j, hj, e⟩
        rcases List.mem_cons.mp hj with rfl | hj
        · left; rw [List.getElem?_eq_getElem hi] at e; exact (Option.some.inj e).symm
        · exact .inr ⟨j, hj, e⟩

namespace Amo

/-! ## neighbour lists -/

theorem mem_tmpPeriodic {n i t : ℕ} (hi : i < n) : t ∈ tmpPeriodic n i ↔ t < n ∧ AxisNear n true i t := by
  have hn : (n : ℤ) ≠ 0 := by omega
  unfold tmpPeriodic
  simp only [List.mem_cons, List.not_mem_nil, or_false]
  constructor
  · rintro (rfl | rfl | rfl)
    · exact ⟨hi, 0, by simp, by simp⟩
    · refine ⟨Nat.mod_lt _ (by omega), 1, by simp, ?_⟩
      simp only [if_true]
      push_cast
      have := Int.emod_add_mul_ediv ((i : ℤ) + 1) n
      exact ⟨-(((i : ℤ) + 1) / n), by linear_combination this⟩
    · have h0 := Int.emod_nonneg ((i : ℤ) - 1) hn
      have h1 := Int.emod_lt_of_pos ((i : ℤ) - 1) (show (0 : ℤ) < n by omega)
      refine ⟨by omega, -1, by simp, ?_⟩
      simp only [if_true]
      rw [Int.toNat_of_nonneg h0]
      have := Int.emod_add_mul_ediv ((i : ℤ) - 1) n
      exact ⟨-(((i : ℤ) - 1) / n), by linear_combination this⟩
  · rintro ⟨ht, hnear⟩
    obtain ⟨d, hd, -, e⟩ := Grid.axis_from ht hnear
    rcases hd with rfl | rfl | rfl
    · right; right
      rw [show (i : ℤ) - 1 = i + -1 by ring, e]
      rfl
    · left
      rw [add_zero, Int.emod_eq_of_lt (by omega) (by omega)] at e
      omega
    · right; left
      exact_mod_cast e.symm

theorem mem_tmpOpen {n k t : ℕ} (hk : k < n) : t ∈ tmpOpen n k ↔ t < n ∧ AxisNear n false k t := by
  unfold tmpOpen AxisNear
  simp only [Bool.false_eq_true, if_false, List.mem_append, List.mem_singleton]
  constructor
  · rintro ((rfl | h) | h)
    · exact ⟨hk, 0, by simp, by simp⟩
    · split_ifs at h with h0
      · rw [List.mem_singleton] at h
        exact ⟨by omega, -1, by simp, by omega⟩
      · cases h
    · split_ifs at h with h0
      · rw [List.mem_singleton] at h
        exact ⟨by omega, 1, by simp, by omega⟩
      · cases h
  · rintro ⟨ht, d, hd, e⟩
    rcases hd with rfl | rfl | rfl
    · left; right; rw [if_pos (by omega), List.mem_singleton]; omega
    · left; left; omega
    · right; rw [if_pos (by omega), List.mem_singleton]; omega

theorem mem_tuples {tx ty tz : List ℕ} {t : ℕ × ℕ × ℕ} : t ∈ tuples tx ty tz ↔ t.1 ∈ tx ∧ t.2.1 ∈ ty ∧ t.2.2 ∈ tz := by
  obtain ⟨x, y, z⟩ := t
  unfold tuples
  simp only [List.mem_flatMap, List.mem_map, Prod.mk.injEq]
  constructor
  · rintro ⟨x', hx, y', hy, z', hz, rfl, rfl, rfl⟩; exact ⟨hx, hy, hz⟩
  · rintro ⟨hx, hy, hz⟩; exact ⟨x, hx, y, hy, z, hz, rfl, rfl, rfl⟩

section
variable {K : Type} [Field K] [LinearOrder K] [IsStrictOrderedRing K] [FloorRing K]

/-! ## cells -/

/-- Index of the cell of a coordinate. -/
def cellAt (m a : K) : ℕ := ⌊a / m⌋.toNat

theorem floor_nonneg' {m a : K} (hm : 0 < m) (ha : 0 ≤ a) : 0 ≤ ⌊a / m⌋ := Int.floor_nonneg.mpr (div_nonneg ha hm.le)

theorem cellAt_lt {m a L : K} (hm : 0 < m) (ha : 0 ≤ a) (hL : a < L) : ⌊a / m⌋ < ((⌈L / m⌉.toNat : ℕ) : ℤ) := by
  have h1 : a / m < L / m := div_lt_div_of_pos_right hL hm
  have h2 : a / m < (⌈L / m⌉ : K) := h1.trans_le (Int.le_ceil _)
  have h3 : ⌊a / m⌋ < ⌈L / m⌉ := Int.floor_lt.mpr h2
  omega

theorem floor_close {m a b : K} (hm : 0 < m) (h : |a - b| < m) : ∃ d : ℤ, (d = -1 ∨ d = 0 ∨ d = 1) ∧ ⌊b / m⌋ = ⌊a / m⌋ + d := by
  have ha0 := Int.floor_le (a / m)
  have ha1 := Int.lt_floor_add_one (a / m)
  have hb0 := Int.floor_le (b / m)
  have hb1 := Int.lt_floor_add_one (b / m)
  rw [abs_lt] at h
  have h1 : a / m - b / m < 1 := by rw [← sub_div, div_lt_one hm]; exact h.2
  have h2 : -1 < a / m - b / m := by rw [← sub_div, lt_div_iff₀ hm]; linarith [h.1]
  have u1 : ((⌊b / m⌋ - ⌊a / m⌋ : ℤ) : K) < 2 := by push_cast; linarith
  have u2 : (-2 : K) < ((⌊b / m⌋ - ⌊a / m⌋ : ℤ) : K) := by push_cast; linarith
  have u1' : ⌊b / m⌋ - ⌊a / m⌋ < 2 := by exact_mod_cast u1
  have u2' : -2 < ⌊b / m⌋ - ⌊a / m⌋ := by exact_mod_cast u2
  exact ⟨⌊b / m⌋ - ⌊a / m⌋, by omega, by omega⟩

/-- Coordinates closer than the cell size lie in neighbouring cells, periodic or not. -/
theorem near_of_close (n : ℕ) (per : Bool) {m a b : K} (hm : 0 < m) (ha : 0 ≤ a) (hb : 0 ≤ b) (h : |a - b| < m) :
    AxisNear n per (cellAt m a) (cellAt m b) := by
  obtain ⟨d, hd, e⟩ := floor_close hm h
  have ha' := floor_nonneg' hm ha
  have hb' := floor_nonneg' hm hb
  unfold cellAt
  refine ⟨d, hd, ?_⟩
  rw [Int.toNat_of_nonneg ha', Int.toNat_of_nonneg hb', e]
  cases per <;> simp

/-- The same around a periodic axis, if the box is a whole number of cells or has at most three of them. -/
theorem near_of_close_image {m L a b : K} (hm : 0 < m) (hw : WholeCells m L) (ha : 0 ≤ a) (haL : a < L) (hb : 0 ≤ b) (hbL : b < L)
    (i : ℤ) (h : |a - (b + i * L)| < m) : AxisNear ⌈L / m⌉.toNat true (cellAt m a) (cellAt m b) := by
  have ha' := floor_nonneg' hm ha
  have hb' := floor_nonneg' hm hb
  have ha1 := cellAt_lt hm ha haL
  have hb1 := cellAt_lt hm hb hbL
  rcases hw with ⟨n, hn⟩ | hn
  · have hc : ⌈L / m⌉.toNat = n := by
      rw [hn, mul_div_assoc, div_self hm.ne', mul_one, Int.ceil_natCast]; rfl
    rw [hc]
    obtain ⟨d, hd, e⟩ := floor_close hm h
    have : (b + i * L) / m = b / m + ((i * n : ℤ) : K) := by
      rw [hn]; push_cast; field_simp
    rw [this, Int.floor_add_intCast] at e
    unfold cellAt
    refine ⟨d, hd, ?_⟩
    simp only [if_true]
    rw [Int.toNat_of_nonneg ha', Int.toNat_of_nonneg hb']
    exact ⟨-i, by linear_combination e⟩
  · have hc : ⌈L / m⌉.toNat ≤ 3 := by
      have : L / m ≤ ((3 : ℤ) : K) := by rw [div_le_iff₀ hm]; push_cast; exact hn
      have := Int.ceil_le.mpr this
      omega
    unfold AxisNear
    simp only [if_true]
    unfold cellAt
    rw [Int.toNat_of_nonneg ha', Int.toNat_of_nonneg hb']
    generalize ⌈L / m⌉.toNat = n at *
    generalize ⌊a / m⌋ = x at *
    generalize ⌊b / m⌋ = y at *
    have hcases : y - x = -2 ∨ y - x = -1 ∨ y - x = 0 ∨ y - x = 1 ∨ y - x = 2 := by omega
    rcases hcases with h1 | h1 | h1 | h1 | h1
    · exact ⟨1, by simp, -1, by rw [show (n : ℤ) = 3 by omega]; omega⟩
    · exact ⟨-1, by simp, 0, by omega⟩
    · exact ⟨0, by simp, 0, by omega⟩
    · exact ⟨1, by simp, 0, by omega⟩
    · exact ⟨-1, by simp, 1, by rw [show (n : ℤ) = 3 by omega]; omega⟩

/-! ## distances -/

theorem pDist_least (dims c new : V3 K) (hc : InBox dims c) (hn : InBox dims new) :
    IsLeast (imageDistances dims true true false c new) (pDist dims c new) := by
  obtain ⟨f, hf, h⟩ := C58_box_partial dims true true false c new
    ⟨hc.1.1, hc.1.2.le, hc.2.1.1, hc.2.1.2.le, hc.2.2.1, hc.2.2.2.le⟩ ⟨hn.1.1, hn.1.2.le, hn.2.1.1, hn.2.1.2.le, hn.2.2.1, hn.2.2.2.le⟩
  have : f c new = pDist dims c new := by
    have := Except.ok.inj hf
    rw [← this]
    unfold pDist sdistAxis
    simp only [if_true, Bool.false_eq_true, if_false, min_self]
    ring
  rwa [this] at h

theorem sqDist_mem (dims p q : V3 K) : sqDist p q ∈ imageDistances dims true true false p q :=
  ⟨0, 0, 0, by simp, by simp, by simp, by unfold sqDist; simp⟩

theorem images_comm (dims p q : V3 K) : imageDistances dims true true false p q = imageDistances dims true true false q p := by
  have key : ∀ p q : V3 K, imageDistances dims true true false p q ⊆ imageDistances dims true true false q p := by
    rintro p q s ⟨i, j, k, h1, h2, h3, rfl⟩
    exact ⟨-i, -j, -k, by simp, by simp, fun h => by rw [h3 h]; simp, by push_cast; ring⟩
  exact Set.Subset.antisymm (key p q) (key q p)

/-- If a square sum is below `m²`, each term is below `m` in absolute value. -/
theorem abs_lt_of_sum {m a b c : K} (hm : 0 < m) (h : a ^ 2 + b ^ 2 + c ^ 2 < m ^ 2) : |a| < m ∧ |b| < m ∧ |c| < m := by
  refine ⟨abs_lt_of_sq_lt_sq ?_ hm.le, abs_lt_of_sq_lt_sq ?_ hm.le, abs_lt_of_sq_lt_sq ?_ hm.le⟩ <;>
    nlinarith [sq_nonneg a, sq_nonneg b, sq_nonneg c]

/-! ## one draw -/

/-- Cell of a point. -/
def cell (m : K) (p : V3 K) : ℕ × ℕ × ℕ := (cellAt m p.x, cellAt m p.y, cellAt m p.z)

/-- Cells that the algorithm compares. -/
def CellNear (n s t : ℕ × ℕ × ℕ) : Prop :=
  AxisNear n.1 true s.1 t.1 ∧ AxisNear n.2.1 true s.2.1 t.2.1 ∧ AxisNear n.2.2 false s.2.2 t.2.2

/-- What holds of the state between draws. -/
structure Inv (dims : V3 K) (m : K) (st : State K) : Prop where
  box : ∀ p ∈ st.coords, InBox dims p
  vox : ∀ t i, i ∈ st.voxels t ↔ ∃ p, st.coords[i]? = some p ∧ cell m p = t

theorem cell_lt {dims p : V3 K} {m : K} (hm : 0 < m) (hp : InBox dims p) :
    (cell m p).1 < (numBlocks m dims).1 ∧ (cell m p).2.1 < (numBlocks m dims).2.1 ∧ (cell m p).2.2 < (numBlocks m dims).2.2 := by
  have h1 := cellAt_lt hm hp.1.1 hp.1.2
  have h2 := cellAt_lt hm hp.2.1.1 hp.2.1.2
  have h3 := cellAt_lt hm hp.2.2.1 hp.2.2.2
  have g1 := floor_nonneg' hm hp.1.1
  have g2 := floor_nonneg' hm hp.2.1.1
  have g3 := floor_nonneg' hm hp.2.2.1
  unfold cell cellAt numBlocks
  simp only
  omega

theorem neighbours_spec {dims p : V3 K} {m : K} (hm : 0 < m) (hp : InBox dims p) :
    ∃ tl, neighbours (numBlocks m dims) (block m p) = .ok tl ∧ ∀ t, t ∈ tl ↔
      (t.1 < (numBlocks m dims).1 ∧ t.2.1 < (numBlocks m dims).2.1 ∧ t.2.2 < (numBlocks m dims).2.2) ∧
        CellNear (numBlocks m dims) (cell m p) t := by
  obtain ⟨c1, c2, c3⟩ := cell_lt hm hp
  have g1 := floor_nonneg' hm hp.1.1
  have g2 := floor_nonneg' hm hp.2.1.1
  have g3 := floor_nonneg' hm hp.2.2.1
  refine ⟨tuples (tmpPeriodic (numBlocks m dims).1 (cell m p).1) (tmpPeriodic (numBlocks m dims).2.1 (cell m p).2.1)
    (tmpOpen (numBlocks m dims).2.2 (cell m p).2.2), ?_, ?_⟩
  · unfold neighbours
    rw [if_pos]
    · rfl
    · unfold cell cellAt at c1 c2 c3
      simp only at c1 c2 c3
      unfold block
      simp only
      omega
  · intro t
    rw [mem_tuples, mem_tmpPeriodic c1, mem_tmpPeriodic c2, mem_tmpOpen c3]
    unfold CellNear
    tauto

/-- One draw inside the box: nothing is raised; the point is refused exactly when an atom of a neighbouring cell is too
close, otherwise it is added. -/
theorem tryCoord_spec {dims new : V3 K} {m : K} {st : State K} (hm : 0 < m) (h : Inv dims m st) (hn : InBox dims new) :
    (tryCoord dims m st new = .ok none ∧
        ∃ q ∈ st.coords, CellNear (numBlocks m dims) (cell m new) (cell m q) ∧ pDist dims q new < m ^ 2) ∨
      (∃ st', tryCoord dims m st new = .ok (some st') ∧ st'.coords = st.coords ++ [new] ∧ Inv dims m st' ∧
        ∀ q ∈ st.coords, CellNear (numBlocks m dims) (cell m new) (cell m q) → m ^ 2 ≤ pDist dims q new) := by
  obtain ⟨tl, htl, hmem⟩ := neighbours_spec hm hn
  obtain ⟨ps, hps, -, hps'⟩ := mapM_pyGet st.coords (tl.flatMap st.voxels) (by
    intro i hi
    obtain ⟨t, -, hi⟩ := List.mem_flatMap.mp hi
    obtain ⟨p, hp, -⟩ := (h.vox t i).mp hi
    exact (List.getElem?_eq_some_iff.mp hp).1)
  have hps2 : ∀ q, q ∈ ps ↔ q ∈ st.coords ∧ CellNear (numBlocks m dims) (cell m new) (cell m q) := by
    intro q
    rw [hps']
    constructor
    · rintro ⟨i, hi, e⟩
      obtain ⟨t, ht, hi⟩ := List.mem_flatMap.mp hi
      obtain ⟨p, hp, rfl⟩ := (h.vox t i).mp hi
      rw [e] at hp
      obtain rfl := Option.some.inj hp
      exact ⟨List.mem_of_getElem? e, ((hmem _).mp ht).2⟩
    · rintro ⟨hq, hnear⟩
      obtain ⟨i, hi, rfl⟩ := List.mem_iff_getElem.mp hq
      refine ⟨i, List.mem_flatMap.mpr ⟨cell m st.coords[i], (hmem _).mpr ⟨cell_lt hm (h.box _ hq), hnear⟩, ?_⟩,
        List.getElem?_eq_getElem hi⟩
      exact (h.vox _ i).mpr ⟨_, List.getElem?_eq_getElem hi, rfl⟩
  have hform : tryCoord dims m st new = if ps.any fun c => decide (pDist dims c new < m ^ 2) then .ok none
      else .ok (some ⟨st.coords ++ [new], fun s => if s = cell m new then st.voxels s ++ [st.coords.length] else st.voxels s⟩) := by
    unfold tryCoord
    simp only [htl, bind, Except.bind, hps, pure, Except.pure]
    rfl
  rw [hform]
  by_cases hany : (ps.any fun c => decide (pDist dims c new < m ^ 2)) = true
  · left
    refine ⟨if_pos hany, ?_⟩
    obtain ⟨q, hq, hlt⟩ := List.any_eq_true.mp hany
    rw [decide_eq_true_eq] at hlt
    obtain ⟨h1, h2⟩ := (hps2 q).mp hq
    exact ⟨q, h1, h2, hlt⟩
  · right
    refine ⟨_, if_neg hany, rfl, ⟨?_, ?_⟩, ?_⟩
    · intro p hp
      rcases List.mem_append.mp hp with hp | hp
      · exact h.box p hp
      · rw [List.mem_singleton] at hp; subst hp; exact hn
    · intro t i
      simp only
      have hold : (∃ p, (st.coords ++ [new])[i]? = some p ∧ cell m p = t) ↔
          (i ∈ st.voxels t ∨ (i = st.coords.length ∧ cell m new = t)) := by
        rw [h.vox]
        rcases lt_trichotomy i st.coords.length with hi | rfl | hi
        · rw [List.getElem?_append_left hi]
          constructor
          · exact .inl
          · rintro (h | ⟨h, -⟩)
            · exact h
            · omega
        · rw [List.getElem?_append_right le_rfl]
          simp
        · rw [List.getElem?_eq_none (by simp; omega), List.getElem?_eq_none (by omega)]
          constructor
          · rintro ⟨p, hp, -⟩; cases hp
          · rintro (⟨p, hp, -⟩ | ⟨h, -⟩)
            · cases hp
            · omega
      rw [hold]
      split_ifs with ht
      · subst ht; simp
      · constructor
        · exact .inl
        · rintro (h | ⟨-, h⟩)
          · exact h
          · exact absurd h.symm ht
    · intro q hq hnear
      by_contra hlt
      apply hany
      rw [List.any_eq_true]
      exact ⟨q, (hps2 q).mpr ⟨hq, hnear⟩, by rw [decide_eq_true_eq]; exact not_le.mp hlt⟩

/-- Points closer than `m` lie in neighbouring cells. -/
theorem cellNear_of_close {dims p q : V3 K} {m : K} (hm : 0 < m) (hp : InBox dims p) (hq : InBox dims q) (h : sqDist p q < m ^ 2) :
    CellNear (numBlocks m dims) (cell m p) (cell m q) := by
  obtain ⟨h1, h2, h3⟩ := abs_lt_of_sum hm h
  exact ⟨near_of_close _ _ hm hp.1.1 hq.1.1 h1, near_of_close _ _ hm hp.2.1.1 hq.2.1.1 h2, near_of_close _ _ hm hp.2.2.1 hq.2.2.1 h3⟩

/-- Points closer than `m` to an image lie in neighbouring cells, for boxes of whole cells. -/
theorem cellNear_of_image {dims p q : V3 K} {m s : K} (hm : 0 < m) (hx : WholeCells m dims.x) (hy : WholeCells m dims.y)
    (hp : InBox dims p) (hq : InBox dims q) (hs : s ∈ imageDistances dims true true false p q) (h : s < m ^ 2) :
    CellNear (numBlocks m dims) (cell m p) (cell m q) := by
  obtain ⟨i, j, k, -, -, hk, rfl⟩ := hs
  obtain ⟨h1, h2, h3⟩ := abs_lt_of_sum hm h
  rw [hk rfl] at h3
  refine ⟨near_of_close_image hm hx hp.1.1 hp.1.2 hq.1.1 hq.1.2 i h1, near_of_close_image hm hy hp.2.1.1 hp.2.1.2 hq.2.1.1 hq.2.1.2 j h2,
    near_of_close _ _ hm hp.2.2.1 hq.2.2.1 (by simpa using h3)⟩

/-! ## the loop -/

/-- An invariant of accepted draws is a property of every result. -/
theorem loop_result {dims : V3 K} {m : K} {numC : ℕ} {rng : ℕ → V3 K} (hm : 0 < m) (hrng : ∀ k, InBox dims (scale dims (rng k)))
    (P : List (V3 K) → Prop)
    (hP : ∀ ps new, (∀ p ∈ ps, InBox dims p) → InBox dims new → P ps →
      (∀ q ∈ ps, CellNear (numBlocks m dims) (cell m new) (cell m q) → m ^ 2 ≤ pDist dims q new) → P (ps ++ [new]))
    (fuel : ℕ) : ∀ (k : ℕ) (st : State K), Inv dims m st → P st.coords → st.coords.length ≤ numC →
      (∀ e, loop dims m numC rng fuel k st ≠ some (.error e)) ∧
      ∀ ps, loop dims m numC rng fuel k st = some (.ok ps) → P ps ∧ (∀ p ∈ ps, InBox dims p) ∧ ps.length = numC := by
  induction fuel with
  | zero =>
    intro k st hi hp hl
    unfold loop
    split_ifs with hc
    · exact ⟨by simp, by simp⟩
    · refine ⟨by simp, fun ps h => ?_⟩
      obtain rfl := Except.ok.inj (Option.some.inj h)
      exact ⟨hp, hi.box, by omega⟩
  | succ fuel ih =>
    intro k st hi hp hl
    unfold loop
    split_ifs with hc
    · simp only
      rcases tryCoord_spec hm hi (hrng k) with ⟨h1, -⟩ | ⟨st', h1, h2, h3, h4⟩
      · rw [h1]
        exact ih (k + 1) st hi hp hl
      · rw [h1]
        refine ih (k + 1) st' h3 ?_ ?_
        · rw [h2]; exact hP _ _ hi.box (hrng k) hp h4
        · rw [h2]; simp; omega
    · refine ⟨by simp, fun ps h => ?_⟩
      obtain rfl := Except.ok.inj (Option.some.inj h)
      exact ⟨hp, hi.box, by omega⟩

theorem inv_init (dims : V3 K) (m : K) : Inv dims m ⟨[], fun _ => []⟩ := ⟨by simp, by simp⟩

/-- Random numbers of [0, 1). -/
def Unit (u : V3 K) : Prop := (0 ≤ u.x ∧ u.x < 1) ∧ (0 ≤ u.y ∧ u.y < 1) ∧ (0 ≤ u.z ∧ u.z < 1)

theorem scale_box {dims u : V3 K} (hd : 0 < dims.x ∧ 0 < dims.y ∧ 0 < dims.z) (hu : Unit u) : InBox dims (scale dims u) := by
  unfold InBox scale
  refine ⟨⟨mul_nonneg hu.1.1 hd.1.le, ?_⟩, ⟨mul_nonneg hu.2.1.1 hd.2.1.le, ?_⟩, ⟨mul_nonneg hu.2.2.1 hd.2.2.le, ?_⟩⟩
  · simpa using mul_lt_mul_of_pos_right hu.1.2 hd.1
  · simpa using mul_lt_mul_of_pos_right hu.2.1.2 hd.2.1
  · simpa using mul_lt_mul_of_pos_right hu.2.2.2 hd.2.2

/-- `P` holds of every result of `gen_p_substrate`. -/
theorem gen_result {dims : V3 K} {m density : K} {rng : ℕ → V3 K} (hm : 0 < m) (hd : 0 ≤ dims.x ∧ 0 ≤ dims.y ∧ 0 ≤ dims.z)
    (hden : 0 ≤ density) (hrng : ∀ k, Unit (rng k)) (P : List (V3 K) → Prop) (h0 : P [])
    (hP : ∀ ps new, (∀ p ∈ ps, InBox dims p) → InBox dims new → P ps →
      (∀ q ∈ ps, CellNear (numBlocks m dims) (cell m new) (cell m q) → m ^ 2 ≤ pDist dims q new) → P (ps ++ [new]))
    (fuel : ℕ) : (∀ e, genPSubstrate dims m density rng fuel ≠ some (.error e)) ∧
      ∀ ps, genPSubstrate dims m density rng fuel = some (.ok ps) → P ps ∧ (∀ p ∈ ps, InBox dims p) ∧
        |(ps.length : K) - dims.x * dims.y * dims.z * density| ≤ 1 / 2 ∧ (ps.length : ℤ) = npRound (dims.x * dims.y * dims.z * density) := by
  have hv : 0 ≤ dims.x * dims.y * dims.z * density := mul_nonneg (mul_nonneg (mul_nonneg hd.1 hd.2.1) hd.2.2) hden
  have hn := npRound_nonneg hv
  have hr := npRound_near (dims.x * dims.y * dims.z * density)
  unfold genPSubstrate
  simp only [if_neg (not_lt.mpr hn)]
  have hcast : ((npRound (dims.x * dims.y * dims.z * density)).toNat : K) = (npRound (dims.x * dims.y * dims.z * density) : K) := by
    have := Int.toNat_of_nonneg hn
    exact_mod_cast congrArg (Int.cast : ℤ → K) this
  by_cases hz : dims.x * dims.y * dims.z = 0
  · have hzero : npRound (dims.x * dims.y * dims.z * density) = 0 := by
      rw [hz, zero_mul]; simpa using npRound_int (K := K) 0
    rw [hzero, hz]
    have : ∀ fuel k, loop dims m (0 : ℤ).toNat rng fuel k ⟨[], fun _ => []⟩ = some (.ok []) := by
      intro fuel k; unfold loop; simp
    rw [this]
    refine ⟨by simp, fun ps h => ?_⟩
    obtain rfl := Except.ok.inj (Option.some.inj h)
    exact ⟨h0, by simp, by simp, by simpa using hzero.symm⟩
  · have hpos : 0 < dims.x ∧ 0 < dims.y ∧ 0 < dims.z := by
      refine ⟨hd.1.lt_of_ne' ?_, hd.2.1.lt_of_ne' ?_, hd.2.2.lt_of_ne' ?_⟩ <;> intro h <;> apply hz <;> rw [h] <;> simp
    obtain ⟨h1, h2⟩ := loop_result (numC := (npRound (dims.x * dims.y * dims.z * density)).toNat) hm
      (fun k => scale_box hpos (hrng k)) P hP fuel 0 ⟨[], fun _ => []⟩ (inv_init dims m) h0 (by simp)
    refine ⟨h1, fun ps h => ?_⟩
    obtain ⟨a, b, c⟩ := h2 ps h
    exact ⟨a, b, by rw [c, hcast]; exact hr, by rw [c]; exact Int.toNat_of_nonneg hn⟩

theorem pairwise_snoc {α : Type} {R : α → α → Prop} {xs : List α} {x : α} (h : xs.Pairwise R) (hx : ∀ y ∈ xs, R y x) :
    (xs ++ [x]).Pairwise R := by
  rw [List.pairwise_append]
  refine ⟨h, by simp, ?_⟩
  intro a ha b hb
  rw [List.mem_singleton] at hb
  subst hb
  exact hx a ha

/-- **C60.** `gen_p_substrate` never raises for a positive minimal distance, and in every result any two atoms are at least
`min_dist` apart, all atoms lie in the box, and their number is the rounded product of volume and density: for every
stream of random numbers. -/
theorem C60_separation (dims : V3 K) (m density : K) (rng : ℕ → V3 K) (hm : 0 < m) (hd : 0 ≤ dims.x ∧ 0 ≤ dims.y ∧ 0 ≤ dims.z)
    (hden : 0 ≤ density) (hrng : ∀ k, Unit (rng k)) (fuel : ℕ) :
    (∀ e, genPSubstrate dims m density rng fuel ≠ some (.error e)) ∧
      ∀ ps, genPSubstrate dims m density rng fuel = some (.ok ps) → Apart m ps ∧ (∀ p ∈ ps, InBox dims p) ∧
        |(ps.length : K) - dims.x * dims.y * dims.z * density| ≤ 1 / 2 := by
  refine (fun h => ⟨h.1, fun ps hps => ⟨(h.2 ps hps).1, (h.2 ps hps).2.1, (h.2 ps hps).2.2.1⟩⟩) (gen_result hm hd hden hrng (Apart m) List.Pairwise.nil ?_ fuel)
  intro ps new hb hnew hp hacc
  refine pairwise_snoc hp fun q hq => ?_
  by_contra hlt
  rw [not_le] at hlt
  have hc := sqDist_mem dims q new
  have hlt' : sqDist new q < m ^ 2 := by unfold sqDist at hlt ⊢; linarith
  have := hacc q hq (cellNear_of_close hm hnew (hb q hq) hlt')
  have := (pDist_least dims q new (hb q hq) hnew).2 hc
  linarith

/-- **C60 (negative count).** A volume times density below -1/2 raises ValueError (`np.zeros` of a negative shape), before anything is drawn. -/
theorem C60_negative (dims : V3 K) (m density : K) (rng : ℕ → V3 K) (h : dims.x * dims.y * dims.z * density < -(1 / 2)) (fuel : ℕ) :
    genPSubstrate dims m density rng fuel = some (.error .value) := by
  have hr := abs_le.mp (npRound_near (dims.x * dims.y * dims.z * density))
  have : npRound (dims.x * dims.y * dims.z * density) < 0 := by
    have : (npRound (dims.x * dims.y * dims.z * density) : K) < 0 := by linarith [hr.2]
    exact_mod_cast this
  unfold genPSubstrate
  simp only [if_pos this]

/-- **C60 (ties).** When volume times density lies halfway between two whole numbers, the even one is the number of atoms. -/
theorem C60_ties (dims : V3 K) (m density : K) (rng : ℕ → V3 K) (hm : 0 < m) (hd : 0 ≤ dims.x ∧ 0 ≤ dims.y ∧ 0 ≤ dims.z)
    (hden : 0 ≤ density) (hrng : ∀ k, Unit (rng k)) (fuel : ℕ) (ps : List (V3 K)) (h : genPSubstrate dims m density rng fuel = some (.ok ps))
    (ht : |(ps.length : K) - dims.x * dims.y * dims.z * density| = 1 / 2) : Even ps.length := by
  obtain ⟨-, -, -, hc⟩ := (gen_result hm hd hden hrng (fun _ => True) trivial (fun _ _ _ _ _ _ => trivial) fuel).2 ps h
  have := npRound_even (dims.x * dims.y * dims.z * density) (by rw [← hc]; exact_mod_cast ht)
  rw [← hc] at this
  exact_mod_cast this

/-- **C61 (partial).** If the box lengths along x and y are whole multiples of `min_dist`, or at most three times it, then in
every result any two atoms are at least `min_dist` apart also across the periodic boundary.  Missing: other box lengths, for
which it is false (`C61_refuted`). -/
theorem C61_periodic_partial (dims : V3 K) (m density : K) (rng : ℕ → V3 K) (hm : 0 < m) (hd : 0 ≤ dims.x ∧ 0 ≤ dims.y ∧ 0 ≤ dims.z)
    (hden : 0 ≤ density) (hrng : ∀ k, Unit (rng k)) (hx : WholeCells m dims.x) (hy : WholeCells m dims.y) (fuel : ℕ)
    (ps : List (V3 K)) (h : genPSubstrate dims m density rng fuel = some (.ok ps)) : ApartXY dims m ps := by
  refine ((gen_result hm hd hden hrng (ApartXY dims m) List.Pairwise.nil ?_ fuel).2 ps h).1
  intro ps new hb hnew hp hacc
  refine pairwise_snoc hp fun q hq s hs => ?_
  by_contra hlt
  rw [not_le] at hlt
  have := hacc q hq (cellNear_of_image hm hx hy hnew (hb q hq) (by rw [images_comm]; exact hs) hlt)
  have := (pDist_least dims q new (hb q hq) hnew).2 hs
  linarith

/-- **C61 (acceptance, partial).** In such boxes a drawn coordinate is accepted exactly when it is at least `min_dist` away from
all earlier atoms and their images: nothing is refused needlessly. -/
theorem C61_accepts_partial (dims : V3 K) (m : K) (hm : 0 < m) (hx : WholeCells m dims.x) (hy : WholeCells m dims.y) (st : State K)
    (h : Inv dims m st) (new : V3 K) (hn : InBox dims new) :
    (∃ st', tryCoord dims m st new = .ok (some st')) ↔
      ∀ q ∈ st.coords, ∀ s ∈ imageDistances dims true true false q new, m ^ 2 ≤ s := by
  constructor
  · rintro ⟨st', e⟩ q hq s hs
    rcases tryCoord_spec hm h hn with ⟨h1, -⟩ | ⟨st'', h1, h2, h3, h4⟩
    · rw [h1] at e; cases e
    · by_contra hlt
      rw [not_le] at hlt
      have := h4 q hq (cellNear_of_image hm hx hy hn (h.box q hq) (by rw [images_comm]; exact hs) hlt)
      have := (pDist_least dims q new (h.box q hq) hn).2 hs
      linarith
  · intro hall
    rcases tryCoord_spec hm h hn with ⟨-, q, hq, -, hlt⟩ | ⟨st', h1, -⟩
    · have := hall q hq _ (pDist_least dims q new (h.box q hq) hn).1
      linarith
    · exact ⟨st', h1⟩

end

/-- **C61, finding.** Box of 3.2 minimal distances along x: atoms at 0.1 and 2.9 are accepted although across the boundary they are
only 0.4 apart. -/
theorem C61_refuted :
    genPSubstrate (⟨16 / 5, 1, 1⟩ : V3 ℚ) 1 (5 / 8) (fun k => if k = 0 then ⟨1 / 32, 0, 0⟩ else ⟨29 / 32, 0, 0⟩) 2 =
        some (.ok [⟨1 / 10, 0, 0⟩, ⟨29 / 10, 0, 0⟩]) ∧
      ¬ ApartXY (⟨16 / 5, 1, 1⟩ : V3 ℚ) 1 [⟨1 / 10, 0, 0⟩, ⟨29 / 10, 0, 0⟩] := by
  refine ⟨by decide +kernel, fun h => ?_⟩
  have := List.rel_of_pairwise_cons h (a' := ⟨29 / 10, 0, 0⟩) (by simp) (4 / 25)
    ⟨-1, 0, 0, by simp, by simp, by simp, by norm_num⟩
  norm_num at this

/-- Concrete case of a tie: a volume of 5 with density 1/2, so 5/2, gives two atoms. -/
example : genPSubstrate (⟨5, 1, 1⟩ : V3 ℚ) 1 (1 / 2) (fun k => [⟨0, 0, 0⟩, ⟨1 / 2, 0, 0⟩, ⟨1 / 4, 0, 0⟩].getD k 0) 3 =
    some (.ok [⟨0, 0, 0⟩, ⟨5 / 2, 0, 0⟩]) := by decide +kernel

/-- Concrete case: the second draw is refused (too close across the boundary of a box of three cells), the third accepted. -/
example : genPSubstrate (⟨3, 2, 2⟩ : V3 ℚ) 1 (1 / 6) (fun k => [⟨0, 0, 0⟩, ⟨9 / 10, 0, 0⟩, ⟨1 / 2, 0, 0⟩].getD k 0) 3 =
    some (.ok [⟨0, 0, 0⟩, ⟨3 / 2, 0, 0⟩]) := by decide +kernel

end Amo
end CZ
