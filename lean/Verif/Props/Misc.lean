import Verif.Misc
import Verif.Spec.Misc
import Verif.Spec.Geometry

/-!
# Properties C54-C56, C83: utilities
-/

namespace CZ
open Spec

/-! ## C54 -/

/-- **C54.** `round_away` gives an integer, on the same side of zero, at least as large and less than one larger in absolute
value. -/
theorem C54_round_away {K : Type} [Field K] [LinearOrder K] [IsStrictOrderedRing K] [FloorRing K] (x : K) :
    (∃ n : ℤ, roundAway x = n) ∧ (0 ≤ x → 0 ≤ roundAway x) ∧ (x ≤ 0 → roundAway x ≤ 0) ∧
      |x| ≤ |roundAway x| ∧ |roundAway x| < |x| + 1 := by
  unfold roundAway
  have hc : (0 : K) ≤ (⌈|x|⌉ : ℤ) := by exact_mod_cast Int.ceil_nonneg (abs_nonneg x)
  have h1 := Int.le_ceil |x|
  have h2 := Int.ceil_lt_add_one |x|
  rcases lt_trichotomy x 0 with h | rfl | h
  · rw [if_neg (not_lt.mpr h.le), if_pos h]
    refine ⟨⟨-⌈|x|⌉, by push_cast; ring⟩, fun h' => absurd h (not_lt.mpr h'), fun _ => by linarith, ?_, ?_⟩ <;>
      rw [neg_one_mul, abs_neg, abs_of_nonneg hc] <;> assumption
  · exact ⟨⟨0, by simp⟩, by simp, by simp, by simp, by simp⟩
  · rw [if_pos h]
    refine ⟨⟨⌈|x|⌉, by rw [one_mul]⟩, fun _ => by linarith, fun h' => absurd h (not_lt.mpr h'), ?_, ?_⟩ <;>
      rw [one_mul, abs_of_nonneg hc] <;> assumption

/-- Concrete case. -/
example : roundAway (-(3 / 2) : ℚ) = -2 := by decide +kernel

/-! ## C83 -/

/-- **C83.** For nonzero vectors `vangle` is the angle between them: a number in [0, π] whose cosine times the lengths is
the scalar product.  It is symmetric and does not change when a vector is stretched. -/
theorem C83_vangle (v w : V3 ℝ) (hv : v ≠ 0) (hw : w ≠ 0) :
    ∃ a, vangle v w = .ok a ∧ 0 ≤ a ∧ a ≤ Real.pi ∧ v.x * w.x + v.y * w.y + v.z * w.z = Real.cos a * (len v * len w) ∧
      vangle w v = .ok a ∧ ∀ c : ℝ, 0 < c → vangle (c • v) w = .ok a := by
  have hpos : ∀ u : V3 ℝ, u ≠ 0 → 0 < norm3 u := by
    intro u hu
    unfold norm3 V3.normSq V3.dot
    apply Real.sqrt_pos.mpr
    by_contra hn
    apply hu
    have h1 := mul_self_nonneg u.x
    have h2 := mul_self_nonneg u.y
    have h3 := mul_self_nonneg u.z
    ext
    · exact mul_self_eq_zero.mp (by linarith)
    · exact mul_self_eq_zero.mp (by linarith)
    · exact mul_self_eq_zero.mp (by linarith)
  have h1 := hpos v hv
  have h2 := hpos w hw
  have hcs : |v.dot w / (norm3 v * norm3 w)| ≤ 1 := by
    rw [abs_div, abs_of_pos (mul_pos h1 h2), div_le_one (mul_pos h1 h2)]
    apply Real.abs_le_sqrt _ |>.trans
    · unfold norm3
      rw [← Real.sqrt_mul]
      · unfold V3.normSq V3.dot; nlinarith [mul_self_nonneg v.x, mul_self_nonneg v.y, mul_self_nonneg v.z]
    · unfold V3.normSq V3.dot
      nlinarith [sq_nonneg (v.x * w.y - v.y * w.x), sq_nonneg (v.y * w.z - v.z * w.y), sq_nonneg (v.z * w.x - v.x * w.z)]
  have hd : v.dot w = v.x * w.x + v.y * w.y + v.z * w.z := rfl
  have hl : ∀ u : V3 ℝ, len u = norm3 u := by
    intro u; unfold len norm3 V3.normSq V3.dot; congr 1; ring
  refine ⟨Real.arccos (v.dot w / (norm3 v * norm3 w)), ?_, Real.arccos_nonneg _, Real.arccos_le_pi _, ?_, ?_, ?_⟩
  · unfold vangle; rw [if_neg (mul_pos h1 h2).ne']
  · rw [Real.cos_arccos (abs_le.mp hcs).1 (abs_le.mp hcs).2, hl, hl, div_mul_cancel₀ _ (mul_pos h1 h2).ne', hd]
  · unfold vangle
    rw [if_neg (mul_pos h2 h1).ne', mul_comm (norm3 w)]
    congr 3
    simp only [V3.dot]; ring
  · intro c hc
    have hn : norm3 (c • v) = c * norm3 v := by
      unfold norm3 V3.normSq V3.dot
      rw [show (c • v).x * (c • v).x + (c • v).y * (c • v).y + (c • v).z * (c • v).z =
        c ^ 2 * (v.x * v.x + v.y * v.y + v.z * v.z) by simp; ring, Real.sqrt_mul (sq_nonneg c), Real.sqrt_sq hc.le]
    unfold vangle
    rw [hn, if_neg (mul_pos (mul_pos hc h1) h2).ne']
    congr 2
    rw [show (c • v).dot w = c * v.dot w by simp [V3.dot]; ring, mul_assoc, mul_div_mul_left _ _ hc.ne']

/-- Concrete case: perpendicular vectors. -/
example : vangle ⟨2, 0, 0⟩ ⟨0, 3, 0⟩ = .ok (Real.pi / 2) := by
  have : norm3 ⟨2, 0, 0⟩ * norm3 ⟨0, 3, 0⟩ ≠ 0 := by
    apply ne_of_gt
    apply mul_pos <;> unfold norm3 V3.normSq V3.dot <;> apply Real.sqrt_pos.mpr <;> norm_num
  unfold vangle
  rw [if_neg this]
  simp [V3.dot]

namespace Splits

/-! ## C55 -/

theorem mem_data {m l x : ℤ} : x ∈ data m l ↔ m ≤ x ∧ x < l - m := by
  unfold data
  rw [List.mem_map]
  constructor
  · rintro ⟨k, hk, rfl⟩
    have := List.mem_range.mp hk
    omega
  · rintro ⟨h1, h2⟩
    exact ⟨(x - m).toNat, List.mem_range.mpr (by omega), by omega⟩

theorem integers_ok {r : ℕ} {lo hi s : ℤ} (h : integers r lo hi = .ok s) : lo ≤ s ∧ s < hi := by
  unfold integers at h
  split_ifs at h with hh
  have := Except.ok.inj h
  subst this
  have h1 := Int.emod_nonneg (r : ℤ) (show hi - lo ≠ 0 by omega)
  have h2 := Int.emod_lt_of_pos (r : ℤ) (show 0 < hi - lo by omega)
  omega

theorem integers_surj {lo hi s : ℤ} (h1 : lo ≤ s) (h2 : s < hi) : ∃ r, integers r lo hi = .ok s := by
  refine ⟨(s - lo).toNat, ?_⟩
  unfold integers
  rw [if_neg (by omega)]
  congr 1
  rw [Int.toNat_of_nonneg (by omega), Int.emod_eq_of_lt (by omega) (by omega)]
  omega

theorem choice_mem {r : ℕ} {xs : List ℤ} (h : xs ≠ []) : choice r xs ∈ xs := by
  unfold choice
  have := Nat.mod_lt r (List.length_pos_of_ne_nil h)
  rw [List.getD_eq_getElem?_getD, List.getElem?_eq_getElem this, Option.getD_some]
  exact List.getElem_mem this

theorem choice_surj {x : ℤ} {xs : List ℤ} (h : x ∈ xs) : ∃ r, choice r xs = x := by
  obtain ⟨i, hi, rfl⟩ := List.mem_iff_getElem.mp h
  refine ⟨i, ?_⟩
  unfold choice
  rw [Nat.mod_eq_of_lt hi, List.getD_eq_getElem?_getD, List.getElem?_eq_getElem hi, Option.getD_some]

/-- What holds of every state of the loop. -/
structure Inv (m l : ℤ) (st : State) : Prop where
  ne : st.splits ≠ []
  range : ∀ s ∈ st.splits, m ≤ s ∧ s < l - m
  apart : st.splits.Pairwise fun x y => m ≤ |x - y|
  mask : st.mask = (data m l).map fun x => decide (∃ s ∈ st.splits, |x - s| < m)

theorem free_eq {m l : ℤ} {st : State} (h : Inv m l st) :
    free m l st = (data m l).filter fun x => decide (∀ s ∈ st.splits, m ≤ |x - s|) := by
  unfold free
  rw [h.mask, npNot_map, maskSel_map]
  apply List.filter_congr
  intro x _
  rw [← decide_not]
  congr 1
  push Not
  rfl

theorem all_iff {m l : ℤ} {st : State} (h : Inv m l st) : st.mask.all id = true ↔ free m l st = [] := by
  rw [free_eq h, h.mask, List.all_eq_true, List.filter_eq_nil_iff]
  simp only [List.mem_map, forall_exists_index, and_imp, forall_apply_eq_imp_iff₂, id_eq, decide_eq_true_eq]
  refine forall₂_congr fun x _ => ?_
  push Not
  rfl

theorem inv_seed {m l s : ℤ} (h1 : m ≤ s) (h2 : s < l - m) : Inv m l ⟨[s], near m s (data m l)⟩ :=
  ⟨by simp, by simp [h1, h2], by simp, by simp [near]⟩

theorem inv_append {m l s : ℤ} {st : State} (h : Inv m l st) (hs : s ∈ free m l st) :
    Inv m l ⟨st.splits ++ [s], npOr st.mask (near m s (data m l))⟩ := by
  rw [free_eq h, List.mem_filter, mem_data, decide_eq_true_eq] at hs
  refine ⟨by simp, ?_, ?_, ?_⟩
  · intro x hx
    rcases List.mem_append.mp hx with hx | hx
    · exact h.range x hx
    · rw [List.mem_singleton] at hx; subst hx; exact hs.1
  · rw [List.pairwise_append]
    refine ⟨h.apart, by simp, ?_⟩
    intro x hx y hy
    rw [List.mem_singleton] at hy
    subst hy
    rw [abs_sub_comm]
    exact hs.2 x hx
  · simp only
    rw [h.mask, near, npOr_map]
    apply List.map_congr_left
    intro x _
    rw [← Bool.decide_or]
    congr 1
    simp only [List.mem_append, List.mem_singleton, eq_iff_iff]
    constructor
    · rintro (⟨t, ht, hx⟩ | hx)
      · exact ⟨t, .inl ht, hx⟩
      · exact ⟨s, .inr rfl, hx⟩
    · rintro ⟨t, ht | rfl, hx⟩
      · exact .inl ⟨t, ht, hx⟩
      · exact .inr hx

theorem pass_inv {m l : ℤ} {r : ℕ} {st st' : State} (h : Inv m l st) (hp : pass m l r st = .ok st') :
    Inv m l st' ∧ (st'.splits.length = 1 ∨ st'.splits.length = st.splits.length + 1) := by
  unfold pass at hp
  split_ifs at hp with ha
  · cases hs : integers r m (l - m) with
    | error e => rw [hs] at hp; cases hp
    | ok s =>
      rw [hs] at hp
      have := Except.ok.inj hp
      subst this
      obtain ⟨h1, h2⟩ := integers_ok hs
      exact ⟨inv_seed h1 h2, .inl rfl⟩
  · have := Except.ok.inj hp
    subst this
    have hne : free m l st ≠ [] := fun hf => ha ((all_iff h).mpr hf)
    exact ⟨inv_append h (choice_mem hne), .inr (by simp)⟩

theorem start_inv {n m l : ℤ} {r : ℕ} {st : State} (h : start n m l r = .ok (.inr st)) :
    Inv m l st ∧ st.splits.length = 1 ∧ n ≠ 0 ∧ (n - 1) * m ≤ l - 2 * m := by
  unfold start at h
  split_ifs at h with h0 h1
  · cases h
  cases hs : integers r m (l - m) with
  | error e => rw [hs] at h; cases h
  | ok s =>
    rw [hs] at h
    have := Sum.inr.inj (Except.ok.inj h)
    subst this
    obtain ⟨h2, h3⟩ := integers_ok hs
    exact ⟨inv_seed h2 h3, rfl, h0, not_lt.mp h1⟩

theorem sorted_apart {m : ℤ} {xs : List ℤ} (h : xs.Pairwise fun x y => m ≤ |x - y|) :
    (stableSort id xs).Pairwise fun x y => x ≤ y ∧ m ≤ y - x := by
  have h1 : (stableSort id xs).Pairwise fun x y => m ≤ |x - y| :=
    (stableSort_perm id xs).symm.pairwise h fun h => by rwa [abs_sub_comm]
  refine ((stableSort_sorted id xs).and h1).imp ?_
  rintro x y ⟨hxy, hm⟩
  simp only [id_eq] at hxy
  rw [abs_sub_comm, abs_of_nonneg (by omega)] at hm
  exact ⟨hxy, hm⟩

theorem loop_result {n m l : ℤ} {rng : ℕ → ℕ} (hn : 1 ≤ n) (fuel : ℕ) : ∀ (k : ℕ) (st : State) (xs : List ℤ), Inv m l st →
    (st.splits.length : ℤ) ≤ n → loop n m l rng fuel k st = some (.ok xs) → Splitting n m l xs := by
  induction fuel with
  | zero =>
    intro k st xs h hl hx
    unfold loop at hx
    split_ifs at hx with hc
    have := Except.ok.inj (Option.some.inj hx)
    subst this
    refine ⟨by simp; omega, ?_, sorted_apart h.apart⟩
    intro x hx
    exact h.range x (mem_stableSort.mp hx)
  | succ fuel ih =>
    intro k st xs h hl hx
    unfold loop at hx
    split_ifs at hx with hc
    · simp only at hx
      cases hp : pass m l (rng k) st with
      | error e => rw [hp] at hx; cases hx
      | ok st' =>
        rw [hp] at hx
        obtain ⟨h1, h2⟩ := pass_inv h hp
        exact ih _ _ _ h1 (by omega) hx
    · have := Except.ok.inj (Option.some.inj hx)
      subst this
      refine ⟨by simp; omega, ?_, sorted_apart h.apart⟩
      intro x hx
      exact h.range x (mem_stableSort.mp hx)

/-- **C55.** Whatever the random stream and however long it runs: when `get_N_splits(n, m, l)` returns for `n ≥ 1`, the result
is a sorted list of `n` integers of [m, l-m) whose neighbours (hence all pairs) are at least `m` apart. -/
theorem C55_separation (n m l : ℤ) (hn : 1 ≤ n) (rng : ℕ → ℕ) (fuel : ℕ) (xs : List ℤ)
    (h : getNSplits n m l rng fuel = some (.ok xs)) : Splitting n m l xs := by
  unfold getNSplits at h
  cases hs : start n m l (rng 0) with
  | error e => rw [hs] at h; cases h
  | ok r =>
    rw [hs] at h
    cases r with
    | inl ys =>
      unfold start at hs
      split_ifs at hs with h0
      · omega
      · cases hi : integers (rng 0) m (l - m) <;> rw [hi] at hs <;> cases hs
    | inr st =>
      obtain ⟨h1, h2, -, -⟩ := start_inv hs
      exact loop_result hn fuel 1 st xs h1 (by rw [h2]; exact_mod_cast hn) h

/-- Concrete case: three splits at distance 2 in a list of 12, with a reseeding on the way. -/
example : getNSplits 3 2 9 (fun k => [2, 0, 0, 2, 1].getD k 0) 10 = some (.ok [2, 4, 6]) := by decide +kernel

/-! ## C56 -/

theorem fits_bound {m : ℤ} : ∀ (xs : List ℤ) (a : ℤ), xs ≠ [] → (∀ x ∈ xs, a ≤ x) →
    (xs.Pairwise fun x y => x ≤ y ∧ m ≤ y - x) → ∃ y ∈ xs, a + (xs.length - 1) * m ≤ y
  | [], _, h, _, _ => absurd rfl h
  | [x], a, _, h, _ => ⟨x, by simp, by simpa using h x (by simp)⟩
  | x :: y :: xs, a, _, h, hp => by
    rw [List.pairwise_cons] at hp
    obtain ⟨z, hz, hle⟩ := fits_bound (y :: xs) (a + m) (by simp) (fun t ht => by
      have := (hp.1 t ht).2
      have := h x (by simp)
      omega) hp.2
    refine ⟨z, List.mem_cons_of_mem _ hz, ?_⟩
    simp only [List.length_cons] at hle ⊢
    push_cast at hle ⊢
    linarith

theorem fits_lt {n m l : ℤ} (hn : 1 ≤ n) (h : Fits n m l) : (n - 1) * m < l - 2 * m := by
  obtain ⟨xs, hl, hr, hp⟩ := h
  obtain ⟨y, hy, hle⟩ := fits_bound xs m (by rintro rfl; simp at hl; omega) (fun x hx => (hr x hx).1) hp
  rw [hl] at hle
  have := (hr y hy).2
  linarith

theorem fits_of_lt {n m l : ℤ} (hn : 1 ≤ n) (hm : 0 ≤ m) (h : (n - 1) * m < l - 2 * m) : Fits n m l := by
  refine ⟨(List.range n.toNat).map fun k : ℕ => ((k : ℤ) + 1) * m, by simp; omega, ?_, ?_⟩
  · intro x hx
    obtain ⟨k, hk, rfl⟩ := List.mem_map.mp hx
    have hk : (k : ℤ) + 1 ≤ n := by have := List.mem_range.mp hk; omega
    constructor
    · nlinarith
    · nlinarith [mul_le_mul_of_nonneg_right hk hm]
  · rw [List.pairwise_map]
    refine List.pairwise_lt_range.imp ?_
    intro i j hij
    have : (i : ℤ) + 1 ≤ j := by omega
    have := mul_le_mul_of_nonneg_right this hm
    constructor <;> nlinarith

/-- Some random numbers lead from `st` to the end of the loop. -/
inductive Finishes (n m l : ℤ) : State → Prop
  | done (st : State) (h : n ≤ st.splits.length) : Finishes n m l st
  | step (r : ℕ) (st st' : State) (hc : (st.splits.length : ℤ) < n) (hp : pass m l r st = .ok st') (h : Finishes n m l st') :
      Finishes n m l st

theorem Finishes.stream {n m l : ℤ} {st : State} (h : Finishes n m l st) :
    ∃ rs : List ℕ, ∀ (k : ℕ) (rng : ℕ → ℕ), (∀ i (hi : i < rs.length), rng (k + i) = rs[i]) →
      ∃ xs, loop n m l rng rs.length k st = some (.ok xs) := by
  induction h with
  | done st h =>
    refine ⟨[], fun k rng _ => ⟨stableSort id st.splits, ?_⟩⟩
    unfold loop
    rw [if_neg (by omega)]
  | step r st st' hc hp _ ih =>
    obtain ⟨rs, hrs⟩ := ih
    refine ⟨r :: rs, fun k rng hk => ?_⟩
    have h0 : rng k = r := hk 0 (by simp)
    obtain ⟨xs, hx⟩ := hrs (k + 1) rng fun i hi => by
      have := hk (i + 1) (by simp; omega)
      rw [show k + 1 + i = k + (i + 1) by ring, this]
      simp
    refine ⟨xs, ?_⟩
    rw [List.length_cons]
    unfold loop
    rw [if_pos hc]
    simp only [h0, hp]
    exact hx

/-- From the state with splits m, 2m, …, jm one can finish. -/
theorem greedy {n m l : ℤ} (hm : 1 ≤ m) (h : (n - 1) * m < l - 2 * m) (d : ℕ) : ∀ (st : State), Inv m l st →
    st.splits = (List.range st.splits.length).map (fun k : ℕ => ((k : ℤ) + 1) * m) → n - st.splits.length ≤ d → Finishes n m l st := by
  induction d with
  | zero => intro st _ _ hd; exact .done st (by push_cast at hd; omega)
  | succ d ih =>
    intro st hi hs hd
    by_cases hc : (st.splits.length : ℤ) < n
    · set j := st.splits.length with hj
      have hjn : ((j : ℤ) + 1) * m ≤ n * m := mul_le_mul_of_nonneg_right (by omega) (by omega)
      have hfree : ((j : ℤ) + 1) * m ∈ free m l st := by
        rw [free_eq hi, List.mem_filter, mem_data, decide_eq_true_eq]
        refine ⟨⟨by nlinarith, by nlinarith⟩, ?_⟩
        intro s hs'
        rw [hs] at hs'
        obtain ⟨k, hk, rfl⟩ := List.mem_map.mp hs'
        have : (k : ℤ) + 1 ≤ j := by have := List.mem_range.mp hk; omega
        have := mul_le_mul_of_nonneg_right this (show 0 ≤ m by omega)
        rw [abs_of_nonneg (by nlinarith)]
        nlinarith
      obtain ⟨r, hr⟩ := choice_surj hfree
      have hna : ¬ st.mask.all id = true := fun ha => by
        rw [(all_iff hi).mp ha] at hfree; cases hfree
      refine .step r st ⟨st.splits ++ [((j : ℤ) + 1) * m], npOr st.mask (near m (((j : ℤ) + 1) * m) (data m l))⟩ hc ?_
        (ih _ (inv_append hi hfree) ?_ ?_)
      · unfold pass
        rw [if_neg hna, hr]
      · simp only [List.length_append, List.length_cons, List.length_nil]
        rw [← hj, List.range_succ, List.map_append, ← hs]
        simp
      · simp only [List.length_append, List.length_cons, List.length_nil]
        push_cast at hd ⊢
        omega
    · exact .done st (by omega)

theorem finishes_of_inv {n m l : ℤ} (hn : 1 ≤ n) (hm : 0 ≤ m) (h : (n - 1) * m < l - 2 * m) (d : ℕ) : ∀ (st : State), Inv m l st →
    n - st.splits.length ≤ d → Finishes n m l st := by
  induction d with
  | zero => intro st _ hd; exact .done st (by push_cast at hd; omega)
  | succ d ih =>
    intro st hi hd
    by_cases hc : (st.splits.length : ℤ) < n
    · by_cases ha : st.mask.all id = true
      · have hm1 : 1 ≤ m := by
          by_contra hm1
          have hm0 : m = 0 := by omega
          have := (all_iff hi).mp ha
          rw [free_eq hi, List.filter_eq_nil_iff] at this
          obtain ⟨s, hs⟩ := List.exists_mem_of_ne_nil _ hi.ne
          refine this s (mem_data.mpr (hi.range s hs)) ?_
          rw [decide_eq_true_eq]
          intro t _
          rw [hm0]; exact abs_nonneg _
        have hml : m < l - m := by nlinarith [mul_nonneg (show 0 ≤ n - 1 by omega) hm]
        obtain ⟨r, hr⟩ := integers_surj le_rfl hml
        refine .step r st ⟨[m], near m m (data m l)⟩ hc ?_ (greedy hm1 h (n.toNat) _ (inv_seed le_rfl hml) ?_ ?_)
        · unfold pass
          rw [if_pos ha, hr]
          rfl
        · simp
        · simp
      · have hne : free m l st ≠ [] := fun hf => ha ((all_iff hi).mpr hf)
        obtain ⟨s, hs⟩ := List.exists_mem_of_ne_nil _ hne
        obtain ⟨r, hr⟩ := choice_surj hs
        refine .step r st ⟨st.splits ++ [s], npOr st.mask (near m s (data m l))⟩ hc ?_ (ih _ (inv_append hi hs) ?_)
        · unfold pass
          rw [if_neg ha, hr]
        · simp only [List.length_append, List.length_cons, List.length_nil]
          push_cast at hd ⊢
          omega
    · exact .done st (by omega)

theorem reachable_inv {n m l : ℤ} {st : State} (h : Reachable n m l st) : Inv m l st := by
  induction h with
  | start r st h => exact (start_inv h).1
  | pass r st st' _ _ hp ih => exact (pass_inv ih hp).1

/-- **C56 (room).** If the splits fit, `get_N_splits` never raises, and from every state of its loop some continuation of
the random stream makes it return. -/
theorem C56_can_return (n m l : ℤ) (hn : 1 ≤ n) (hm : 0 ≤ m) (h : Fits n m l) :
    (∀ rng fuel e, getNSplits n m l rng fuel ≠ some (.error e)) ∧
    ∀ st, Reachable n m l st → ∃ rs : List ℕ, ∀ (k : ℕ) (rng : ℕ → ℕ), (∀ i (hi : i < rs.length), rng (k + i) = rs[i]) →
      ∃ xs, loop n m l rng rs.length k st = some (.ok xs) := by
  have hlt := fits_lt hn h
  have hml : m < l - m := by nlinarith [mul_nonneg (show 0 ≤ n - 1 by omega) hm]
  have hint : ∀ r, ∃ s, integers r m (l - m) = .ok s := by
    intro r; unfold integers; rw [if_neg (by omega)]; exact ⟨_, rfl⟩
  refine ⟨?_, fun st hst => (finishes_of_inv hn hm hlt (n - st.splits.length).toNat st (reachable_inv hst) (by omega)).stream⟩
  intro rng fuel e he
  unfold getNSplits at he
  obtain ⟨s, hs⟩ := hint (rng 0)
  have hst : start n m l (rng 0) = .ok (.inr ⟨[s], near m s (data m l)⟩) := by
    unfold start
    rw [if_neg (by omega), if_neg (by omega), hs]
    rfl
  rw [hst] at he
  simp only at he
  generalize 1 = k at he
  generalize (⟨[s], near m s (data m l)⟩ : State) = st at he
  clear hst
  induction fuel generalizing k st with
  | zero => unfold loop at he; split_ifs at he; simp at he
  | succ fuel ih =>
    unfold loop at he
    split_ifs at he
    · simp only at he
      have : ∃ st', pass m l (rng k) st = .ok st' := by
        unfold pass
        split_ifs
        · obtain ⟨t, ht⟩ := hint (rng k)
          rw [ht]; exact ⟨_, rfl⟩
        · exact ⟨_, rfl⟩
      obtain ⟨st', hp⟩ := this
      rw [hp] at he
      exact ih _ _ he
    · simp at he

/-- **C56 (no room, partial).** If the splits do not fit, the call raises ValueError, except when `l - 2m = (n-1)m`.
Missing: that case (`C56_never_returns`, `C56_refuted`). -/
theorem C56_raises_partial (n m l : ℤ) (hn : 1 ≤ n) (hm : 0 ≤ m) (h : ¬ Fits n m l) (hne : l - 2 * m ≠ (n - 1) * m) (rng : ℕ → ℕ)
    (fuel : ℕ) : getNSplits n m l rng fuel = some (.error .value) := by
  have : l - 2 * m < (n - 1) * m := by
    rcases lt_trichotomy (l - 2 * m) ((n - 1) * m) with h1 | h1 | h1
    · exact h1
    · exact absurd h1 hne
    · exact absurd (fits_of_lt hn hm h1) h
  unfold getNSplits start
  rw [if_neg (by omega), if_pos this]

/-- **C56, finding.** For `l - 2m = (n-1)m` with `n ≥ 2`, `m ≥ 1` the splits do not fit, but the check lets the call pass and
it never returns nor raises, whatever the random stream. -/
theorem C56_never_returns (n m l : ℤ) (hn : 2 ≤ n) (hm : 1 ≤ m) (h : l - 2 * m = (n - 1) * m) (rng : ℕ → ℕ) (fuel : ℕ) :
    getNSplits n m l rng fuel = none := by
  have hnf : ¬ Fits n m l := fun hf => by have := fits_lt (by omega) hf; omega
  have hml : m < l - m := by nlinarith
  have hint : ∀ r, ∃ s, integers r m (l - m) = .ok s := by
    intro r; unfold integers; rw [if_neg (by omega)]; exact ⟨_, rfl⟩
  cases hr : getNSplits n m l rng fuel with
  | none => rfl
  | some r =>
    cases r with
    | ok xs => exact absurd ⟨xs, C55_separation n m l (by omega) rng fuel xs hr⟩ hnf
    | error e =>
      exfalso
      unfold getNSplits at hr
      obtain ⟨s, hs⟩ := hint (rng 0)
      have hst : start n m l (rng 0) = .ok (.inr ⟨[s], near m s (data m l)⟩) := by
        unfold start
        rw [if_neg (by omega), if_neg (by omega), hs]
        rfl
      rw [hst] at hr
      simp only at hr
      generalize 1 = k at hr
      generalize (⟨[s], near m s (data m l)⟩ : State) = st at hr
      clear hst
      induction fuel generalizing k st with
      | zero => unfold loop at hr; split_ifs at hr; simp at hr
      | succ fuel ih =>
        unfold loop at hr
        split_ifs at hr
        · simp only at hr
          have : ∃ st', pass m l (rng k) st = .ok st' := by
            unfold pass
            split_ifs
            · obtain ⟨t, ht⟩ := hint (rng k)
              rw [ht]; exact ⟨_, rfl⟩
            · exact ⟨_, rfl⟩
          obtain ⟨st', hp⟩ := this
          rw [hp] at hr
          exact ih _ _ hr
        · simp at hr

/-- **C56, finding (instance).** `get_N_splits(2, 1, 3)`: no room, no exception, no result. -/
theorem C56_refuted : ¬ Fits 2 1 3 ∧ ∀ rng fuel, getNSplits 2 1 3 rng fuel = none :=
  ⟨fun h => by have := fits_lt (by norm_num) h; omega, fun rng fuel => C56_never_returns 2 1 3 (by norm_num) (by norm_num) (by norm_num) rng fuel⟩

/-- Concrete case: there is room for three splits at distance 2 in a list of 9. -/
example : Fits 3 2 9 := fits_of_lt (by norm_num) (by norm_num) (by norm_num)

end Splits

end CZ
