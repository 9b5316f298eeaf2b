import Verif.RdfHist
import Verif.Props.Rdf
import Verif.Spec.Geometry

/-!
# Property C112: the histogram of calc_rdf
-/

namespace CZ
open Spec

namespace Spec

/-- Number of ordered pairs of entries of the list with the property. -/
def pairCount (ps : List (V3 ℝ)) (P : V3 ℝ → V3 ℝ → Prop) [∀ p q, Decidable (P p q)] : ℕ :=
  (ps.map fun p => ps.countP fun q => decide (P p q)).sum

end Spec

namespace Rdf

noncomputable section
open Classical

theorem binOf_iff {c d : ℝ} {n i : ℕ} (hc : 0 < c) (hn : 0 < n) (hd : 0 ≤ d) :
    binOf c n d = some i ↔ i < n ∧ (i : ℝ) * (c / n) ≤ d ∧ (d < ((i : ℝ) + 1) * (c / n) ∨ (d = c ∧ i + 1 = n)) := by
  have hn' : (0 : ℝ) < n := by exact_mod_cast hn
  unfold binOf
  have hw : 0 < c / n := div_pos hc hn'
  have hcn : c = n * (c / n) := by field_simp
  have fl : 0 ≤ ⌊d * n / c⌋ := Int.floor_nonneg.mpr (by positivity)
  by_cases h : d < c
  · rw [if_pos ⟨hd, h⟩, Option.some.injEq]
    have key : ⌊d * n / c⌋.toNat = i ↔ ⌊d * n / c⌋ = (i : ℤ) := by omega
    rw [key, Int.floor_eq_iff]
    have e1 : (((i : ℕ) : ℤ) : ℝ) ≤ d * n / c ↔ (i : ℝ) * (c / n) ≤ d := by
      rw [le_div_iff₀ hc, ← mul_div_assoc, div_le_iff₀ hn']; push_cast; rfl
    have e2 : d * n / c < (((i : ℕ) : ℤ) : ℝ) + 1 ↔ d < ((i : ℝ) + 1) * (c / n) := by
      rw [div_lt_iff₀ hc, ← mul_div_assoc, lt_div_iff₀ hn']; push_cast; rfl
    rw [e1, e2]
    constructor
    · rintro ⟨h1, h2⟩
      refine ⟨?_, h1, .inl h2⟩
      have : (i : ℝ) * (c / n) < n * (c / n) := by rw [← hcn]; exact h1.trans_lt h
      exact_mod_cast lt_of_mul_lt_mul_right this hw.le
    · rintro ⟨-, h1, h2 | h2⟩
      · exact ⟨h1, h2⟩
      · exact absurd h2.1 h.ne
  · rw [if_neg (by tauto)]
    by_cases he : d = c
    · rw [if_pos he, Option.some.injEq]
      constructor
      · intro h
        refine ⟨by omega, ?_, .inr ⟨he, by omega⟩⟩
        rw [he]
        conv_rhs => rw [hcn]
        have : (i : ℝ) ≤ n := by exact_mod_cast (by omega : i ≤ n)
        exact mul_le_mul_of_nonneg_right this hw.le
      · rintro ⟨h1, h2, h3 | h3⟩
        · exfalso
          have : (n : ℝ) * (c / n) < ((i : ℝ) + 1) * (c / n) := by rw [← hcn]; linarith
          have := lt_of_mul_lt_mul_right this hw.le
          have : n < i + 1 := by exact_mod_cast this
          omega
        · omega
    · rw [if_neg he]
      constructor
      · intro h; cases h
      · rintro ⟨h1, h2, h3 | h3⟩
        · exfalso
          have : ((i : ℝ) + 1) ≤ n := by exact_mod_cast (by omega : i + 1 ≤ n)
          have : ((i : ℝ) + 1) * (c / n) ≤ n * (c / n) := mul_le_mul_of_nonneg_right this hw.le
          rw [← hcn] at this
          exact h (h3.trans_le this)
        · exact absurd h3.1 he

theorem numBins_pos {c : ℝ} (hc : 1 / 10 ≤ c) : 0 < numBins c := by
  unfold numBins
  have : (1 : ℤ) ≤ ⌊c / (1 / 10)⌋ := by rw [Int.le_floor]; push_cast; linarith
  omega

/-- **C112 (bins, partial).** For points as in `C59_single_voxel_partial` and a cutoff of at least 0.1: the array returned has one entry
per bin; the first is zero and entry `i` is the number of ordered pairs of points whose minimum-image distance lies between `i`
and `i + 1` times the width of the bins (the last bin includes the cutoff).  Missing: what C59 misses. -/
theorem C112_bins_partial (c : ℝ) (hc : 1 / 10 ≤ c) (px py pz : Bool) (hp : ¬ (px ∧ py ∧ pz)) (ps : List (V3 ℝ)) (L : V3 ℝ)
    (hL : IsExtent ps L) (hx : 0 < L.x ∧ L.x < c) (hy : 0 < L.y ∧ L.y < c) (hz : 0 < L.z ∧ L.z < c) :
    ∃ (n : ℕ) (cs : List ℕ) (s : V3 ℝ → V3 ℝ → ℝ), 0 < n ∧ calcRdfCounts c px py pz ps = .ok cs ∧ cs.length = n ∧
      (∀ p ∈ ps, ∀ q ∈ ps, 0 ≤ s p q ∧ IsLeast (imageDistances L px py pz p q) (s p q ^ 2)) ∧
      ∀ i, i < n → cs[i]? = some (if i = 0 then 0 else pairCount ps fun p q =>
        i * (c / n) ≤ s p q ∧ (s p q < (i + 1) * (c / n) ∨ (s p q = c ∧ i + 1 = n))) := by
  obtain ⟨d, hd, hr⟩ := C59_single_voxel_partial c px py pz hp ps L hL hx hy hz
  have hn := numBins_pos hc
  have hc0 : 0 < c := by linarith
  have hnn : ∀ p ∈ ps, ∀ q ∈ ps, 0 ≤ d p q := by
    intro p hp q hq
    obtain ⟨i, j, k, -, -, -, e⟩ := (hd p hp q hq).1
    rw [e]; positivity
  refine ⟨numBins c, histogram c (numBins c) (ps.flatMap fun p => ps.map (d p)), fun p q => Real.sqrt (d p q), hn, ?_, ?_, ?_, ?_⟩
  · unfold calcRdfCounts
    rw [hr]
    simp [hn.ne']
  · simp [histogram]
  · intro p hp q hq
    refine ⟨Real.sqrt_nonneg _, ?_⟩
    rw [Real.sq_sqrt (hnn p hp q hq)]
    exact hd p hp q hq
  · intro i hi
    unfold histogram
    rw [List.getElem?_map, List.getElem?_range hi, Option.map_some]
    by_cases h0 : i = 0
    · simp [h0]
    rw [if_neg h0, if_neg h0, Option.some.injEq]
    unfold pairCount
    rw [List.countP_flatMap]
    congr 1
    refine List.map_congr_left fun p hp => ?_
    rw [Function.comp_apply, List.countP_map]
    refine List.countP_congr fun q hq => ?_
    rw [Function.comp_apply, decide_eq_true_eq, decide_eq_true_eq, binOf_iff hc0 hn (Real.sqrt_nonneg _)]
    constructor
    · rintro ⟨-, h⟩; exact h
    · intro h; exact ⟨hi, h⟩

/-- **C112 (width, partial).** The bins are 0.1 wide when the cutoff is a multiple of 0.1. -/
theorem C112_width_partial (n : ℕ) (hn : 0 < n) : numBins (n / 10) = n ∧ ((n / 10 : ℝ) / numBins (n / 10)) = 1 / 10 := by
  have h : numBins (n / 10) = n := by
    unfold numBins
    rw [show ((n : ℝ) / 10 / (1 / 10)) = ((n : ℤ) : ℝ) by push_cast; ring, Int.floor_intCast]
    rfl
  have hn' : (n : ℝ) ≠ 0 := by exact_mod_cast hn.ne'
  refine ⟨h, ?_⟩
  rw [h]; field_simp

/-- **C112, refuted.** In general the bins are wider: the range up to the cutoff is divided into `int(cutoff / 0.1)` equal parts.  Two atoms
at distance 0.12 with cutoff 0.19 belong to the bin from 0.1 to 0.2, but the array has a single entry, which is set to zero. -/
theorem C112_steps_refuted : ¬ ∀ (c : ℝ) (ps : List (V3 ℝ)) (cs : List ℕ), 0 < c → calcRdfCounts c false false false ps = .ok cs →
    ∀ p ∈ ps, ∀ q ∈ ps, 1 / 10 ≤ Spec.dist p q → Spec.dist p q < c → ∃ k, cs[1]? = some k := by
  intro h
  have hL : IsExtent ([⟨0, 0, 0⟩, ⟨12 / 100, 1 / 100, 1 / 100⟩] : List (V3 ℝ)) ⟨12 / 100, 1 / 100, 1 / 100⟩ := by
    refine ⟨⟨⟨⟨12 / 100, 1 / 100, 1 / 100⟩, by simp, ⟨0, 0, 0⟩, by simp, by simp⟩, ?_⟩,
      ⟨⟨⟨12 / 100, 1 / 100, 1 / 100⟩, by simp, ⟨0, 0, 0⟩, by simp, by simp⟩, ?_⟩,
      ⟨⟨⟨12 / 100, 1 / 100, 1 / 100⟩, by simp, ⟨0, 0, 0⟩, by simp, by simp⟩, ?_⟩⟩ <;>
    · rintro _ ⟨p, hp, q, hq, rfl⟩
      simp only [List.mem_cons, List.not_mem_nil, or_false] at hp hq
      rcases hp with rfl | rfl <;> rcases hq with rfl | rfl <;> norm_num
  have hn : numBins (19 / 100) = 1 := by
    unfold numBins
    rw [show ((19 : ℝ) / 100 / (1 / 10)) = 19 / 10 by norm_num]
    have : ⌊(19 : ℝ) / 10⌋ = 1 := by rw [Int.floor_eq_iff]; norm_num
    rw [this]; rfl
  obtain ⟨d, -, hr⟩ := C59_single_voxel_partial (19 / 100) false false false (by simp) _ _ hL (by norm_num) (by norm_num) (by norm_num)
  have hcs : calcRdfCounts (19 / 100) false false false [⟨0, 0, 0⟩, ⟨12 / 100, 1 / 100, 1 / 100⟩] = .ok [0] := by
    unfold calcRdfCounts
    rw [hr]
    simp [hn, histogram]
  have hdist : Spec.dist (⟨0, 0, 0⟩ : V3 ℝ) ⟨12 / 100, 1 / 100, 1 / 100⟩ = Real.sqrt (146 / 10000) := by
    simp only [Spec.dist]; congr 1; norm_num
  obtain ⟨k, hk⟩ := h (19 / 100) _ _ (by norm_num) hcs ⟨0, 0, 0⟩ (by simp) ⟨12 / 100, 1 / 100, 1 / 100⟩ (by simp)
    (by rw [hdist]; exact Real.le_sqrt_of_sq_le (by norm_num)) (by rw [hdist, Real.sqrt_lt' (by norm_num)]; norm_num)
  simp at hk

/-- Concrete case: the hypotheses of `C112_bins_partial` hold for four points, two of them at the same place. -/
example : ∃ (n : ℕ) (cs : List ℕ), 0 < n ∧ calcRdfCounts 2 true false false [⟨0, 0, 0⟩, ⟨1, 1, 1⟩, ⟨1, 1, 1⟩] = .ok cs ∧ cs.length = n := by
  have hL : IsExtent ([⟨0, 0, 0⟩, ⟨1, 1, 1⟩, ⟨1, 1, 1⟩] : List (V3 ℝ)) ⟨1, 1, 1⟩ := by
    refine ⟨⟨⟨⟨1, 1, 1⟩, by simp, ⟨0, 0, 0⟩, by simp, by simp⟩, ?_⟩,
      ⟨⟨⟨1, 1, 1⟩, by simp, ⟨0, 0, 0⟩, by simp, by simp⟩, ?_⟩,
      ⟨⟨⟨1, 1, 1⟩, by simp, ⟨0, 0, 0⟩, by simp, by simp⟩, ?_⟩⟩ <;>
    · rintro _ ⟨p, hp, q, hq, rfl⟩
      simp only [List.mem_cons, List.not_mem_nil, or_false] at hp hq
      rcases hp with rfl | rfl | rfl <;> rcases hq with rfl | rfl | rfl <;> norm_num
  obtain ⟨n, cs, s, h1, h2, h3, -⟩ := C112_bins_partial 2 (by norm_num) true false false (by simp) _ _ hL (by norm_num) (by norm_num)
    (by norm_num)
  exact ⟨n, cs, h1, h2, h3⟩

end

end Rdf
end CZ
