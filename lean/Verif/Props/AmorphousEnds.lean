import Verif.Props.Batched
import Verif.Props.AmorphousGen
import Mathlib.Logic.Encodable.Basic
import Mathlib.Data.Rat.Encodable
import Mathlib.Data.Finset.Prod
import Mathlib.Data.List.Nodup

/-!
# Property C123: amorphous generation comes to an end

`gen_p_substrate` draws coordinates until the number of atoms is reached.  Streams of random numbers are arbitrary; that the generator is
random is used only through `Everywhere`: every region of the unit cube is hit again and again.
-/

set_option linter.unusedSectionVars false

namespace CZ
open Spec
namespace Amo
section
variable {K : Type} [Field K] [LinearOrder K] [IsStrictOrderedRing K] [FloorRing K]

/-! ## Specification -/

/-- `p` is at least `m` away from all the atoms and their images along x and y. -/
def Fits (dims : V3 K) (m : K) (ps : List (V3 K)) (p : V3 K) : Prop :=
  ∀ q ∈ ps, ∀ s ∈ imageDistances dims true true false q p, m ^ 2 ≤ s

/-- Componentwise closer than `ε`. -/
def Within (ε : K) (p q : V3 K) : Prop := |p.x - q.x| < ε ∧ |p.y - q.y| < ε ∧ |p.z - q.z| < ε

/-- However fewer than `N` atoms at the minimal distance are placed in the box, there is a little room for one more. -/
def Room (dims : V3 K) (m : K) (N : ℕ) : Prop :=
  ∀ ps : List (V3 K), ps.length < N → (∀ p ∈ ps, InBox dims p) → Apart m ps →
    ∃ p, InBox dims p ∧ ∃ ε > 0, ∀ p', InBox dims p' → Within ε p' p → Fits dims m ps p'

/-- The stream of random numbers comes back to every part of the unit cube. -/
def Everywhere (rng : ℕ → V3 K) : Prop := ∀ u, Unit u → ∀ ε > 0, ∀ k, ∃ k' ≥ k, Within ε (rng k') u

/-! ## No needless refusal -/

theorem accept_fits {dims : V3 K} {m : K} {st : State K} {new : V3 K} (hm : 0 < m) (h : Inv dims m st) (hn : InBox dims new)
    (hf : Fits dims m st.coords new) : ∃ st', tryCoord dims m st new = .ok (some st') ∧ st'.coords = st.coords ++ [new] ∧ Inv dims m st' := by
  rcases tryCoord_spec hm h hn with ⟨-, q, hq, -, hlt⟩ | ⟨st', h1, h2, h3, -⟩
  · exact absurd hlt (not_lt.mpr (hf q hq _ (pDist_least dims q new (h.box q hq) hn).1))
  · exact ⟨st', h1, h2, h3⟩

theorem apart_snoc {dims : V3 K} {m : K} {st st' : State K} {new : V3 K} (hm : 0 < m) (h : Inv dims m st) (hn : InBox dims new)
    (ha : Apart m st.coords) (e : tryCoord dims m st new = .ok (some st')) :
    st'.coords = st.coords ++ [new] ∧ Inv dims m st' ∧ Apart m st'.coords := by
  rcases tryCoord_spec hm h hn with ⟨h1, -⟩ | ⟨st'', h1, h2, h3, h4⟩
  · rw [h1] at e; cases e
  · obtain rfl : st'' = st' := by
      rw [h1] at e
      exact Option.some.inj (Except.ok.inj e)
    refine ⟨h2, h3, ?_⟩
    rw [h2]
    refine pairwise_snoc ha fun q hq => ?_
    by_contra hlt
    rw [not_le] at hlt
    have hlt' : sqDist new q < m ^ 2 := by unfold sqDist at hlt ⊢; linarith
    have := h4 q hq (cellNear_of_close hm hn (h.box q hq) hlt')
    have := (pDist_least dims q new (h.box q hq) hn).2 (sqDist_mem dims q new)
    linarith

theorem loop_succ (dims : V3 K) (m : K) (numC : ℕ) (rng : ℕ → V3 K) (fuel k : ℕ) (st : State K) (h : st.coords.length < numC) :
    loop dims m numC rng (fuel + 1) k st = match tryCoord dims m st (scale dims (rng k)) with
        | .error e => some (.error e)
        | .ok none => loop dims m numC rng fuel (k + 1) st
        | .ok (some st') => loop dims m numC rng fuel (k + 1) st' := by
  conv_lhs => unfold loop
  rw [if_pos h]
  rfl

/-- From every state, sooner or later one more atom is placed. -/
theorem one_more {dims : V3 K} {m : K} {numC : ℕ} {rng : ℕ → V3 K} (hm : 0 < m) (hrng : ∀ k, InBox dims (scale dims (rng k)))
    (hh : ∀ ps : List (V3 K), ps.length < numC → (∀ p ∈ ps, InBox dims p) → Apart m ps → ∀ k, ∃ k' ≥ k, Fits dims m ps (scale dims (rng k')))
    (st : State K) (hi : Inv dims m st) (ha : Apart m st.coords) (hl : st.coords.length < numC) (k : ℕ) :
    ∃ d k' st', Inv dims m st' ∧ Apart m st'.coords ∧ st'.coords.length = st.coords.length + 1 ∧
      ∀ fuel, loop dims m numC rng (fuel + d) k st = loop dims m numC rng fuel k' st' := by
  obtain ⟨k1, hk1, hf⟩ := hh st.coords hl hi.box ha k
  obtain ⟨j, rfl⟩ := Nat.exists_eq_add_of_le hk1
  clear hk1
  induction j generalizing k with
  | zero =>
    obtain ⟨st', h1, h2, h3⟩ := accept_fits hm hi (hrng k) hf
    refine ⟨1, k + 1, st', h3, (apart_snoc hm hi (hrng k) ha h1).2.2, by simp [h2], fun fuel => ?_⟩
    rw [loop_succ _ _ _ _ _ _ _ hl, h1]
  | succ j ih =>
    rcases tryCoord_spec hm hi (hrng k) with ⟨h1, -⟩ | ⟨st', h1, h2, h3, -⟩
    · obtain ⟨d, k', st', a, b, c, e⟩ := ih (k + 1) (by rw [show k + 1 + j = k + (j + 1) by ring]; exact hf)
      refine ⟨d + 1, k', st', a, b, c, fun fuel => ?_⟩
      rw [← add_assoc, loop_succ _ _ _ _ _ _ _ hl, h1]
      exact e fuel
    · refine ⟨1, k + 1, st', h3, (apart_snoc hm hi (hrng k) ha h1).2.2, by simp [h2], fun fuel => ?_⟩
      rw [loop_succ _ _ _ _ _ _ _ hl, h1]

theorem loop_ends {dims : V3 K} {m : K} {numC : ℕ} {rng : ℕ → V3 K} (hm : 0 < m) (hrng : ∀ k, InBox dims (scale dims (rng k)))
    (hh : ∀ ps : List (V3 K), ps.length < numC → (∀ p ∈ ps, InBox dims p) → Apart m ps → ∀ k, ∃ k' ≥ k, Fits dims m ps (scale dims (rng k')))
    (n : ℕ) : ∀ (k : ℕ) (st : State K), Inv dims m st → Apart m st.coords → st.coords.length + n = numC →
      ∃ fuel, loop dims m numC rng fuel k st ≠ none := by
  induction n with
  | zero =>
    intro k st _ _ hl
    refine ⟨0, ?_⟩
    unfold loop
    rw [if_neg (by omega)]
    simp
  | succ n ih =>
    intro k st hi ha hl
    obtain ⟨d, k', st', a, b, c, e⟩ := one_more hm hrng hh st hi ha (by omega) k
    obtain ⟨fuel, hf⟩ := ih k' st' a b (by omega)
    exact ⟨fuel + d, by rw [e]; exact hf⟩

theorem within_scale {dims u v : V3 K} {ε : K} (hd : 0 < dims.x ∧ 0 < dims.y ∧ 0 < dims.z)
    (h : Within (ε / (dims.x + dims.y + dims.z)) u v) : Within ε (scale dims u) (scale dims v) := by
  obtain ⟨d1, d2, d3⟩ := hd
  obtain ⟨h1, h2, h3⟩ := h
  have hs : 0 < dims.x + dims.y + dims.z := by linarith
  have key : ∀ a b d : K, 0 < d → d ≤ dims.x + dims.y + dims.z → |a - b| < ε / (dims.x + dims.y + dims.z) → |a * d - b * d| < ε := by
    intro a b d hd hle h
    rw [← sub_mul, abs_mul, abs_of_pos hd]
    rw [lt_div_iff₀ hs] at h
    exact (mul_le_mul_of_nonneg_left hle (abs_nonneg _)).trans_lt h
  exact ⟨key _ _ _ d1 (by linarith) h1, key _ _ _ d2 (by linarith) h2, key _ _ _ d3 (by linarith) h3⟩

/-- C123 (partial).  If however the atoms placed so far lie there is room for one more, and the random numbers come everywhere, the loop
of `gen_p_substrate` ends, for every box.  Missing: room is needed, and the generator class does not see to it (`C123_never_ends`,
`C123_min_dist_refuted`). -/
theorem C123_ends_partial (dims : V3 K) (m density : K) (rng : ℕ → V3 K) (hm : 0 < m) (hd : 0 < dims.x ∧ 0 < dims.y ∧ 0 < dims.z)
    (hden : 0 ≤ density) (hrng : ∀ k, Unit (rng k)) (hev : Everywhere rng)
    (hroom : ∀ N : ℕ, |(N : K) - dims.x * dims.y * dims.z * density| ≤ 1 / 2 → Room dims m N) :
    ∃ fuel ps, genPSubstrate dims m density rng fuel = some (.ok ps) := by
  have hv : 0 ≤ dims.x * dims.y * dims.z * density := mul_nonneg (mul_nonneg (mul_nonneg hd.1.le hd.2.1.le) hd.2.2.le) hden
  have hn := npRound_nonneg hv
  have hr := npRound_near (dims.x * dims.y * dims.z * density)
  have hcast : ((npRound (dims.x * dims.y * dims.z * density)).toNat : K) = (npRound (dims.x * dims.y * dims.z * density) : K) := by
    have := Int.toNat_of_nonneg hn
    exact_mod_cast congrArg (Int.cast : ℤ → K) this
  have hR := hroom (npRound (dims.x * dims.y * dims.z * density)).toNat (by rw [hcast]; exact hr)
  have hbox := fun k => scale_box hd (hrng k)
  obtain ⟨fuel, hf⟩ := loop_ends (numC := (npRound (dims.x * dims.y * dims.z * density)).toNat) hm hbox (by
    intro ps hl hb ha k
    obtain ⟨p, hp, ε, hε, hfit⟩ := hR ps hl hb ha
    have hs : 0 < dims.x + dims.y + dims.z := by linarith [hd.1, hd.2.1, hd.2.2]
    obtain ⟨k', hk', hw⟩ := hev ⟨p.x / dims.x, p.y / dims.y, p.z / dims.z⟩
      ⟨⟨div_nonneg hp.1.1 hd.1.le, (div_lt_one hd.1).mpr hp.1.2⟩, ⟨div_nonneg hp.2.1.1 hd.2.1.le, (div_lt_one hd.2.1).mpr hp.2.1.2⟩,
        ⟨div_nonneg hp.2.2.1 hd.2.2.le, (div_lt_one hd.2.2).mpr hp.2.2.2⟩⟩ (ε / (dims.x + dims.y + dims.z)) (div_pos hε hs) k
    refine ⟨k', hk', hfit _ (hbox k') ?_⟩
    have := within_scale hd hw
    have e : scale dims (⟨p.x / dims.x, p.y / dims.y, p.z / dims.z⟩ : V3 K) = p := by
      unfold scale
      ext
      · exact div_mul_cancel₀ _ hd.1.ne'
      · exact div_mul_cancel₀ _ hd.2.1.ne'
      · exact div_mul_cancel₀ _ hd.2.2.ne'
    rwa [e] at this) _ 0 ⟨[], fun _ => []⟩ (inv_init dims m) List.Pairwise.nil (by simp; rfl)
  have hg : genPSubstrate dims m density rng fuel ≠ none := by
    unfold genPSubstrate
    simp only [if_neg (not_lt.mpr hn)]
    exact hf
  refine ⟨fuel, ?_⟩
  have hsep := C60_separation dims m density rng hm ⟨hd.1.le, hd.2.1.le, hd.2.2.le⟩ hden hrng fuel
  rcases hgen : genPSubstrate dims m density rng fuel with _ | (e | ps)
  · exact absurd hgen hg
  · exact absurd hgen (hsep.1 e)
  · exact ⟨ps, rfl⟩

/-! ## When there is no room -/

/-- Points at least `m` apart are in different cells of a grid with diagonal at most `m`. -/
theorem capacity {dims : V3 K} {m a : K} (ha : 0 < a) (hma : 3 * a ^ 2 ≤ m ^ 2) {ps : List (V3 K)} (hb : ∀ p ∈ ps, InBox dims p)
    (h : Apart m ps) : ps.length ≤ (numBlocks a dims).1 * ((numBlocks a dims).2.1 * (numBlocks a dims).2.2) := by
  have hnd : (ps.map (cell a)).Nodup := by
    unfold List.Nodup
    rw [List.pairwise_map]
    refine h.imp_of_mem ?_
    intro p q hp hq hpq e
    have hp' := hb p hp
    have hq' := hb q hq
    have key : ∀ x y : K, 0 ≤ x → 0 ≤ y → cellAt a x = cellAt a y → (x - y) ^ 2 < a ^ 2 := by
      intro x y hx hy e
      unfold cellAt at e
      have g1 := floor_nonneg' ha hx
      have g2 := floor_nonneg' ha hy
      have e' : ⌊x / a⌋ = ⌊y / a⌋ := by omega
      have := Int.abs_sub_lt_one_of_floor_eq_floor e'
      rw [← sub_div, abs_div, abs_of_pos ha, div_lt_one ha] at this
      exact sq_lt_sq' (by linarith [(abs_lt.mp this).1]) (abs_lt.mp this).2
    unfold cell at e
    have e1 := (Prod.mk.inj e).1
    have e2 := (Prod.mk.inj (Prod.mk.inj e).2).1
    have e3 := (Prod.mk.inj (Prod.mk.inj e).2).2
    have h1 := key _ _ hp'.1.1 hq'.1.1 e1
    have h2 := key _ _ hp'.2.1.1 hq'.2.1.1 e2
    have h3 := key _ _ hp'.2.2.1 hq'.2.2.1 e3
    unfold sqDist at hpq
    linarith
  have hsub : (ps.map (cell a)).toFinset ⊆ Finset.range (numBlocks a dims).1 ×ˢ (Finset.range (numBlocks a dims).2.1 ×ˢ Finset.range (numBlocks a dims).2.2) := by
    intro t ht
    obtain ⟨p, hp, rfl⟩ := List.mem_map.mp (List.mem_toFinset.mp ht)
    obtain ⟨h1, h2, h3⟩ := cell_lt ha (hb p hp)
    simp only [Finset.mem_product, Finset.mem_range]
    exact ⟨h1, h2, h3⟩
  have := Finset.card_le_card hsub
  rwa [List.toFinset_card_of_nodup hnd, List.length_map, Finset.card_product, Finset.card_product, Finset.card_range, Finset.card_range,
    Finset.card_range] at this

theorem overfull {dims : V3 K} {m density a : K} {nx ny nz : ℕ} (ha : 3 * a ^ 2 ≤ m ^ 2) (ha0 : 0 < a)
    (hx : dims.x ≤ nx * a) (hy : dims.y ≤ ny * a) (hz : dims.z ≤ nz * a)
    (hfull : (nx * ny * nz : K) + 1 / 2 < dims.x * dims.y * dims.z * density) {ps : List (V3 K)} (h2 : ∀ p ∈ ps, InBox dims p)
    (h1 : Apart m ps) : ¬ |(ps.length : K) - dims.x * dims.y * dims.z * density| ≤ 1 / 2 := by
  intro h3
  have hc := capacity ha0 ha h2 h1
  have key : ∀ (n : ℕ) (L : K), L ≤ n * a → ⌈L / a⌉.toNat ≤ n := by
    intro n L h
    rw [Int.toNat_le, Int.ceil_le, div_le_iff₀ ha0]
    exact_mod_cast h
  have hle : (numBlocks a dims).1 * ((numBlocks a dims).2.1 * (numBlocks a dims).2.2) ≤ nx * (ny * nz) :=
    Nat.mul_le_mul (key _ _ hx) (Nat.mul_le_mul (key _ _ hy) (key _ _ hz))
  have hcast : (ps.length : K) ≤ nx * (ny * nz) := by exact_mod_cast hc.trans hle
  have := (abs_le.mp h3).1
  nlinarith

/-- C123.  If the box can be divided into fewer cells with diagonal at most `min_dist` than atoms are wanted, `gen_p_substrate` never
returns and never raises, whatever the random numbers. -/
theorem C123_never_ends (dims : V3 K) (m density : K) (rng : ℕ → V3 K) (nx ny nz : ℕ) (hm : 0 < m) (hd : 0 ≤ dims.x ∧ 0 ≤ dims.y ∧ 0 ≤ dims.z) (hden : 0 ≤ density) (hrng : ∀ k, Unit (rng k)) (a : K) (ha : 3 * a ^ 2 ≤ m ^ 2) (ha0 : 0 < a)
    (hx : dims.x ≤ nx * a) (hy : dims.y ≤ ny * a) (hz : dims.z ≤ nz * a)
    (hfull : (nx * ny * nz : K) + 1 / 2 < dims.x * dims.y * dims.z * density) (fuel : ℕ) :
    genPSubstrate dims m density rng fuel = none := by
  have hsep := C60_separation dims m density rng hm hd hden hrng fuel
  rcases hgen : genPSubstrate dims m density rng fuel with _ | (e | ps)
  · rfl
  · exact absurd hgen (hsep.1 e)
  · obtain ⟨h1, h2, h3⟩ := hsep.2 ps hgen
    exact absurd h3 (overfull ha ha0 hx hy hz hfull h2 h1)

end

/-! ## A generator that never returns -/

/-- C123, finding.  An AmorphousGenerator with `min_dist` of 4.4 Å or more (and any `density`: supply_atoms does not pass it on,
generator.py:419-420) asked for a cube of 10 Å never returns, whatever the random numbers: 110 atoms are wanted, and 64 cells of 2.5 Å cover the
cube. -/
theorem C123_min_dist_refuted (m : ℝ) (hm : 22 / 5 ≤ m) (stream : ℕ → V3 ℝ) (hs : ∀ k, Unit (stream k)) :
    (∀ fuel, genPSubstrate ⟨10, 10, 10⟩ m defaultDensity stream fuel = none) ∧ ∀ env, ¬ SubstrateReturns env stream ⟨10, 10, 10⟩ m := by
  have h : ∀ fuel, genPSubstrate ⟨10, 10, 10⟩ m defaultDensity stream fuel = none := fun fuel =>
    C123_never_ends _ m _ stream 4 4 4 (by linarith) (by norm_num) (by norm_num [defaultDensity]) hs (5 / 2)
      (by nlinarith) (by norm_num) (by norm_num) (by norm_num) (by norm_num) (by norm_num [defaultDensity]) fuel
  refine ⟨h, ?_⟩
  rintro env ⟨fuel, e⟩
  rw [h fuel] at e
  cases e

/-! ## The assumptions can be met -/

/-- Rational points of the unit cube, each infinitely often. -/
def sweep (k : ℕ) : V3 ℚ :=
  match (Encodable.decode (Nat.unpair k).1 : Option (ℚ × ℚ × ℚ)) with
  | none => ⟨0, 0, 0⟩
  | some u => if (0 ≤ u.1 ∧ u.1 < 1) ∧ (0 ≤ u.2.1 ∧ u.2.1 < 1) ∧ (0 ≤ u.2.2 ∧ u.2.2 < 1) then ⟨u.1, u.2.1, u.2.2⟩ else ⟨0, 0, 0⟩

theorem sweep_unit (k : ℕ) : Unit (sweep k) := by
  have h0 : Unit (⟨0, 0, 0⟩ : V3 ℚ) := by unfold Unit; norm_num
  unfold sweep
  split
  · exact h0
  · split_ifs with h
    · exact h
    · exact h0

theorem sweep_everywhere : Everywhere sweep := by
  intro u hu ε hε k
  refine ⟨Nat.pair (Encodable.encode ((u.x, u.y, u.z) : ℚ × ℚ × ℚ)) k, Nat.right_le_pair _ _, ?_⟩
  have : sweep (Nat.pair (Encodable.encode ((u.x, u.y, u.z) : ℚ × ℚ × ℚ)) k) = u := by
    unfold sweep
    rw [Nat.unpair_pair]
    simp only [Encodable.encodek]
    exact if_pos hu
  rw [this]
  simp [Within, hε]

/-- In a box 10 long and 1 wide one atom always leaves room for a second at distance 2. -/
theorem room_example2 (N : ℕ) (hN : N ≤ 2) : ∀ ps : List (V3 ℚ), ps.length < N → (∀ p ∈ ps, InBox ⟨10, 1, 1⟩ p) → Apart 1 ps →
    ∃ p, InBox ⟨10, 1, 1⟩ p ∧ ∃ ε > 0, ∀ p', InBox ⟨10, 1, 1⟩ p' → Within ε p' p → Fits ⟨10, 1, 1⟩ 2 ps p' := by
  intro ps hl hb _
  rcases ps with _ | ⟨q, _ | ⟨r, ps⟩⟩
  · exact ⟨⟨0, 0, 0⟩, by unfold InBox; norm_num, 1, one_pos, fun p' _ _ q hq => by cases hq⟩
  · have hq := hb q (by simp)
    have main : ∀ c : ℚ, (c = 5 + q.x ∨ c = q.x - 5) → 0 ≤ c → c < 10 → ∃ p, InBox (⟨10, 1, 1⟩ : V3 ℚ) p ∧ ∃ ε > 0, ∀ p', InBox (⟨10, 1, 1⟩ : V3 ℚ) p' →
        Within ε p' p → Fits (⟨10, 1, 1⟩ : V3 ℚ) 2 [q] p' := by
      intro c hc c0 c1
      refine ⟨⟨c, 0, 0⟩, by unfold InBox; norm_num; exact ⟨c0, c1⟩, 1, one_pos, ?_⟩
      intro p' hp' hw q' hq' s hs
      obtain rfl := List.mem_singleton.mp hq'
      have hL := pDist_least _ _ _ hq hp'
      refine le_trans ?_ (hL.2 hs)
      have hwx := abs_lt.mp hw.1
      simp only at hwx
      have hmin : (2 : ℚ) ≤ min |q'.x - p'.x| (10 - |q'.x - p'.x|) := by
        have h4 : (4 : ℚ) ≤ |q'.x - p'.x| ∧ |q'.x - p'.x| ≤ 6 := by
          rcases hc with rfl | rfl
          · rw [abs_of_nonpos (by linarith)]; constructor <;> linarith
          · rw [abs_of_nonneg (by linarith)]; constructor <;> linarith
        exact le_min (by linarith [h4.1]) (by linarith [h4.2])
      unfold pDist
      simp only
      nlinarith [sq_nonneg (min |q'.y - p'.y| (1 - |q'.y - p'.y|)), sq_nonneg (min |q'.z - p'.z| |q'.z - p'.z|)]
    by_cases h5 : q.x < 5
    · exact main _ (.inl rfl) (by linarith [hq.1.1]) (by linarith)
    · exact main _ (.inr rfl) (by linarith) (by have : q.x < 10 := hq.1.2; linarith)
  · simp at hl; omega

theorem room_example (N : ℕ) (hN : N ≤ 2) : Room (⟨10, 1, 1⟩ : V3 ℚ) 1 N := by
  intro ps hl hb ha
  obtain ⟨p, hp, ε, hε, hf⟩ := room_example2 N hN ps hl hb ha
  exact ⟨p, hp, ε, hε, fun p' hp' hw q hq d hd => le_trans (by norm_num) (hf p' hp' hw q hq d hd)⟩

example : ∃ fuel ps, genPSubstrate (⟨10, 1, 1⟩ : V3 ℚ) 1 (1 / 5) sweep fuel = some (.ok ps) := by
  refine C123_ends_partial _ _ _ _ one_pos (by norm_num) (by norm_num) sweep_unit sweep_everywhere fun N hN => room_example N ?_
  by_contra h
  have h3 : (3 : ℚ) ≤ N := by exact_mod_cast (by omega : 3 ≤ N)
  have := (abs_le.mp hN).2
  norm_num at this
  linarith

end Amo

/-! ## In batches -/

namespace Batch
section
variable {K : Type} [Field K] [LinearOrder K] [IsStrictOrderedRing K] [FloorRing K]
open Amo (Fits cell CellNear numBlocks pDist)

/-- C123 (batches).  With `min_dist` below 1000, a batch in which the first coordinate drawn in some voxel is farther than `min_dist` from
all the atoms so far (and their images) adds at least one atom; and it is itself added, when atoms are still missing after it, if the other
coordinates of the batch that lie in the same or a neighbouring voxel are all closer than `min_dist` to an earlier atom: refused coordinates
displace nothing. -/
theorem C123_batch_progress (dims : V3 K) (m s : K) (numC : ℕ) (st : State K) (new : List (V3 K)) (hs : 0 < s) (h : Inv dims s st)
    (hn : ∀ p ∈ new, InBox dims p) (hm : 0 ≤ m) (hm' : m < 1000) (i : ℕ) (p : V3 K) (hi : new[i]? = some p)
    (hfirst : ∀ j : ℕ, j < i → ∀ q : V3 K, new[j]? = some q → cell s q ≠ cell s p)
    (hfar : ∀ q ∈ st.coords, ∀ d ∈ imageDistances dims true true false q p, m ^ 2 < d) (hroom : st.accepted < numC) :
    ∃ st', step dims m s numC st new = .ok st' ∧ st.coords.length < st'.coords.length ∧
      (0 < m → m ≤ s → (∀ (j : ℕ) (q : V3 K), new[j]? = some q → j ≠ i → CellNear (numBlocks s dims) (cell s q) (cell s p) →
          ∃ a ∈ st.coords, sqDist a q < m ^ 2) → st'.accepted ≤ numC → p ∈ st'.coords) := by
  obtain ⟨acc, v, h1, h2, h3, h4, h5, h6⟩ := step_spec (m := m) (numC := numC) hs h hn
  have hp := hn p (List.mem_of_getElem? hi)
  obtain ⟨a, b⟩ := h6 hm hm' i p hi hfirst fun q hq _ => hfar q hq _ (Amo.pDist_least dims q p (h.box q hq) hp).1
  have hacc : 0 < acc.length := List.length_pos_iff.mpr a
  refine ⟨_, h1, ?_, ?_⟩
  · simp only [List.length_append, List.length_take]
    omega
  · intro hm0 hms halone hle
    simp only at hle ⊢
    rw [List.take_of_length_le (by omega)]
    refine List.mem_append_right _ (b fun j q hj hji hc => ?_)
    obtain ⟨a, ha, hlt⟩ := halone j q hj hji hc
    have hq := hn q (List.mem_of_getElem? hj)
    exact ⟨a, ha, cellNear_of_close hm0 hms hq (h.box a ha) (by unfold sqDist at hlt ⊢; linarith),
      ((Amo.pDist_least dims a q (h.box a ha) hq).2 (Amo.sqDist_mem dims a q)).trans hlt.le⟩

/-- Farther than `m` from all the atoms and their images along x and y. -/
def Clear (dims : V3 K) (m : K) (ps : List (V3 K)) (p : V3 K) : Prop :=
  ∀ q ∈ ps, ∀ d ∈ imageDistances dims true true false q p, m ^ 2 < d

/-- However fewer than `N` atoms at the minimal distance are placed in the box, there is a little room for one more. -/
def ClearRoom (dims : V3 K) (m : K) (N : ℕ) : Prop :=
  ∀ ps : List (V3 K), ps.length < N → (∀ p ∈ ps, InBox dims p) → Apart m ps →
    ∃ p, InBox dims p ∧ ∃ ε > 0, ∀ p', InBox dims p' → Amo.Within ε p' p → Clear dims m ps p'

/-- The first coordinates of the batches come back to every part of the unit cube. -/
def FirstEverywhere (rng : ℕ → List (V3 K)) : Prop :=
  ∀ u, Amo.Unit u → ∀ ε > 0, ∀ k, ∃ k' ≥ k, ∃ v rest, rng k' = v :: rest ∧ Amo.Within ε v u

theorem apart_step {dims : V3 K} {m s : K} (hm : 0 < m) (hms : m ≤ s) {ps acc : List (V3 K)} (r : ℕ) (hb : ∀ p ∈ ps, InBox dims p)
    (hacc : ∀ p ∈ acc, InBox dims p) (hp : Apart m ps)
    (hpw : acc.Pairwise (fun p q => ¬ CellNear (numBlocks s dims) (cell s q) (cell s p)))
    (hfar : ∀ p ∈ acc, ∀ q ∈ ps, CellNear (numBlocks s dims) (cell s p) (cell s q) → m ^ 2 < pDist dims q p) :
    Apart m (ps ++ acc.take r) := by
  refine pairwise_append_take r hp ?_ ?_
  · refine hpw.imp_of_mem ?_
    intro p q hp hq hn
    by_contra hlt
    rw [not_le] at hlt
    exact hn (cellNear_of_close hm hms (hacc q hq) (hacc p hp) (by unfold sqDist at hlt ⊢; linarith))
  · intro p hp q hq
    by_contra hlt
    rw [not_le] at hlt
    have := hfar p hp q hq (cellNear_of_close hm hms (hacc p hp) (hb q hq) (by unfold sqDist at hlt ⊢; linarith))
    have := (Amo.pDist_least dims q p (hb q hq) (hacc p hp)).2 (Amo.sqDist_mem dims q p)
    linarith

theorem loop_succ (dims : V3 K) (m s : K) (numC : ℕ) (rng : ℕ → List (V3 K)) (fuel k : ℕ) (st : State K) (h : st.accepted < numC) :
    loop dims m s numC rng (fuel + 1) k st = match step dims m s numC st ((rng k).map (Amo.scale dims)) with
        | .error e => some (.error e)
        | .ok st' => loop dims m s numC rng fuel (k + 1) st' := by
  conv_lhs => unfold loop
  rw [if_pos h]
  rfl

theorem one_more {dims : V3 K} {m s : K} {numC : ℕ} {rng : ℕ → List (V3 K)} (hm : 0 < m) (hm' : m < 1000) (hms : m ≤ s)
    (hrng : ∀ k, ∀ p ∈ (rng k).map (Amo.scale dims), InBox dims p)
    (hh : ∀ ps : List (V3 K), ps.length < numC → (∀ p ∈ ps, InBox dims p) → Apart m ps →
      ∀ k, ∃ k' ≥ k, ∃ v rest, rng k' = v :: rest ∧ Clear dims m ps (Amo.scale dims v))
    (st : State K) (hi : Inv dims s st) (ha : Apart m st.coords) (hl : st.accepted < numC) (k : ℕ) :
    ∃ d k' st', (st'.accepted < numC → Inv dims s st' ∧ Apart m st'.coords) ∧ st.accepted < st'.accepted ∧
      ∀ fuel, loop dims m s numC rng (fuel + d) k st = loop dims m s numC rng fuel k' st' := by
  have hs : 0 < s := hm.trans_le hms
  obtain ⟨k1, hk1, v1, rest, hv, hf⟩ := hh st.coords (hi.acc ▸ hl) hi.box ha k
  obtain ⟨j, rfl⟩ := Nat.exists_eq_add_of_le hk1
  clear hk1
  induction j generalizing k st with
  | zero =>
    obtain ⟨acc, v, h1, h2, h3, h4, h5, h6⟩ := step_spec (m := m) (numC := numC) hs hi (hrng k)
    have hhead : ((rng k).map (Amo.scale dims))[0]? = some (Amo.scale dims v1) := by
      rw [add_zero] at hv
      rw [hv]; rfl
    have hp := hrng k _ (List.mem_of_getElem? hhead)
    have hne := (h6 hm.le hm' 0 _ hhead (fun j hj => absurd hj (Nat.not_lt_zero j)) fun q hq _ =>
      hf q hq _ (Amo.pDist_least dims q _ (hi.box q hq) hp).1).1
    have hpos := List.length_pos_iff.mpr hne
    refine ⟨1, k + 1, _, ?_, ?_, fun fuel => by rw [loop_succ _ _ _ _ _ _ _ _ hl, h1]⟩
    · intro hlt
      simp only at hlt
      have htake : acc.take (numC - st.accepted) = acc := List.take_of_length_le (by omega)
      refine ⟨⟨?_, by simp only [htake, List.length_append]; rw [hi.acc], by simp only [htake]; exact h5⟩, apart_step hm hms _ hi.box h2 ha h3 h4⟩
      simp only [htake]
      intro p hp'
      rcases List.mem_append.mp hp' with hp' | hp'
      · exact hi.box p hp'
      · exact h2 p hp'
    · simp only; omega
  | succ j ih =>
    obtain ⟨acc, v, h1, h2, h3, h4, h5, -⟩ := step_spec (m := m) (numC := numC) hs hi (hrng k)
    rcases acc with _ | ⟨a, acc⟩
    · have e : (⟨st.coords ++ ([] : List (V3 K)).take (numC - st.accepted), v, st.accepted + ([] : List (V3 K)).length⟩ : State K) =
          ⟨st.coords, v, st.accepted⟩ := by simp
      rw [e] at h1
      have hi' : Inv dims s ⟨st.coords, v, st.accepted⟩ := ⟨hi.box, hi.acc, by simpa using h5⟩
      obtain ⟨d, k', st', a, b, c⟩ := ih ⟨st.coords, v, st.accepted⟩ hi' ha hl (k + 1) hf (by rw [← hv]; congr 1; ring)
      refine ⟨d + 1, k', st', a, b, fun fuel => ?_⟩
      rw [← add_assoc, loop_succ _ _ _ _ _ _ _ _ hl, h1]
      exact c fuel
    · refine ⟨1, k + 1, _, ?_, ?_, fun fuel => by rw [loop_succ _ _ _ _ _ _ _ _ hl, h1]⟩
      · intro hlt
        simp only at hlt
        have htake : (a :: acc).take (numC - st.accepted) = a :: acc := List.take_of_length_le (by omega)
        refine ⟨⟨?_, by simp only [htake, List.length_append]; rw [hi.acc], by simp only [htake]; exact h5⟩, apart_step hm hms _ hi.box h2 ha h3 h4⟩
        simp only [htake]
        intro p hp'
        rcases List.mem_append.mp hp' with hp' | hp'
        · exact hi.box p hp'
        · exact h2 p hp'
      · simp

theorem loop_ends {dims : V3 K} {m s : K} {numC : ℕ} {rng : ℕ → List (V3 K)} (hm : 0 < m) (hm' : m < 1000) (hms : m ≤ s)
    (hrng : ∀ k, ∀ p ∈ (rng k).map (Amo.scale dims), InBox dims p)
    (hh : ∀ ps : List (V3 K), ps.length < numC → (∀ p ∈ ps, InBox dims p) → Apart m ps →
      ∀ k, ∃ k' ≥ k, ∃ v rest, rng k' = v :: rest ∧ Clear dims m ps (Amo.scale dims v))
    (n : ℕ) : ∀ (k : ℕ) (st : State K), (st.accepted < numC → Inv dims s st ∧ Apart m st.coords) → numC ≤ st.accepted + n →
      ∃ fuel, loop dims m s numC rng fuel k st ≠ none := by
  have done : ∀ (k : ℕ) (st : State K), ¬ st.accepted < numC → ∃ fuel, loop dims m s numC rng fuel k st ≠ none := by
    intro k st h
    refine ⟨0, ?_⟩
    unfold loop
    rw [if_neg h]
    simp
  induction n with
  | zero => exact fun k st _ hl => done k st (by omega)
  | succ n ih =>
    intro k st hi hl
    by_cases hlt : st.accepted < numC
    · obtain ⟨d, k', st', a, b, c⟩ := one_more hm hm' hms hrng hh st (hi hlt).1 (hi hlt).2 hlt k
      obtain ⟨fuel, hf⟩ := ih k' st' a (by omega)
      exact ⟨fuel + d, by rw [c]; exact hf⟩
    · exact done k st hlt

/-- C123 (batches, partial).  With `min_dist` below 1000 and a voxel scale of at least 1, if there is always room for one more atom and the
first coordinates of the batches come everywhere, the loop of `gen_p_substrate_batched` ends, for every box.  Missing: as for
`C123_ends_partial`; and larger `min_dist` (`C123_padding_refuted`). -/
theorem C123_batch_ends_partial (dims : V3 K) (m density scale : K) (rng : ℕ → List (V3 K)) (hm : 0 < m) (hm' : m < 1000) (hsc : 1 ≤ scale)
    (hd : 0 < dims.x ∧ 0 < dims.y ∧ 0 < dims.z) (hden : 0 ≤ density) (hrng : ∀ k, ∀ u ∈ rng k, Amo.Unit u) (hev : FirstEverywhere rng)
    (hroom : ∀ N : ℕ, |(N : K) - dims.x * dims.y * dims.z * density| ≤ 1 / 2 → ClearRoom dims m N) :
    ∃ fuel ps, gen dims m density scale rng fuel = some (.ok ps) := by
  have hv : 0 ≤ dims.x * dims.y * dims.z * density := mul_nonneg (mul_nonneg (mul_nonneg hd.1.le hd.2.1.le) hd.2.2.le) hden
  have hn := npRound_nonneg hv
  have hr := npRound_near (dims.x * dims.y * dims.z * density)
  have hcast : ((npRound (dims.x * dims.y * dims.z * density)).toNat : K) = (npRound (dims.x * dims.y * dims.z * density) : K) := by
    have := Int.toNat_of_nonneg hn
    exact_mod_cast congrArg (Int.cast : ℤ → K) this
  have hR := hroom (npRound (dims.x * dims.y * dims.z * density)).toNat (by rw [hcast]; exact hr)
  have hbox : ∀ k, ∀ p ∈ (rng k).map (Amo.scale dims), InBox dims p := by
    intro k p hp
    obtain ⟨u, hu, rfl⟩ := List.mem_map.mp hp
    exact Amo.scale_box hd (hrng k u hu)
  have hms : m ≤ m * scale := le_mul_of_one_le_right hm.le hsc
  obtain ⟨fuel, hf⟩ := loop_ends (numC := (npRound (dims.x * dims.y * dims.z * density)).toNat) hm hm' hms hbox (by
    intro ps hl hb ha k
    obtain ⟨p, hp, ε, hε, hfit⟩ := hR ps hl hb ha
    have hs : 0 < dims.x + dims.y + dims.z := by linarith [hd.1, hd.2.1, hd.2.2]
    obtain ⟨k', hk', v, rest, e, hw⟩ := hev ⟨p.x / dims.x, p.y / dims.y, p.z / dims.z⟩
      ⟨⟨div_nonneg hp.1.1 hd.1.le, (div_lt_one hd.1).mpr hp.1.2⟩, ⟨div_nonneg hp.2.1.1 hd.2.1.le, (div_lt_one hd.2.1).mpr hp.2.1.2⟩,
        ⟨div_nonneg hp.2.2.1 hd.2.2.le, (div_lt_one hd.2.2).mpr hp.2.2.2⟩⟩ (ε / (dims.x + dims.y + dims.z)) (div_pos hε hs) k
    refine ⟨k', hk', v, rest, e, hfit _ (hbox k' _ (by rw [e]; simp)) ?_⟩
    have := Amo.within_scale hd hw
    have e : Amo.scale dims (⟨p.x / dims.x, p.y / dims.y, p.z / dims.z⟩ : V3 K) = p := by
      unfold Amo.scale
      ext
      · exact div_mul_cancel₀ _ hd.1.ne'
      · exact div_mul_cancel₀ _ hd.2.1.ne'
      · exact div_mul_cancel₀ _ hd.2.2.ne'
    rwa [e] at this) _ 0 ⟨[], fun _ => [], 0⟩ (fun _ => ⟨⟨by simp, rfl, by simp⟩, List.Pairwise.nil⟩) (Nat.le_add_left _ 0 |>.trans (by rfl))
  have hg : gen dims m density scale rng fuel ≠ none := by
    unfold gen
    simp only [if_neg (not_lt.mpr hn)]
    exact hf
  refine ⟨fuel, ?_⟩
  have hsep := C62_separation dims m density scale rng hm hsc ⟨hd.1.le, hd.2.1.le, hd.2.2.le⟩ hden hrng fuel
  rcases hgen : gen dims m density scale rng fuel with _ | (e | ps)
  · exact absurd hgen hg
  · exact absurd hgen (hsep.1 e)
  · exact ⟨ps, rfl⟩

/-- C123 (batches).  Without room `gen_p_substrate_batched` never returns and never raises. -/
theorem C123_batch_never_ends (dims : V3 K) (m density scale : K) (rng : ℕ → List (V3 K)) (nx ny nz : ℕ) (hm : 0 < m) (hsc : 1 ≤ scale)
    (hd : 0 ≤ dims.x ∧ 0 ≤ dims.y ∧ 0 ≤ dims.z) (hden : 0 ≤ density) (hrng : ∀ k, ∀ u ∈ rng k, Amo.Unit u) (a : K) (ha : 3 * a ^ 2 ≤ m ^ 2)
    (ha0 : 0 < a) (hx : dims.x ≤ nx * a) (hy : dims.y ≤ ny * a) (hz : dims.z ≤ nz * a)
    (hfull : (nx * ny * nz : K) + 1 / 2 < dims.x * dims.y * dims.z * density) (fuel : ℕ) :
    gen dims m density scale rng fuel = none := by
  have hsep := C62_separation dims m density scale rng hm hsc hd hden hrng fuel
  rcases hgen : gen dims m density scale rng fuel with _ | (e | ps)
  · rfl
  · exact absurd hgen (hsep.1 e)
  · obtain ⟨h1, h2, h3⟩ := hsep.2 ps hgen
    exact absurd h3 (Amo.overfull ha ha0 hx hy hz hfull h2 h1)

/-- The assumptions can be met. -/
example : ∃ fuel ps, gen (⟨10, 1, 1⟩ : V3 ℚ) 1 (1 / 5) 2 (fun k => [Amo.sweep k, ⟨0, 0, 0⟩]) fuel = some (.ok ps) := by
  refine C123_batch_ends_partial _ _ _ _ _ one_pos (by norm_num) (by norm_num) (by norm_num) (by norm_num) ?_ ?_ ?_
  · intro k u hu
    simp only [List.mem_cons, List.not_mem_nil, or_false] at hu
    rcases hu with rfl | rfl
    · exact Amo.sweep_unit k
    · unfold Amo.Unit; norm_num
  · intro u hu ε hε k
    obtain ⟨k', h1, h2⟩ := Amo.sweep_everywhere u hu ε hε k
    exact ⟨k', h1, _, _, rfl, h2⟩
  · intro N hN ps hl hb ha
    have hN2 : N ≤ 2 := by
      by_contra h
      have h3 : (3 : ℚ) ≤ N := by exact_mod_cast (by omega : 3 ≤ N)
      have := (abs_le.mp hN).2
      norm_num at this
      linarith
    obtain ⟨p, hp, ε, hε, hf⟩ := Amo.room_example2 N hN2 ps hl hb ha
    refine ⟨p, hp, ε, hε, fun p' hp' hw q hq d hd => lt_of_lt_of_le (by norm_num) (hf p' hp' hw q hq d hd)⟩

end

/-- C123 (batches), limit.  The table of coordinates is filled up with the point (-1000, -1000, -1000).  With `min_dist` 1500 in a box of 10000 by
1 by 1, a coordinate 6000 away from the only atom is refused because of that point, if another coordinate of the batch has more atoms around it; one
with as many atoms around it as any other is not compared with that point.  The limit is 1000: in a box of 10000 by 10000 by 1 the same happens with
`min_dist` 1000 and no longer with 999. -/
theorem C123_padding_refuted :
    (∀ d ∈ imageDistances (⟨10000, 1, 1⟩ : V3 ℚ) true true false ⟨3000, 0, 0⟩ ⟨9000, 0, 0⟩, (1500 : ℚ) ^ 2 < d) ∧
    (step (⟨10000, 1, 1⟩ : V3 ℚ) 1500 1500 4 ⟨[⟨3000, 0, 0⟩], fun t => if t = 2 then [0] else [], 1⟩ [⟨9000, 0, 0⟩]).toOption.map (·.coords) =
      some [⟨3000, 0, 0⟩, ⟨9000, 0, 0⟩] ∧
    (step (⟨10000, 1, 1⟩ : V3 ℚ) 1500 1500 4 ⟨[⟨3000, 0, 0⟩], fun t => if t = 2 then [0] else [], 1⟩
        [⟨3100, 0, 0⟩, ⟨9000, 0, 0⟩]).toOption.map (·.coords) = some [⟨3000, 0, 0⟩] ∧
    (step (⟨10000, 1, 1⟩ : V3 ℚ) 1500 1500 4 ⟨[⟨3000, 0, 0⟩], fun t => if t = 2 then [0] else [], 1⟩
        [⟨3100, 0, 0⟩, ⟨9500, 0, 0⟩]).toOption.map (·.coords) = some [⟨3000, 0, 0⟩] ∧
    (step (⟨10000, 1, 1⟩ : V3 ℚ) 1500 1500 4 ⟨[⟨7500, 0, 0⟩], fun t => if t = 5 then [0] else [], 1⟩ [⟨9100, 0, 0⟩]).toOption.map (·.coords) =
      some [⟨7500, 0, 0⟩, ⟨9100, 0, 0⟩] ∧
    (step (⟨10000, 10000, 1⟩ : V3 ℚ) 1000 1000 4 ⟨[⟨3000, 3000, 0⟩], fun t => if t = 33 then [0] else [], 1⟩
        [⟨3100, 3100, 0⟩, ⟨9000, 9000, 0⟩]).toOption.map (·.coords) = some [⟨3000, 3000, 0⟩] ∧
    (step (⟨10000, 10000, 1⟩ : V3 ℚ) 999 1000 4 ⟨[⟨3000, 3000, 0⟩], fun t => if t = 33 then [0] else [], 1⟩
        [⟨3100, 3100, 0⟩, ⟨9000, 9000, 0⟩]).toOption.map (·.coords) = some [⟨3000, 3000, 0⟩, ⟨9000, 9000, 0⟩] := by
  refine ⟨?_, by decide +kernel, by decide +kernel, by decide +kernel, by decide +kernel, by decide +kernel, by decide +kernel⟩
  intro d hd
  have := (Amo.pDist_least (⟨10000, 1, 1⟩ : V3 ℚ) ⟨3000, 0, 0⟩ ⟨9000, 0, 0⟩ (by unfold InBox; norm_num) (by unfold InBox; norm_num)).2 hd
  refine lt_of_lt_of_le ?_ this
  decide +kernel

end Batch
end CZ
