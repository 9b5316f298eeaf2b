import Verif.RoundedMotion
import Verif.Props.Rounded

/-!
# Property C139: atoms on a surface survive motions made in rounded arithmetic

A body and its crystal are moved together, as often as one likes, by translations and by matrices that are orthogonal up to an
error `δ`, every operation being rounded.  Compared with the exact images the surfaces and the atoms drift apart by less than a
fraction of the tolerance, so the tests decide as they would have before.
-/

namespace CZ
namespace Fl
open Spec

noncomputable section

/-! ## Specification -/

/-- The matrix changes inner products by at most `δ` times the lengths: `δ = 0` for rotations and inversions, a few units of 2^-53
for those stored in floats. -/
def Keeps (δ : ℝ) (M : M3 ℝ) : Prop := ∀ v w : V3 ℝ, |(M.mulVec v).dot (M.mulVec w) - v.dot w| ≤ δ * (len v * len w)

/-- Image of a point under a move, without rounding. -/
def Move.image : Move → V3 ℝ → V3 ℝ
  | .shift s, p => p + s
  | .matrix M (some o), p => M.mulVec (p - o) + o
  | .matrix M none, p => M.mulVec p

/-- What the move does to differences of points. -/
def Move.turn : Move → V3 ℝ → V3 ℝ
  | .shift _, v => v
  | .matrix M _, v => M.mulVec v

/-- The matrix of the move, if any, is orthogonal up to `δ`; its shift or origin is no longer than `R`. -/
def Move.Fair (δ R : ℝ) : Move → Prop
  | .shift s => len s ≤ R
  | .matrix M o => Keeps δ M ∧ ∀ c, o = some c → len c ≤ R

/-- Image under all moves. -/
def image : List Move → V3 ℝ → V3 ℝ
  | [], p => p
  | m :: ms, p => image ms (m.image p)

def turn : List Move → V3 ℝ → V3 ℝ
  | [], v => v
  | m :: ms, v => turn ms (m.turn v)

/-- The point stays within `R` of the coordinate origin on its way. -/
def Path (R : ℝ) : List Move → V3 ℝ → Prop
  | [], p => len p ≤ R
  | m :: ms, p => len p ≤ R ∧ Path R ms (m.image p)

/-! ## Matrices that are nearly orthogonal -/

variable (A : Arith)

theorem gram_norm {u v : V3 ℝ} {d : ℝ} (hd : 0 ≤ d) (hd1 : d ≤ 1) (h : |u.dot u - v.dot v| ≤ d * (norm3 v * norm3 v)) :
    norm3 u ≤ (1 + d) * norm3 v ∧ (1 - d) * norm3 v ≤ norm3 u := by
  have hv := norm3_nonneg v
  have hu := norm3_nonneg u
  have e1 : u.dot u = norm3 u ^ 2 := (norm3_sq u).symm
  have e2 : v.dot v = norm3 v ^ 2 := (norm3_sq v).symm
  rw [e1, e2] at h
  obtain ⟨h1, h2⟩ := abs_le.mp h
  have hs := sq_nonneg (norm3 v)
  constructor
  · apply abs_le_of_sq_le_sq' _ (by positivity) |>.2
    nlinarith [mul_nonneg hd hs, mul_nonneg (mul_nonneg hd hd) hs]
  · apply abs_le_of_sq_le_sq' _ hu |>.2
    have : d * d * norm3 v ^ 2 ≤ d * norm3 v ^ 2 := by
      have := mul_le_mul_of_nonneg_right (mul_le_mul_of_nonneg_left hd1 hd) hs
      linarith
    nlinarith

theorem Keeps.norm {δ : ℝ} {M : M3 ℝ} (h : Keeps δ M) (hδ : 0 ≤ δ) (hδ1 : δ ≤ 1) (v : V3 ℝ) :
    norm3 (M.mulVec v) ≤ (1 + δ) * norm3 v ∧ (1 - δ) * norm3 v ≤ norm3 (M.mulVec v) := by
  have := h v v
  rw [len_eq] at this
  exact gram_norm hδ hδ1 this

theorem row_le {M : M3 ℝ} {c : ℝ} (h : ∀ v, norm3 (M.mulVec v) ≤ c * norm3 v) :
    norm3 M.row0 ≤ c ∧ norm3 M.row1 ≤ c ∧ norm3 M.row2 ≤ c := by
  have key (r : V3 ℝ) (hr : ∀ v, |r.dot v| ≤ norm3 (M.mulVec v)) : norm3 r ≤ c := by
    have h1 := (hr r).trans (h r)
    have e1 : r.dot r = norm3 r ^ 2 := (norm3_sq r).symm
    rw [e1, abs_of_nonneg (sq_nonneg _)] at h1
    rcases eq_or_lt_of_le (norm3_nonneg r) with h0 | h0
    · rw [← h0]
      have := h ⟨1, 0, 0⟩
      have e : norm3 (⟨1, 0, 0⟩ : V3 ℝ) = 1 := by rw [norm3_eq_one]; norm_num [V3.normSq, V3.dot]
      rw [e, mul_one] at this
      exact (norm3_nonneg _).trans this
    · rw [sq] at h1
      exact le_of_mul_le_mul_right h1 h0
  refine ⟨key _ fun v => ?_, key _ fun v => ?_, key _ fun v => ?_⟩
  · have := (comp_le (M.mulVec v)).1
    simpa [M3.mulVec, M3.row0, V3.dot] using this
  · have := (comp_le (M.mulVec v)).2.1
    simpa [M3.mulVec, M3.row1, V3.dot] using this
  · have := (comp_le (M.mulVec v)).2.2
    simpa [M3.mulVec, M3.row2, V3.dot] using this

/-- A product with rows of length at most 2. -/
theorem mulVec_near {M : M3 ℝ} (h : norm3 M.row0 ≤ 2 ∧ norm3 M.row1 ≤ 2 ∧ norm3 M.row2 ≤ 2) (v : V3 ℝ) :
    norm3 (mulVec A M v - M.mulVec v) ≤ 16 * unit * norm3 v + 12 * tiny := by
  have key (r : V3 ℝ) (hr : norm3 r ≤ 2) : |A.dot r v - r.dot v| ≤ 8 * unit * norm3 v + 6 * tiny := by
    have h := A.dot_near r v
    have h2 := abs_products_le r v
    have h3 := mul_le_mul_of_nonneg_right hr (norm3_nonneg v)
    rw [unit_eq] at *
    linarith
  have e : M.mulVec v = ⟨M.row0.dot v, M.row1.dot v, M.row2.dot v⟩ := by
    ext <;> simp [M3.mulVec, M3.row0, M3.row1, M3.row2, V3.dot]
  rw [e]
  have := norm3_le_of_comp (v := mulVec A M v - ⟨M.row0.dot v, M.row1.dot v, M.row2.dot v⟩)
    (key _ h.1) (key _ h.2.1) (key _ h.2.2)
  linarith

theorem vsub_near (p q : V3 ℝ) : norm3 (sub A p q - (p - q)) ≤ 2 * unit * norm3 (p - q) + 2 * tiny := by
  obtain ⟨h1, h2, h3⟩ := diff_near A p q
  obtain ⟨c1, c2, c3⟩ := comp_le (p - q)
  have hu := unit_pos
  have := norm3_le_of_comp (v := sub A p q - (p - q)) (E := unit * norm3 (p - q) + tiny)
    (h1.trans (by have := mul_le_mul_of_nonneg_left c1 hu.le; linarith))
    (h2.trans (by have := mul_le_mul_of_nonneg_left c2 hu.le; linarith))
    (h3.trans (by have := mul_le_mul_of_nonneg_left c3 hu.le; linarith))
  linarith

theorem vadd_near (p q : V3 ℝ) : norm3 (add A p q - (p + q)) ≤ 2 * unit * norm3 (p + q) + 2 * tiny := by
  obtain ⟨c1, c2, c3⟩ := comp_le (p + q)
  have hu := unit_pos
  have := norm3_le_of_comp (v := add A p q - (p + q)) (E := unit * norm3 (p + q) + tiny)
    ((A.near (p.x + q.x)).trans (by have := mul_le_mul_of_nonneg_left c1 hu.le; simp only [V3.add_x] at this; linarith))
    ((A.near (p.y + q.y)).trans (by have := mul_le_mul_of_nonneg_left c2 hu.le; simp only [V3.add_y] at this; linarith))
    ((A.near (p.z + q.z)).trans (by have := mul_le_mul_of_nonneg_left c3 hu.le; simp only [V3.add_z] at this; linarith))
  linarith

theorem norm3_sub_le (v w : V3 ℝ) : norm3 (v - w) ≤ norm3 v + norm3 w := by
  have := norm3_add_le v (-w)
  rw [norm3_neg, ← sub_eq_add_neg] at this
  exact this

theorem norm3_tri (a b c : V3 ℝ) : norm3 (a - c) ≤ norm3 (a - b) + norm3 (b - c) := by
  have := norm3_add_le (a - b) (b - c)
  rwa [sub_add_sub_cancel] at this

theorem norm3_le_add (a b : V3 ℝ) : norm3 a ≤ norm3 (a - b) + norm3 b := by
  have := norm3_add_le (a - b) b
  rwa [sub_add_cancel] at this

theorem tiny_unit {R : ℝ} (h : (1 / 2) ^ 480 ≤ R) : tiny ≤ unit * R := by
  have h1 : unit * (1 / 2) ^ 480 ≤ unit * R := mul_le_mul_of_nonneg_left h unit_pos.le
  have h2 : tiny ≤ unit * (1 / 2) ^ 480 := by
    unfold tiny unit
    rw [← pow_add]
    exact half_pow_le (by norm_num)
  exact h2.trans h1

/-! ## Points -/

/-- One move of a point that is already off by `η`. -/
theorem Move.point_near {δ R η : ℝ} (hδ : 0 ≤ δ) (hδ1 : δ ≤ 1 / 8) (hR : (1 / 2) ^ 480 ≤ R) (hη : η ≤ R) {m : Move}
    (hm : m.Fair δ R) {p q : V3 ℝ} (hp : len p ≤ R) (hq : norm3 (q - p) ≤ η) :
    norm3 (m.point A q - m.image p) ≤ (1 + δ) * η + 128 * unit * R := by
  have hη0 : 0 ≤ η := (norm3_nonneg _).trans hq
  have hR0 : 0 < R := lt_of_lt_of_le (by positivity) hR
  have ht := tiny_unit hR
  have ht0 := tiny_pos
  rw [len_eq] at hp
  have hq' : norm3 q ≤ 2 * R := by have := norm3_le_add q p; linarith
  cases m with
  | shift s =>
    have hs : norm3 s ≤ R := by have : len s ≤ R := hm; rwa [len_eq] at this
    have h1 := vadd_near A q s
    have h2 := norm3_add_le q s
    have h3 := norm3_tri (add A q s) (q + s) (p + s)
    rw [add_sub_add_right_eq_sub] at h3
    show norm3 (add A q s - (p + s)) ≤ _
    have := mul_nonneg hδ hη0
    rw [unit_eq] at *
    linarith
  | matrix M o =>
    obtain ⟨hK, ho⟩ := hm
    have hN := fun v => (hK.norm hδ (by linarith) v).1
    have hrow := row_le hN
    have hrow' : norm3 M.row0 ≤ 2 ∧ norm3 M.row1 ≤ 2 ∧ norm3 M.row2 ≤ 2 := ⟨by linarith, by linarith, by linarith⟩
    have lin (v w : V3 ℝ) : M.mulVec v - M.mulVec w = M.mulVec (v - w) := by ext <;> simp [M3.mulVec] <;> ring
    cases o with
    | none =>
      have h1 := mulVec_near A hrow' q
      have h2 := norm3_tri (mulVec A M q) (M.mulVec q) (M.mulVec p)
      have h3 := hN (q - p)
      have h4 := mul_le_mul_of_nonneg_left hq (by linarith : 0 ≤ 1 + δ)
      rw [lin] at h2
      show norm3 (mulVec A M q - M.mulVec p) ≤ _
      rw [unit_eq] at *
      linarith
    | some c =>
      have hc : norm3 c ≤ R := by have := ho c rfl; rwa [len_eq] at this
      have d1 := vsub_near A q c
      have d2 := norm3_sub_le q c
      have d3 := norm3_le_add (sub A q c) (q - c)
      generalize hD : sub A q c = D at *
      have hD' : norm3 D ≤ 4 * R := by rw [unit_eq] at *; linarith
      have h1 := mulVec_near A hrow' D
      have h2 := hN D
      have h2' : norm3 (M.mulVec D) ≤ 5 * R := by
        have := mul_le_mul (show 1 + δ ≤ 9 / 8 by linarith) hD' (norm3_nonneg D) (by norm_num)
        linarith
      have h3 := norm3_le_add (mulVec A M D) (M.mulVec D)
      generalize hE : mulVec A M D = E at *
      have h4 := vadd_near A E c
      have h5 := norm3_add_le E c
      have h6 : norm3 (M.mulVec D - M.mulVec (p - c)) ≤ (1 + δ) * (η + 6 * unit * R + 2 * tiny) := by
        rw [lin]
        refine (hN _).trans (mul_le_mul_of_nonneg_left ?_ (by linarith))
        have h7 := norm3_tri D (q - c) (p - c)
        rw [sub_sub_sub_cancel_right] at h7
        rw [unit_eq] at *
        linarith
      have h8 := norm3_tri (add A E c) (E + c) (M.mulVec (p - c) + c)
      rw [add_sub_add_right_eq_sub] at h8
      have h9 := norm3_tri E (M.mulVec D) (M.mulVec (p - c))
      have e1 : (Move.matrix M (some c)).point A q = add A E c := by rw [← hE, ← hD]; rfl
      have e2 : (Move.matrix M (some c)).image p = M.mulVec (p - c) + c := rfl
      rw [e1, e2]
      have h10 : (1 + δ) * (η + 6 * unit * R + 2 * tiny) ≤ (1 + δ) * η + 9 * unit * R := by
        have := mul_le_mul_of_nonneg_right (show 1 + δ ≤ 9 / 8 by linarith) (by rw [unit_eq]; positivity : 0 ≤ 6 * unit * R + 2 * tiny)
        linarith
      rw [unit_eq] at *
      linarith

theorem pointOf_near {δ R : ℝ} (hδ : 0 ≤ δ) (hδ1 : δ ≤ 1 / 8) (hR : (1 / 2) ^ 480 ≤ R) (ms : List Move)
    (hm : ∀ m ∈ ms, m.Fair δ R) : ∀ (p q : V3 ℝ) (η : ℝ), Path R ms p → norm3 (q - p) ≤ η →
      (η + ms.length * (128 * unit * R)) * (1 + δ) ^ ms.length ≤ R →
      norm3 (pointOf A ms q - image ms p) ≤ (η + ms.length * (128 * unit * R)) * (1 + δ) ^ ms.length := by
  have hR0 : 0 < R := lt_of_lt_of_le (by positivity) hR
  have hs : 0 ≤ 128 * unit * R := by have := unit_pos; positivity
  induction ms with
  | nil => intro p q η _ hq _; simpa [pointOf, image] using hq
  | cons m ms ih =>
    intro p q η hp hq hb
    have hη0 : 0 ≤ η := (norm3_nonneg _).trans hq
    have h1 : (1 : ℝ) ≤ (1 + δ) ^ (m :: ms).length := one_le_pow₀ (by linarith)
    have hl : (0 : ℝ) ≤ ((m :: ms).length : ℝ) * (128 * unit * R) := by positivity
    have hη : η ≤ R := by
      have := mul_le_mul_of_nonneg_left h1 (by linarith : 0 ≤ η + ((m :: ms).length : ℝ) * (128 * unit * R))
      linarith
    have hstep := Move.point_near A hδ hδ1 hR hη (hm m List.mem_cons_self) hp.1 hq
    have hle : ((1 + δ) * η + 128 * unit * R + ms.length * (128 * unit * R)) * (1 + δ) ^ ms.length ≤
        (η + ((m :: ms).length : ℝ) * (128 * unit * R)) * (1 + δ) ^ (m :: ms).length := by
      rw [List.length_cons, show (η + ((ms.length + 1 : ℕ) : ℝ) * (128 * unit * R)) * (1 + δ) ^ (ms.length + 1) =
        ((η + ((ms.length + 1 : ℕ) : ℝ) * (128 * unit * R)) * (1 + δ)) * (1 + δ) ^ ms.length by rw [pow_succ]; ring]
      have hpw : (0 : ℝ) ≤ (1 + δ) ^ ms.length := pow_nonneg (by linarith) _
      refine mul_le_mul_of_nonneg_right ?_ hpw
      push_cast
      have h2 : (0 : ℝ) ≤ ((ms.length : ℝ) + 1) * (128 * unit * R) := by positivity
      have := mul_nonneg hδ h2
      linarith
    exact (ih (fun m h => hm m (List.mem_cons_of_mem _ h)) _ _ _ hp.2 hstep (hle.trans hb)).trans hle

/-! ## Differences and directions -/

theorem Move.turn_eq (m : Move) (p q : V3 ℝ) : m.image p - m.image q = m.turn (p - q) := by
  rcases m with s | ⟨M, _ | o⟩
  · simp [Move.image, Move.turn]
  · ext <;> simp [Move.image, Move.turn, M3.mulVec] <;> ring
  · ext <;> simp [Move.image, Move.turn, M3.mulVec] <;> ring

theorem turn_eq (ms : List Move) : ∀ p q : V3 ℝ, image ms p - image ms q = turn ms (p - q) := by
  induction ms with
  | nil => intro p q; rfl
  | cons m ms ih => intro p q; simp only [image, turn]; rw [ih, Move.turn_eq]

theorem turn_add (ms : List Move) : ∀ v w : V3 ℝ, turn ms (v + w) = turn ms v + turn ms w := by
  induction ms with
  | nil => intro p q; rfl
  | cons m ms ih =>
    intro p q
    have : m.turn (p + q) = m.turn p + m.turn q := by
      rcases m with s | ⟨M, o⟩
      · rfl
      · exact M3.mulVec_add _ _ _
    simp only [turn]; rw [this, ih]

theorem turn_smul (ms : List Move) : ∀ (c : ℝ) (v : V3 ℝ), turn ms (c • v) = c • turn ms v := by
  induction ms with
  | nil => intro p q; rfl
  | cons m ms ih =>
    intro c v
    have : m.turn (c • v) = c • m.turn v := by
      rcases m with s | ⟨M, o⟩
      · rfl
      · exact M3.mulVec_smul _ _ _
    simp only [turn]; rw [this, ih]

theorem Move.turn_keeps {δ R : ℝ} (hδ : 0 ≤ δ) {m : Move} (hm : m.Fair δ R) (v w : V3 ℝ) :
    |(m.turn v).dot (m.turn w) - v.dot w| ≤ δ * (norm3 v * norm3 w) := by
  rcases m with s | ⟨M, o⟩
  · simp only [Move.turn, sub_self, abs_zero]
    exact mul_nonneg hδ (mul_nonneg (norm3_nonneg _) (norm3_nonneg _))
  · have := hm.1 v w
    rwa [len_eq, len_eq] at this

/-- (1 + δ)^k stays below 1 + 2kδ. -/
theorem pow_le_of_small {δ : ℝ} (hδ : 0 ≤ δ) : ∀ k : ℕ, k * δ ≤ 1 / 2 → (1 + δ) ^ k ≤ 1 + 2 * (k * δ) := by
  intro k
  induction k with
  | zero => intro _; simp
  | succ k ih =>
    intro h
    push_cast at h ⊢
    have h1 := ih (by linarith)
    have hk : 0 ≤ (k : ℝ) * δ := by positivity
    rw [pow_succ]
    have h2 := mul_le_mul_of_nonneg_right h1 (by linarith : 0 ≤ 1 + δ)
    have h3 : (k : ℝ) * δ * δ ≤ 1 / 2 * δ := mul_le_mul_of_nonneg_right (by linarith) hδ
    nlinarith

/-- Inner products after all moves. -/
theorem turn_keeps {δ R : ℝ} (hδ : 0 ≤ δ) : ∀ (ms : List Move), (∀ m ∈ ms, m.Fair δ R) → (ms.length : ℝ) * δ ≤ 1 / 8 →
    ∀ v w : V3 ℝ, |(turn ms v).dot (turn ms w) - v.dot w| ≤ (2 * (ms.length * δ)) * (norm3 v * norm3 w) := by
  intro ms
  induction ms with
  | nil => intro _ _ v w; simp [turn]
  | cons m ms ih =>
    intro hm hk v w
    rw [List.length_cons] at hk
    push_cast at hk
    have hk0 : 0 ≤ (ms.length : ℝ) * δ := by positivity
    have h1 := ih (fun m h => hm m (List.mem_cons_of_mem _ h)) (by linarith) (m.turn v) (m.turn w)
    have hT := Move.turn_keeps hδ (hm m List.mem_cons_self)
    have h2 := hT v w
    have hv := (gram_norm hδ (by linarith) (hT v v)).1
    have hw := (gram_norm hδ (by linarith) (hT w w)).1
    have h3 : norm3 (m.turn v) * norm3 (m.turn w) ≤ (1 + δ) * norm3 v * ((1 + δ) * norm3 w) :=
      mul_le_mul hv hw (norm3_nonneg _) (mul_nonneg (by linarith) (norm3_nonneg _))
    have h4 := mul_le_mul_of_nonneg_left h3 (by linarith : 0 ≤ 2 * ((ms.length : ℝ) * δ))
    simp only [turn]
    have h5 := abs_sub_le ((turn ms (m.turn v)).dot (turn ms (m.turn w))) ((m.turn v).dot (m.turn w)) (v.dot w)
    refine h5.trans ((add_le_add (h1.trans h4) h2).trans ?_)
    have hP : 0 ≤ norm3 v * norm3 w := mul_nonneg (norm3_nonneg _) (norm3_nonneg _)
    rw [show 2 * ((ms.length : ℝ) * δ) * ((1 + δ) * norm3 v * ((1 + δ) * norm3 w)) + δ * (norm3 v * norm3 w) =
      (2 * ((ms.length : ℝ) * δ) * (1 + δ) ^ 2 + δ) * (norm3 v * norm3 w) by ring]
    refine mul_le_mul_of_nonneg_right ?_ hP
    rw [List.length_cons]
    push_cast
    have h6 : (ms.length : ℝ) * δ * δ ≤ 1 / 8 * δ := mul_le_mul_of_nonneg_right (by linarith) hδ
    have h7 : (ms.length : ℝ) * δ * δ * δ ≤ 1 / 8 * δ := by
      have := mul_le_mul_of_nonneg_right h6 hδ
      nlinarith
    nlinarith

/-- One move of a direction. -/
theorem direction_near {δ : ℝ} (hδ : 0 ≤ δ) (hδ1 : δ ≤ 1 / 8) {M : M3 ℝ} (hK : Keeps δ M) {n N : V3 ℝ} {ν : ℝ}
    (hN : |len N - 1| ≤ (1 / 2) ^ 47) (hν : norm3 (N - n) ≤ ν) :
    ∃ N', normalSet A (mulVec A M N) = .ok N' ∧ axisSet A (mulVec A M N) = .ok N' ∧ |len N' - 1| ≤ (1 / 2) ^ 47 ∧
      norm3 (N' - M.mulVec n) ≤ (1 + δ) * ν + (δ + (1 / 2) ^ 45) := by
  obtain ⟨n1, n2⟩ := len_le_two hN
  have hO := hK.norm hδ (by linarith)
  have hrow := row_le fun v => (hO v).1
  have h1 := mulVec_near A (M := M) ⟨by linarith, by linarith, by linarith⟩ N
  have ht := tiny_le_unit
  obtain ⟨o1, o2⟩ := hO N
  have l1 : norm3 (M.mulVec N) ≤ (1 + δ) * (1 + (1 / 2) ^ 47) := o1.trans (mul_le_mul_of_nonneg_left n1 (by linarith))
  have l2 : (1 - δ) * (1 - (1 / 2) ^ 47) ≤ norm3 (M.mulVec N) := (mul_le_mul_of_nonneg_left n2 (by linarith)).trans o2
  generalize hm : mulVec A M N = m at *
  have h2 := abs_le.mp ((abs_norm3_sub m (M.mulVec N)).trans h1)
  have hme : machEps = 1 / 4503599627370496 := by unfold machEps; norm_num
  have e45 : ((1 : ℝ) / 2) ^ 45 = 1 / 35184372088832 := by norm_num
  have e48 : ((1 : ℝ) / 2) ^ 48 = 1 / 281474976710656 := by norm_num
  obtain ⟨N', s1, s2⟩ := (C138_directions A m).2.2 (by
    rw [len_eq, hme]; rw [eps_eq, unit_eq] at *; norm_num at ht; linarith)
  obtain ⟨m0, m1, m2⟩ := (C138_directions A m).1 N' s1
  refine ⟨N', s1, s2, m2, ?_⟩
  rw [len_eq, dist_eq] at m1
  rw [len_eq] at m0
  -- the normalised vector is near the vector
  have h3 : norm3 ((norm3 m)⁻¹ • m - m) = |1 - norm3 m| := by
    have e : (norm3 m)⁻¹ • m - m = ((norm3 m)⁻¹ - 1) • m := by rw [sub_smul, one_smul]
    rw [e, norm3_smul]
    have hp : 0 < norm3 m := lt_of_le_of_ne (norm3_nonneg m) (Ne.symm m0)
    rw [← abs_of_pos hp, ← abs_mul, abs_of_pos hp, sub_mul, inv_mul_cancel₀ m0, one_mul]
  have h4 := norm3_tri N' ((norm3 m)⁻¹ • m) m
  have h5 := norm3_tri N' m (M.mulVec N)
  have h6 := norm3_tri N' (M.mulVec N) (M.mulVec n)
  have lin : M.mulVec N - M.mulVec n = M.mulVec (N - n) := by ext <;> simp [M3.mulVec] <;> ring
  rw [lin] at h6
  have h7 := ((hO (N - n)).1).trans (mul_le_mul_of_nonneg_left hν (by linarith))
  have h8 : |1 - norm3 m| ≤ δ + 1 / 70368744177664 := by
    rw [abs_le]
    rw [eps_eq, unit_eq] at *
    norm_num at ht
    constructor <;> linarith
  rw [h3] at h4
  rw [e48] at m1
  rw [e45]
  rw [eps_eq, unit_eq] at *
  norm_num at ht
  linarith

/-! ## Surfaces -/

theorem growth {a g δ : ℝ} {k : ℕ} (ha : 0 ≤ a) (hg : 0 ≤ g) (hδ : 0 ≤ δ) :
    ((1 + δ) * a + g + k * g) * (1 + δ) ^ k ≤ (a + (k + 1) * g) * (1 + δ) ^ (k + 1) := by
  rw [show (a + ((k : ℝ) + 1) * g) * (1 + δ) ^ (k + 1) = ((a + ((k : ℝ) + 1) * g) * (1 + δ)) * (1 + δ) ^ k by rw [pow_succ]; ring]
  have hpw : (0 : ℝ) ≤ (1 + δ) ^ k := pow_nonneg (by linarith) _
  refine mul_le_mul_of_nonneg_right ?_ hpw
  have h2 : (0 : ℝ) ≤ ((k : ℝ) + 1) * g := by positivity
  have := mul_nonneg hδ h2
  linarith

theorem algOf_sphere (ms : List Move) : ∀ s : Sphere, algOf A ms (.sphere s) = .ok (.sphere { s with center := pointOf A ms s.center }) := by
  induction ms with
  | nil => intro s; rfl
  | cons m ms ih => intro s; simp only [algOf, Move.alg, pointOf]; rw [ih]

theorem algOf_plane {δ R : ℝ} (hδ : 0 ≤ δ) (hδ1 : δ ≤ 1 / 8) (ms : List Move) (hm : ∀ m ∈ ms, m.Fair δ R) :
    ∀ (pl : Plane) (n : V3 ℝ) (ν : ℝ), |len pl.normal - 1| ≤ (1 / 2) ^ 47 → norm3 (pl.normal - n) ≤ ν →
    ∃ N, algOf A ms (.plane pl) = .ok (.plane { pl with point := pointOf A ms pl.point, normal := N }) ∧
      |len N - 1| ≤ (1 / 2) ^ 47 ∧ norm3 (N - turn ms n) ≤ (ν + ms.length * (δ + (1 / 2) ^ 45)) * (1 + δ) ^ ms.length := by
  have hg : (0 : ℝ) ≤ δ + (1 / 2) ^ 45 := by positivity
  induction ms with
  | nil => intro pl n ν h1 h2; exact ⟨pl.normal, rfl, h1, by simpa [turn] using h2⟩
  | cons m ms ih =>
    intro pl n ν h1 h2
    have hν : 0 ≤ ν := (norm3_nonneg _).trans h2
    have hF := hm m List.mem_cons_self
    have ih' := ih fun m h => hm m (List.mem_cons_of_mem _ h)
    have hgr := growth (k := ms.length) hν hg hδ
    have key : ∃ N, m.alg A (.plane pl) = .ok (.plane { pl with point := m.point A pl.point, normal := N }) ∧
        |len N - 1| ≤ (1 / 2) ^ 47 ∧ norm3 (N - m.turn n) ≤ (1 + δ) * ν + (δ + (1 / 2) ^ 45) := by
      cases m with
      | shift t => exact ⟨pl.normal, rfl, h1, h2.trans (by have := mul_nonneg hδ hν; linarith)⟩
      | matrix M o =>
        obtain ⟨N, a1, a2, a3, a4⟩ := direction_near A hδ hδ1 hF.1 h1 h2
        exact ⟨N, by simp only [Move.alg, a1], a3, a4⟩
    obtain ⟨N, b1, b2, b3⟩ := key
    obtain ⟨N', c1, c2, c3⟩ := ih' { pl with point := m.point A pl.point, normal := N } (m.turn n) _ b2 b3
    refine ⟨N', ?_, c2, ?_⟩
    · simp only [algOf, b1]; rw [c1]; rfl
    · rw [List.length_cons]; push_cast; exact c3.trans hgr

theorem algOf_cyl {δ R : ℝ} (hδ : 0 ≤ δ) (hδ1 : δ ≤ 1 / 8) (ms : List Move) (hm : ∀ m ∈ ms, m.Fair δ R) :
    ∀ (c : Cylinder) (n : V3 ℝ) (ν : ℝ), |len c.axis - 1| ≤ (1 / 2) ^ 47 → norm3 (c.axis - n) ≤ ν →
    ∃ N, algOf A ms (.cyl c) = .ok (.cyl { c with point := pointOf A ms c.point, axis := N }) ∧
      |len N - 1| ≤ (1 / 2) ^ 47 ∧ norm3 (N - turn ms n) ≤ (ν + ms.length * (δ + (1 / 2) ^ 45)) * (1 + δ) ^ ms.length := by
  have hg : (0 : ℝ) ≤ δ + (1 / 2) ^ 45 := by positivity
  induction ms with
  | nil => intro pl n ν h1 h2; exact ⟨pl.axis, rfl, h1, by simpa [turn] using h2⟩
  | cons m ms ih =>
    intro pl n ν h1 h2
    have hν : 0 ≤ ν := (norm3_nonneg _).trans h2
    have hF := hm m List.mem_cons_self
    have ih' := ih fun m h => hm m (List.mem_cons_of_mem _ h)
    have hgr := growth (k := ms.length) hν hg hδ
    have key : ∃ N, m.alg A (.cyl pl) = .ok (.cyl { pl with point := m.point A pl.point, axis := N }) ∧
        |len N - 1| ≤ (1 / 2) ^ 47 ∧ norm3 (N - m.turn n) ≤ (1 + δ) * ν + (δ + (1 / 2) ^ 45) := by
      cases m with
      | shift t => exact ⟨pl.axis, rfl, h1, h2.trans (by have := mul_nonneg hδ hν; linarith)⟩
      | matrix M o =>
        obtain ⟨N, a1, a2, a3, a4⟩ := direction_near A hδ hδ1 hF.1 h1 h2
        exact ⟨N, by simp only [Move.alg, a2], a3, a4⟩
    obtain ⟨N, b1, b2, b3⟩ := key
    obtain ⟨N', c1, c2, c3⟩ := ih' { pl with point := m.point A pl.point, axis := N } (m.turn n) _ b2 b3
    refine ⟨N', ?_, c2, ?_⟩
    · simp only [algOf, b1]; rw [c1]; rfl
    · rw [List.length_cons]; push_cast; exact c3.trans hgr

/-- The centre of a surface. -/
def anchor : Alg → V3 ℝ
  | .sphere s => s.center
  | .plane p => p.point
  | .cyl c => c.point

/-- Radius and length are at most `R`. -/
def Sized (R : ℝ) : Alg → Prop
  | .sphere s => s.radius ≤ R
  | .plane _ => True
  | .cyl c => c.radius ≤ R ∧ c.length ≤ R

/-- How far computed positions may be off after the moves: a fraction of the tolerance. -/
def Budget (δ R tol : ℝ) (k : ℕ) : Prop := 128 * ((k + 1) * (δ + (1 / 2) ^ 40) * R) ≤ tol

structure Budgeted (δ R tol : ℝ) (k : ℕ) : Prop where
  delta : 0 ≤ δ
  radius : (1 / 2) ^ 480 ≤ R
  steps : k * δ ≤ 1 / 8
  single : δ ≤ 1 / 8
  many : (k : ℝ) ≤ 2 ^ 30
  budget : Budget δ R tol k

theorem Budgeted.parts {δ R tol : ℝ} {k : ℕ} (h : Budgeted δ R tol k) :
    0 < R ∧ 0 ≤ k * δ ∧ 128 * (k * δ * R) ≤ tol ∧ 128 * ((k + 1) * (1 / 2) ^ 40 * R) ≤ tol ∧
    128 * (k * (δ + (1 / 2) ^ 45) * R) ≤ tol ∧ (1 + δ) ^ k ≤ 1 + 2 * (k * δ) := by
  have hR : 0 < R := lt_of_lt_of_le (by positivity) h.radius
  have hδ := h.delta
  have hb := h.budget
  have hs := h.steps
  have hp := pow_le_of_small hδ k (by linarith)
  unfold Budget at hb
  have e40 : ((1 : ℝ) / 2) ^ 40 = 32 * (1 / 2) ^ 45 := by norm_num
  have hz : (0 : ℝ) ≤ (1 / 2) ^ 45 := by positivity
  rw [e40] at hb ⊢
  generalize (1 / 2 : ℝ) ^ 45 = z at *
  have k0 : (0 : ℝ) ≤ k := Nat.cast_nonneg k
  have a1 : 0 ≤ (k : ℝ) * δ * R := by positivity
  have a2 : 0 ≤ (k : ℝ) * z * R := by positivity
  have a3 : 0 ≤ δ * R := by positivity
  have a4 : 0 ≤ z * R := by positivity
  have ex : ((k : ℝ) + 1) * (δ + 32 * z) * R = k * δ * R + 32 * (k * z * R) + δ * R + 32 * (z * R) := by ring
  rw [ex] at hb
  refine ⟨hR, by positivity, by linarith, ?_, ?_, hp⟩
  · rw [show ((k : ℝ) + 1) * (32 * z) * R = 32 * (k * z * R) + 32 * (z * R) by ring]; linarith
  · rw [show (k : ℝ) * (δ + z) * R = k * δ * R + k * z * R by ring]; linarith

/-- Points after the moves are off by less than a fraction of the tolerance. -/
theorem Budgeted.point {δ R tol : ℝ} {ms : List Move} (h : Budgeted δ R tol ms.length) (hm : ∀ m ∈ ms, m.Fair δ R) {p : V3 ℝ}
    (hp : Path R ms p) : norm3 (pointOf A ms p - image ms p) ≤ ms.length * (1 / 2) ^ 45 * R ∧
      ms.length * (1 / 2) ^ 45 * R ≤ R := by
  obtain ⟨hR, -, -, -, -, hpw⟩ := h.parts
  have hs := h.steps
  have hk := h.many
  have hle : (0 + (ms.length : ℝ) * (128 * unit * R)) * (1 + δ) ^ ms.length ≤ ms.length * (1 / 2) ^ 45 * R := by
    have h2 : (1 + δ) ^ ms.length ≤ 2 := by linarith
    have h0 : (0 : ℝ) ≤ ms.length * (128 * unit * R) := by have := unit_pos; positivity
    rw [zero_add]
    refine (mul_le_mul_of_nonneg_left h2 h0).trans (le_of_eq ?_)
    rw [unit_eq]; norm_num; ring
  have hle2 : (ms.length : ℝ) * (1 / 2) ^ 45 * R ≤ R := by
    have : (ms.length : ℝ) * (1 / 2) ^ 45 ≤ 1 := by
      have := mul_le_mul_of_nonneg_right hk (by positivity : (0 : ℝ) ≤ (1 / 2) ^ 45)
      refine this.trans ?_
      norm_num
    have := mul_le_mul_of_nonneg_right this hR.le
    linarith
  exact ⟨(pointOf_near A h.delta h.single h.radius ms hm p p 0 hp (by rw [sub_self]; exact ((norm3_eq_zero 0).mpr rfl).le) (hle.trans hle2)).trans hle, hle2⟩

theorem Path.last {R : ℝ} {ms : List Move} : ∀ {p : V3 ℝ}, Path R ms p → len (image ms p) ≤ R := by
  induction ms with
  | nil => intro p h; exact h
  | cons m ms ih => intro p h; exact ih h.2

theorem Path.first {R : ℝ} {ms : List Move} {p : V3 ℝ} (h : Path R ms p) : len p ≤ R := by
  cases ms with
  | nil => exact h
  | cons m ms => exact h.1

/-! ## The tests after the moves -/

/-- Inner products of vectors that are slightly off. -/
theorem dot_carried {x a X a1 y b : V3 ℝ} {D d ν : ℝ} (hd : |X.dot a1 - x.dot a| ≤ D * (norm3 x * norm3 a))
    (hX : norm3 X ≤ (1 + D) * norm3 x) (hy : norm3 (y - X) ≤ d) (hν : norm3 (b - a1) ≤ ν) (hb : norm3 b ≤ 2) :
    |y.dot b - x.dot a| ≤ D * (norm3 x * norm3 a) + (1 + D) * norm3 x * ν + 2 * d := by
  have e : y.dot b - x.dot a = (X.dot a1 - x.dot a) + X.dot (b - a1) + (y - X).dot b := by simp [V3.dot]; ring
  rw [e]
  have h1 := abs_dot_le X (b - a1)
  have h2 := abs_dot_le (y - X) b
  have h3 : norm3 X * norm3 (b - a1) ≤ (1 + D) * norm3 x * ν := mul_le_mul hX hν (norm3_nonneg _) ((norm3_nonneg _).trans hX)
  have h4 : norm3 (y - X) * norm3 b ≤ d * 2 := mul_le_mul hy hb (norm3_nonneg _) ((norm3_nonneg _).trans hy)
  have h5 := abs_add_le (X.dot a1 - x.dot a + X.dot (b - a1)) ((y - X).dot b)
  have h6 := abs_add_le (X.dot a1 - x.dot a) (X.dot (b - a1))
  linarith

/-- Distances from an axis, of vectors that are slightly off: `X` is the image of `t • a + w`. -/
theorem cross_carried {a1 W y b : V3 ℝ} {t d ν : ℝ} (hy : norm3 (y - (t • a1 + W)) ≤ d) (hν : norm3 (b - a1) ≤ ν) (hb : norm3 b ≤ 2) :
    |norm3 (y.cross b) - norm3 (W.cross a1)| ≤ (norm3 W + |t| * norm3 a1) * ν + 2 * d := by
  refine (abs_norm3_sub _ _).trans ?_
  have e : y.cross b - W.cross a1 = (y - (t • a1 + W)).cross b + (W.cross (b - a1) + t • a1.cross (b - a1)) := by
    ext <;> simp [V3.cross] <;> ring
  rw [e]
  have h1 := norm3_add_le ((y - (t • a1 + W)).cross b) (W.cross (b - a1) + t • a1.cross (b - a1))
  have h2 := norm3_add_le (W.cross (b - a1)) (t • a1.cross (b - a1))
  have h3 := norm3_cross_le W (b - a1)
  have h4 := norm3_cross_le a1 (b - a1)
  rw [norm3_smul] at h2
  have h5 := norm3_cross_le (y - (t • a1 + W)) b
  have h6 := mul_le_mul_of_nonneg_left hν (norm3_nonneg W)
  have h7 := mul_le_mul_of_nonneg_left (h4.trans (mul_le_mul_of_nonneg_left hν (norm3_nonneg a1))) (abs_nonneg t)
  have h8 : norm3 (y - (t • a1 + W)) * norm3 b ≤ d * 2 := mul_le_mul hy hb (norm3_nonneg _) ((norm3_nonneg _).trans hy)
  linarith

/-- The image of a vector across the axis. -/
theorem cross_image {w a W a1 : V3 ℝ} {D : ℝ} (hD : 0 ≤ D) (hD1 : D ≤ 1 / 4) (hwa : w.dot a = 0)
    (h : |W.dot a1 - w.dot a| ≤ D * (norm3 w * norm3 a)) (hW : |W.dot W - w.dot w| ≤ D * (norm3 w * norm3 w))
    (ha : |a1.dot a1 - a.dot a| ≤ D * (norm3 a * norm3 a)) :
    norm3 (W.cross a1) ≤ (1 + 3 * D) * (norm3 w * norm3 a) ∧ (1 - 2 * D) * (norm3 w * norm3 a) ≤ norm3 (W.cross a1) := by
  obtain ⟨w1, w2⟩ := gram_norm hD (by linarith) hW
  obtain ⟨a1', a2'⟩ := gram_norm hD (by linarith) ha
  have hw0 := norm3_nonneg w
  have ha0 := norm3_nonneg a
  have hP : 0 ≤ norm3 w * norm3 a := mul_nonneg hw0 ha0
  constructor
  · refine (norm3_cross_le _ _).trans ?_
    refine (mul_le_mul w1 a1' (norm3_nonneg _) (mul_nonneg (by linarith) hw0)).trans ?_
    rw [show (1 + D) * norm3 w * ((1 + D) * norm3 a) = (1 + D) ^ 2 * (norm3 w * norm3 a) by ring]
    refine mul_le_mul_of_nonneg_right ?_ hP
    nlinarith
  · apply abs_le_of_sq_le_sq' _ (norm3_nonneg _) |>.2
    rw [norm3_sq, normSq_cross]
    rw [hwa, sub_zero] at h
    have h1 : (W.dot a1) ^ 2 ≤ (D * (norm3 w * norm3 a)) ^ 2 := by rw [← sq_abs (W.dot a1)]; exact pow_le_pow_left₀ (abs_nonneg _) h 2
    have e1 : W.normSq = norm3 W ^ 2 := (norm3_sq W).symm
    have e2 : a1.normSq = norm3 a1 ^ 2 := (norm3_sq a1).symm
    rw [e1, e2]
    have h2 : ((1 - D) * norm3 w * ((1 - D) * norm3 a)) ^ 2 ≤ (norm3 W * norm3 a1) ^ 2 :=
      pow_le_pow_left₀ (mul_nonneg (mul_nonneg (by linarith) hw0) (mul_nonneg (by linarith) ha0))
        (mul_le_mul w2 a2' (mul_nonneg (by linarith) ha0) (norm3_nonneg _)) 2
    have e3 : ((1 - D) * norm3 w * ((1 - D) * norm3 a)) ^ 2 = (1 - D) ^ 4 * (norm3 w * norm3 a) ^ 2 := by ring
    rw [e3] at h2
    have hP2 : 0 ≤ (norm3 w * norm3 a) ^ 2 := sq_nonneg _
    have h3 : (1 - 2 * D) ^ 2 ≤ (1 - D) ^ 4 - D ^ 2 := by nlinarith [sq_nonneg D, mul_nonneg hD (sq_nonneg D), sq_nonneg (D * D)]
    have h4 := mul_le_mul_of_nonneg_right h3 hP2
    nlinarith

set_option maxHeartbeats 1000000 in
/-- **C139 (tests).** Move a surface as often as one likes; the computed surface accepts the computed image of every point on the
surface or inside it, and refuses that of every point two tolerances beyond it.  `δ` is the error of the matrices, `R` bounds all
positions on the way. -/
theorem C139_tests (δ R : ℝ) (ms : List Move) (hm : ∀ m ∈ ms, m.Fair δ R) (a : Alg) (ha : Ready a) (hS : Sized R a)
    (hB : Budgeted δ R (tolOf a) ms.length) (ht : (1 / 2) ^ 480 ≤ tolOf a) (hpa : Path R ms (anchor a)) :
    ∃ a', algOf A ms a = .ok a' ∧ Ready a' ∧ tolOf a' = tolOf a ∧ ∀ p q, Path R ms p →
      Spec.dist q (image ms p) ≤ (ms.length + 1) * (1 / 2) ^ 40 * R →
      (Closed p a → interior A a' q = true) ∧ (Beyond (2 * tolOf a) p a → interior A a' q = false) := by
  obtain ⟨hR0, hk0, b1, b2, b3, hpw⟩ := hB.parts
  have hs8 := hB.steps
  have hδ := hB.delta
  have hgram := turn_keeps hδ ms hm hs8
  have hanchor := (Budgeted.point A hB hm hpa).1
  generalize hD : 2 * ((ms.length : ℝ) * δ) = D at hgram
  have hD0 : 0 ≤ D := by rw [← hD]; linarith
  have hD1 : D ≤ 1 / 4 := by rw [← hD]; linarith
  have hDR : D * R ≤ tolOf a / 64 := by
    rw [← hD, show 2 * ((ms.length : ℝ) * δ) * R = 2 * (ms.length * δ * R) by ring]; linarith
  have hν2 : ∀ {x : ℝ}, x ≤ (0 + ms.length * (δ + (1 / 2) ^ 45)) * (1 + δ) ^ ms.length →
      x ≤ 2 * (ms.length * (δ + (1 / 2) ^ 45)) := by
    intro x hx
    refine hx.trans ?_
    rw [zero_add, mul_comm]
    exact mul_le_mul_of_nonneg_right (by linarith) (by positivity)
  generalize hν : 2 * ((ms.length : ℝ) * (δ + (1 / 2) ^ 45)) = ν at hν2
  have hν0 : 0 ≤ ν := by rw [← hν]; positivity
  have hνR : ν * R ≤ tolOf a / 64 := by
    rw [← hν, show 2 * ((ms.length : ℝ) * (δ + (1 / 2) ^ 45)) * R = 2 * (ms.length * (δ + (1 / 2) ^ 45) * R) by ring]; linarith
  have hη : (ms.length : ℝ) * (1 / 2) ^ 45 * R ≤ tolOf a / 128 := by
    have : (ms.length : ℝ) * (1 / 2) ^ 45 * R ≤ ((ms.length : ℝ) + 1) * (1 / 2) ^ 40 * R := by
      refine mul_le_mul_of_nonneg_right (mul_le_mul (by linarith) ?_ (by positivity) (by positivity)) hR0.le
      norm_num
    linarith
  have hη' : ∀ {x : ℝ}, x ≤ ((ms.length : ℝ) + 1) * (1 / 2) ^ 40 * R → x ≤ tolOf a / 128 := fun h => by linarith
  have hRt : 128 * ((1 / 2) ^ 40 * R) ≤ tolOf a := by
    have h1 : (1 / 2 : ℝ) ^ 40 * R ≤ ((ms.length : ℝ) + 1) * (1 / 2) ^ 40 * R := by
      have : (0 : ℝ) ≤ ms.length * ((1 / 2) ^ 40 * R) := by positivity
      linarith
    linarith
  have hRt : R ≤ 2 ^ 33 * tolOf a := by
    have e : (128 : ℝ) * ((1 / 2) ^ 40 * R) = R / 2 ^ 33 := by norm_num; ring
    rw [e, div_le_iff₀ (by positivity)] at hRt
    linarith
  have ht0 : 0 < tolOf a := lt_of_lt_of_le (by positivity) ht
  have hc1 := hpa.first
  have hc2 := hpa.last
  rw [len_eq] at hc1 hc2
  -- the difference between the point and the centre
  have hdiff (p q : V3 ℝ) (hq : Spec.dist q (image ms p) ≤ (ms.length + 1) * (1 / 2) ^ 40 * R) :
      norm3 (q - pointOf A ms (anchor a) - turn ms (p - anchor a)) ≤ tolOf a / 64 := by
    rw [← turn_eq]
    rw [dist_eq] at hq
    have h1 := hη' hq
    have h2 := norm3_sub_le (q - image ms p) (pointOf A ms (anchor a) - image ms (anchor a))
    have e : q - image ms p - (pointOf A ms (anchor a) - image ms (anchor a)) =
      q - pointOf A ms (anchor a) - (image ms p - image ms (anchor a)) := by abel
    rw [e] at h2
    linarith
  cases a with
  | sphere s =>
    simp only [tolOf, Ready, Closed, Beyond, Sized, anchor] at *
    refine ⟨_, algOf_sphere A ms s, ha, rfl, fun p q hp hq => ?_⟩
    have hx := hp.first
    rw [len_eq] at hx
    have h1 := hdiff p q hq
    have h2 := abs_le.mp ((abs_norm3_sub _ _).trans h1)
    obtain ⟨g1, g2⟩ := gram_norm hD0 (by linarith) (hgram (p - s.center) (p - s.center))
    have h500 : (1 / 2 : ℝ) ^ 500 ≤ (1 / 2) ^ 480 := half_pow_le (by norm_num)
    constructor
    · intro hc
      rw [dist_eq] at hc
      refine sphere_accepts A _ q (by show _ ≤ s.radius + s.tol; linarith) ?_
      show norm3 (q - pointOf A ms s.center) ≤ (s.radius + s.tol) * (1 - 16 * unit)
      have h3 : D * norm3 (p - s.center) ≤ D * R := mul_le_mul_of_nonneg_left (by linarith) hD0
      rw [unit_eq]
      linarith
    · intro hc
      rw [dist_eq] at hc
      refine sphere_refuses A _ q (by show _ ≤ s.radius + s.tol; linarith) ?_
      show (s.radius + s.tol) * (1 + 16 * unit) ≤ norm3 (q - pointOf A ms s.center)
      have h4 := norm3_sub_le p s.center
      have h3 : D * norm3 (p - s.center) ≤ D * (2 * R) := mul_le_mul_of_nonneg_left (by linarith) hD0
      rw [unit_eq]
      linarith
  | plane pl =>
    simp only [tolOf, Ready, Closed, Beyond, Sized, anchor] at *
    obtain ⟨N, n1, n2, n3⟩ := algOf_plane A hδ hB.single ms hm pl pl.normal 0 ha (by rw [sub_self]; exact ((norm3_eq_zero 0).mpr rfl).le)
    refine ⟨_, n1, n2, rfl, fun p q hp hq => ?_⟩
    have hx := hp.first
    have hy := hp.last
    rw [len_eq] at hx hy
    obtain ⟨l1, l2⟩ := len_le_two n2
    obtain ⟨l3, l4⟩ := len_le_two ha
    rw [eps_eq] at l1 l2 l3 l4
    have h4 := norm3_sub_le p pl.point
    obtain ⟨g1, -⟩ := gram_norm hD0 (by linarith) (hgram (p - pl.point) (p - pl.point))
    have h1 := dot_carried (hgram (p - pl.point) pl.normal) g1 (hdiff p q hq) (hν2 n3) (by linarith)
    have m1 : D * (norm3 (p - pl.point) * norm3 pl.normal) ≤ D * (2 * R * 2) :=
      mul_le_mul_of_nonneg_left (mul_le_mul (by linarith) (by linarith) (norm3_nonneg _) (by linarith)) hD0
    have m2 : (1 + D) * norm3 (p - pl.point) * ν ≤ 5 / 4 * (2 * R) * ν :=
      mul_le_mul_of_nonneg_right (mul_le_mul (by linarith) (by linarith) (norm3_nonneg _) (by norm_num)) hν0
    have e1 : (p - pl.point).dot pl.normal =
      (p.x - pl.point.x) * pl.normal.x + (p.y - pl.point.y) * pl.normal.y + (p.z - pl.point.z) * pl.normal.z := by simp [V3.dot]
    have e2 : (q - pointOf A ms pl.point).dot N = Plane.sdist ⟨N, pointOf A ms pl.point, pl.tol⟩ q := by
      simp [Plane.sdist, V3.dot]; ring
    rw [e1, e2] at h1
    obtain ⟨h2, h3⟩ := abs_le.mp h1
    rw [dist_eq] at hq
    have s1 := norm3_le_add q (image ms p)
    have s2 := norm3_le_add (pointOf A ms pl.point) (image ms pl.point)
    have s3 := hη' hq
    constructor
    · intro hc
      exact plane_accepts A ⟨N, pointOf A ms pl.point, pl.tol⟩ q (by show norm3 N ≤ 2; linarith)
        (by show norm3 q + norm3 (pointOf A ms pl.point) ≤ 2 ^ 42 * pl.tol; linarith) ht (by show _ ≤ pl.tol / 2; linarith)
    · intro hc
      exact plane_refuses A ⟨N, pointOf A ms pl.point, pl.tol⟩ q (by show norm3 N ≤ 2; linarith)
        (by show norm3 q + norm3 (pointOf A ms pl.point) ≤ 2 ^ 42 * pl.tol; linarith) ht (by show 3 / 2 * pl.tol ≤ _; linarith)
  | cyl c =>
    simp only [tolOf, Ready, Closed, Beyond, Sized, anchor] at *
    obtain ⟨hr, hl, ha⟩ := ha
    obtain ⟨hrR, hlR⟩ := hS
    obtain ⟨N, n1, n2, n3⟩ := algOf_cyl A hδ hB.single ms hm c c.axis 0 ha (by rw [sub_self]; exact ((norm3_eq_zero 0).mpr rfl).le)
    refine ⟨_, n1, ⟨hr, hl, n2⟩, rfl, fun p q hp hq => ?_⟩
    have hx := hp.first
    have hy := hp.last
    rw [len_eq] at hx hy
    obtain ⟨l1, l2⟩ := len_le_two n2
    obtain ⟨l3, l4⟩ := len_le_two ha
    rw [eps_eq] at l1 l2 l3 l4
    have h4 := norm3_sub_le p c.point
    obtain ⟨g1, -⟩ := gram_norm hD0 (by linarith) (hgram (p - c.point) (p - c.point))
    obtain ⟨ga, -⟩ := gram_norm hD0 (by linarith) (hgram c.axis c.axis)
    have hdf := hdiff p q hq
    have h1 := dot_carried (hgram (p - c.point) c.axis) g1 hdf (hν2 n3) (by linarith)
    have m1 : D * (norm3 (p - c.point) * norm3 c.axis) ≤ D * (2 * R * 2) :=
      mul_le_mul_of_nonneg_left (mul_le_mul (by linarith) (by linarith) (norm3_nonneg _) (by linarith)) hD0
    have m2 : (1 + D) * norm3 (p - c.point) * ν ≤ 5 / 4 * (2 * R) * ν :=
      mul_le_mul_of_nonneg_right (mul_le_mul (by linarith) (by linarith) (norm3_nonneg _) (by norm_num)) hν0
    -- size of what the test sees
    have hsz : norm3 (q - pointOf A ms c.point) + c.radius + c.length ≤ 2 ^ 42 * c.tol := by
      have := norm3_le_add (q - pointOf A ms c.point) (turn ms (p - c.point))
      have : norm3 (turn ms (p - c.point)) ≤ 5 / 4 * (2 * R) := g1.trans (mul_le_mul (by linarith) (by linarith) (norm3_nonneg _) (by norm_num))
      linarith
    -- along and across
    have key (t : ℝ) (h : Perp (p - (c.point + t • c.axis)) c.axis) :
        |norm3 ((q - pointOf A ms c.point).cross N) -
          norm3 ((turn ms (p - (c.point + t • c.axis))).cross (turn ms c.axis))| ≤ c.tol / 4 ∧
        norm3 ((turn ms (p - (c.point + t • c.axis))).cross (turn ms c.axis)) ≤ (1 + 3 * D) * (Spec.dist p (c.point + t • c.axis) * norm3 c.axis) ∧
        (1 - 2 * D) * (Spec.dist p (c.point + t • c.axis) * norm3 c.axis) ≤
          norm3 ((turn ms (p - (c.point + t • c.axis))).cross (turn ms c.axis)) ∧
        Spec.dist p (c.point + t • c.axis) ≤ 2 * R := by
      have e : p - c.point = t • c.axis + (p - (c.point + t • c.axis)) := by ext <;> simp <;> ring
      rw [dist_eq]
      generalize hw : p - (c.point + t • c.axis) = w at *
      have hperp : w.dot c.axis = 0 := h
      have hpyth : norm3 w ≤ norm3 (p - c.point) ∧ |t| * norm3 c.axis ≤ norm3 (p - c.point) := by
        have e2 : norm3 (p - c.point) ^ 2 = norm3 w ^ 2 + (|t| * norm3 c.axis) ^ 2 := by
          rw [mul_pow, sq_abs, norm3_sq, norm3_sq, norm3_sq, e]
          have : (t • c.axis + w).normSq = w.normSq + t ^ 2 * c.axis.normSq + 2 * t * w.dot c.axis := by
            simp [V3.normSq, V3.dot]; ring
          rw [this, hperp]; ring
        constructor
        · apply abs_le_of_sq_le_sq' _ (norm3_nonneg _) |>.2
          have := sq_nonneg (|t| * norm3 c.axis)
          linarith
        · apply abs_le_of_sq_le_sq' _ (norm3_nonneg _) |>.2
          have := sq_nonneg (norm3 w)
          linarith
      have ew : turn ms (p - c.point) = t • turn ms c.axis + turn ms w := by rw [e, turn_add, turn_smul]
      rw [ew] at hdf
      have k1 := cross_carried hdf (hν2 n3) (by linarith)
      obtain ⟨k2, k3⟩ := cross_image hD0 hD1 hperp (hgram w c.axis) (hgram w w) (hgram c.axis c.axis)
      obtain ⟨gw, -⟩ := gram_norm hD0 (by linarith) (hgram w w)
      refine ⟨k1.trans ?_, k2, k3, by linarith⟩
      have q1 : norm3 (turn ms w) ≤ 5 / 4 * (2 * R) := gw.trans (mul_le_mul (by linarith) (by linarith) (norm3_nonneg _) (by norm_num))
      have q2 : |t| * norm3 (turn ms c.axis) ≤ 5 / 4 * (2 * R) := by
        refine (mul_le_mul_of_nonneg_left ga (abs_nonneg t)).trans ?_
        rw [show |t| * ((1 + D) * norm3 c.axis) = (1 + D) * (|t| * norm3 c.axis) by ring]
        exact mul_le_mul (by linarith) (by linarith) (mul_nonneg (abs_nonneg _) (norm3_nonneg _)) (by norm_num)
      have q3 := mul_le_mul_of_nonneg_right (add_le_add q1 q2) hν0
      linarith
    constructor
    · rintro ⟨t, hc1, hc2, hc3⟩
      obtain ⟨k1, k2, -, -⟩ := key t hc2
      obtain ⟨a1, -⟩ := along hc2
      rw [a1] at h1
      have d0 : 0 ≤ Spec.dist p (c.point + t • c.axis) := Real.sqrt_nonneg _
      refine cylinder_accepts A _ q (by show norm3 N ≤ 2; linarith) hr hl hsz ht ?_ ?_
      · show norm3 ((q - pointOf A ms c.point).cross N) ≤ c.radius + c.tol / 2
        have := (abs_le.mp k1).2
        have hh : (1 + 3 * D) * (Spec.dist p (c.point + t • c.axis) * norm3 c.axis) ≤ (1 + 3 * D) * (c.radius * (1 + 1 / 140737488355328)) :=
          mul_le_mul_of_nonneg_left (mul_le_mul hc3 l3 (norm3_nonneg _) hr.le) (by linarith)
        have hDr : D * c.radius ≤ D * R := mul_le_mul_of_nonneg_left hrR hD0
        linarith
      · show |(q - pointOf A ms c.point).dot N| ≤ c.length / 2 + c.tol / 2
        have b4 : |t * norm3 c.axis ^ 2| ≤ c.length / 2 * (1 + 1 / 140737488355328) ^ 2 := by
          rw [abs_mul, abs_of_nonneg (sq_nonneg (norm3 c.axis))]
          exact mul_le_mul hc1 (pow_le_pow_left₀ (norm3_nonneg _) l3 2) (by positivity) (by linarith)
        have b5 := (abs_le.mp ((abs_abs_sub_abs_le _ _).trans h1)).2
        linarith
    · rintro ⟨t, hc2, hc3⟩
      obtain ⟨k1, -, k3, k4⟩ := key t hc2
      obtain ⟨a1, -⟩ := along hc2
      rw [a1] at h1
      have d0 : 0 ≤ Spec.dist p (c.point + t • c.axis) := Real.sqrt_nonneg _
      refine cylinder_refuses A _ q (by show norm3 N ≤ 2; linarith) hr hl hsz ht ?_
      rcases hc3 with hc3 | hc3
      · right
        show c.length / 2 + 3 / 2 * c.tol ≤ |(q - pointOf A ms c.point).dot N|
        have b4 : (c.length / 2 + 2 * c.tol) * (1 - 1 / 140737488355328) ^ 2 ≤ |t * norm3 c.axis ^ 2| := by
          rw [abs_mul, abs_of_nonneg (sq_nonneg (norm3 c.axis))]
          exact mul_le_mul hc3 (pow_le_pow_left₀ (by norm_num) l4 2) (by norm_num) (abs_nonneg _)
        have b5 := (abs_le.mp ((abs_abs_sub_abs_le _ _).trans h1)).1
        linarith
      · left
        show c.radius + 3 / 2 * c.tol ≤ norm3 ((q - pointOf A ms c.point).cross N)
        have := (abs_le.mp k1).1
        have hh : (1 - 1 / 140737488355328) * Spec.dist p (c.point + t • c.axis) ≤ Spec.dist p (c.point + t • c.axis) * norm3 c.axis := by
          rw [mul_comm]; exact mul_le_mul_of_nonneg_left l4 d0
        have hu : Spec.dist p (c.point + t • c.axis) * norm3 c.axis ≤ 2 * R * 2 := mul_le_mul k4 (by linarith) (norm3_nonneg _) (by linarith)
        have hDu : D * (Spec.dist p (c.point + t • c.axis) * norm3 c.axis) ≤ D * (2 * R * 2) := mul_le_mul_of_nonneg_left hu hD0
        linarith

/-! ## The crystal after the moves -/

/-- Total length of the basis vectors. -/
def span (B : M3 ℝ) : ℝ := len B.col0 + len B.col1 + len B.col2

/-- Basis vectors turned by all moves, without rounding. -/
def turned (ms : List Move) (B : M3 ℝ) : M3 ℝ :=
  let a := turn ms B.col0
  let b := turn ms B.col1
  let c := turn ms B.col2
  ⟨a.x, b.x, c.x, a.y, b.y, c.y, a.z, b.z, c.z⟩

/-- The site stays within `R` on its way, and its cell is not too far away. -/
def Reached (R : ℝ) (ms : List Move) (B : M3 ℝ) (o : V3 ℝ) (n : V3 ℤ) (f : V3 ℝ) : Prop :=
  Path R ms (siteAt B o n f) ∧ span B * (len (Gen.castV (K := ℝ) n) + len f) ≤ R

/-- The moves that act on basis vectors. -/
def turning : List Move → List Move
  | [] => []
  | .shift _ :: ms => turning ms
  | .matrix M _ :: ms => .matrix M none :: turning ms

theorem turning_length (ms : List Move) : (turning ms).length ≤ ms.length := by
  induction ms with
  | nil => exact le_refl _
  | cons m ms ih => rcases m with s | ⟨M, o⟩ <;> simp only [turning, List.length_cons] <;> omega

theorem turning_fair {δ R X : ℝ} {ms : List Move} (hm : ∀ m ∈ ms, m.Fair δ R) : ∀ m ∈ turning ms, m.Fair δ X := by
  induction ms with
  | nil => intro m h; cases h
  | cons m ms ih =>
    have ih' := ih fun m h => hm m (List.mem_cons_of_mem _ h)
    rcases m with s | ⟨M, o⟩
    · exact ih'
    · intro m h
      rcases List.mem_cons.mp h with rfl | h
      · exact ⟨(hm _ List.mem_cons_self).1, fun c h => by cases h⟩
      · exact ih' m h

theorem turning_image (ms : List Move) : ∀ v, image (turning ms) v = turn ms v := by
  induction ms with
  | nil => intro v; rfl
  | cons m ms ih => intro v; rcases m with s | ⟨M, o⟩ <;> exact ih _

theorem basesOf_cols (ms : List Move) : ∀ B : M3 ℝ, (basesOf A ms B).col0 = pointOf A (turning ms) B.col0 ∧
    (basesOf A ms B).col1 = pointOf A (turning ms) B.col1 ∧ (basesOf A ms B).col2 = pointOf A (turning ms) B.col2 := by
  induction ms with
  | nil => intro B; exact ⟨rfl, rfl, rfl⟩
  | cons m ms ih => intro B; rcases m with s | ⟨M, o⟩ <;> exact ih _

/-- Vectors that are only turned stay short. -/
theorem turning_path {δ R X : ℝ} (hδ : 0 ≤ δ) : ∀ (ms : List Move), (∀ m ∈ ms, m.Fair δ R) → (ms.length : ℝ) * δ ≤ 1 / 8 →
    ∀ v, norm3 v * (1 + δ) ^ ms.length ≤ X → Path X (turning ms) v := by
  intro ms
  induction ms with
  | nil => intro _ _ v h; simpa [turning, Path, len_eq] using h
  | cons m ms ih =>
    intro hm hk v h
    rw [List.length_cons] at hk h
    push_cast at hk
    have hk' : (ms.length : ℝ) * δ ≤ 1 / 8 := by linarith
    have hpw : (1 : ℝ) ≤ (1 + δ) ^ ms.length := one_le_pow₀ (by linarith)
    have ih' := ih (fun m h => hm m (List.mem_cons_of_mem _ h)) hk'
    have hv := norm3_nonneg v
    have h0 : (0 : ℝ) ≤ ms.length * δ := by positivity
    rcases m with s | ⟨M, o⟩
    · refine ih' v (le_trans ?_ h)
      refine mul_le_mul_of_nonneg_left ?_ hv
      rw [pow_succ]
      exact le_mul_of_one_le_right (by linarith) (by linarith)
    · have hN := (Keeps.norm (hm _ List.mem_cons_self).1 hδ (by linarith) v).1
      refine ⟨?_, ih' _ (le_trans ?_ h)⟩
      · rw [len_eq]
        refine le_trans (le_mul_of_one_le_right hv ?_) h
        exact one_le_pow₀ (by linarith)
      · rw [pow_succ, show norm3 v * ((1 + δ) ^ ms.length * (1 + δ)) = ((1 + δ) * norm3 v) * (1 + δ) ^ ms.length by ring]
        exact mul_le_mul_of_nonneg_right hN (by linarith)

/-- Basis vectors after the moves. -/
theorem cols_near {δ R tol : ℝ} {ms : List Move} (hB : Budgeted δ R tol ms.length) (hm : ∀ m ∈ ms, m.Fair δ R) {S : ℝ}
    (hS : (1 / 2) ^ 480 ≤ S) {v : V3 ℝ} (hv : norm3 v ≤ S) :
    norm3 (pointOf A (turning ms) v - turn ms v) ≤ ms.length * (1 / 2) ^ 44 * S ∧ norm3 (pointOf A (turning ms) v) ≤ 2 * norm3 v + (1 / 2) ^ 14 * S := by
  obtain ⟨-, hk0, -, -, -, hpw⟩ := hB.parts
  have hs8 := hB.steps
  have hS0 : 0 < S := lt_of_lt_of_le (by positivity) hS
  have hlen : ((turning ms).length : ℝ) ≤ ms.length := by exact_mod_cast turning_length ms
  have hB' : Budgeted δ (2 * S) (128 * (((turning ms).length + 1) * (δ + (1 / 2) ^ 40) * (2 * S))) (turning ms).length :=
    ⟨hB.delta, by linarith, (mul_le_mul_of_nonneg_right hlen hB.delta).trans hs8, hB.single, hlen.trans hB.many, le_refl _⟩
  have hpath : Path (2 * S) (turning ms) v := by
    refine turning_path hB.delta ms hm hs8 v ?_
    rw [mul_comm 2 S]
    exact mul_le_mul hv (by linarith) (pow_nonneg (by linarith [hB.delta]) _) hS0.le
  have h1 := (Budgeted.point A hB' (turning_fair hm) hpath).1
  rw [turning_image] at h1
  have e : (1 / 2 : ℝ) ^ 45 * 2 = (1 / 2) ^ 44 := by norm_num
  have h2 : ((turning ms).length : ℝ) * (1 / 2) ^ 45 * (2 * S) ≤ ms.length * (1 / 2) ^ 44 * S := by
    rw [← e, show ((turning ms).length : ℝ) * (1 / 2) ^ 45 * (2 * S) = (turning ms).length * ((1 / 2) ^ 45 * 2) * S by ring]
    exact mul_le_mul_of_nonneg_right (mul_le_mul_of_nonneg_right hlen (by positivity)) hS0.le
  refine ⟨h1.trans h2, ?_⟩
  have h3 := norm3_le_add (pointOf A (turning ms) v) (turn ms v)
  obtain ⟨h4, -⟩ := gram_norm (d := 2 * (ms.length * δ)) (by linarith) (by linarith) (turn_keeps hB.delta ms hm hs8 v v)
  have h5 : (ms.length : ℝ) * (1 / 2) ^ 44 * S ≤ (1 / 2) ^ 14 * S := by
    refine mul_le_mul_of_nonneg_right ?_ hS0.le
    refine (mul_le_mul_of_nonneg_right hB.many (by positivity)).trans ?_
    norm_num
  have h6 : (1 + 2 * (ms.length * δ)) * norm3 v ≤ 2 * norm3 v := mul_le_mul_of_nonneg_right (by linarith) (norm3_nonneg v)
  linarith

theorem image_site (ms : List Move) (B : M3 ℝ) (o : V3 ℝ) (n : V3 ℤ) (f : V3 ℝ) :
    image ms (siteAt B o n f) = siteAt (turned ms B) (image ms o) n f := by
  have h := turn_eq ms (siteAt B o n f) o
  have e : siteAt B o n f - o = ((n.x : ℝ) + f.x) • B.col0 + ((n.y : ℝ) + f.y) • B.col1 + ((n.z : ℝ) + f.z) • B.col2 := by
    simp [siteAt, cart]
  rw [e, turn_add, turn_add, turn_smul, turn_smul, turn_smul, sub_eq_iff_eq_add] at h
  rw [h, add_comm]
  rfl

theorem abs_coord_le (v : V3 ℝ) : |v.x| ≤ norm3 v ∧ |v.y| ≤ norm3 v ∧ |v.z| ≤ norm3 v := by
  have h := norm3_sq v
  have e : v.normSq = v.x ^ 2 + v.y ^ 2 + v.z ^ 2 := by simp [V3.normSq, V3.dot]; ring
  rw [e] at h
  refine ⟨abs_le_of_sq_le_sq ?_ (norm3_nonneg v), abs_le_of_sq_le_sq ?_ (norm3_nonneg v), abs_le_of_sq_le_sq ?_ (norm3_nonneg v)⟩ <;>
    nlinarith [sq_nonneg v.x, sq_nonneg v.y, sq_nonneg v.z]

theorem norm3_le_coords (v : V3 ℝ) : norm3 v ≤ |v.x| + |v.y| + |v.z| := by
  have h := norm3_sq v
  have e : v.normSq = v.x ^ 2 + v.y ^ 2 + v.z ^ 2 := by simp [V3.normSq, V3.dot]; ring
  rw [e] at h
  have hx := abs_nonneg v.x
  have hy := abs_nonneg v.y
  have hz := abs_nonneg v.z
  apply abs_le_of_sq_le_sq' _ (by positivity) |>.2
  rw [h, ← sq_abs v.x, ← sq_abs v.y, ← sq_abs v.z]
  nlinarith [mul_nonneg hx hy, mul_nonneg hx hz, mul_nonneg hy hz]

/-- Rows are no longer than the columns together. -/
theorem rows_le (B : M3 ℝ) : norm3 B.row0 + norm3 B.row1 + norm3 B.row2 ≤ 3 * (norm3 B.col0 + norm3 B.col1 + norm3 B.col2) := by
  have h0 := norm3_le_coords B.row0
  have h1 := norm3_le_coords B.row1
  have h2 := norm3_le_coords B.row2
  obtain ⟨a0, a1, a2⟩ := abs_coord_le B.col0
  obtain ⟨b0, b1, b2⟩ := abs_coord_le B.col1
  obtain ⟨c0, c1, c2⟩ := abs_coord_le B.col2
  simp only [M3.row0, M3.row1, M3.row2, M3.col0, M3.col1, M3.col2] at *
  linarith

/-- **C139 (coordinates).** The atom computed from the moved crystal is the image of the site of the crystal, up to (k + 1) 2^-40 of
the radius after `k` moves. -/
theorem C139_site {δ R tol : ℝ} {ms : List Move} (hB : Budgeted δ R tol ms.length) (hm : ∀ m ∈ ms, m.Fair δ R) (B : M3 ℝ)
    (hS : (1 / 2) ^ 480 ≤ span B) (o : V3 ℝ) (ho : Path R ms o) (n : V3 ℤ) (f : V3 ℝ)
    (h : span B * (len (Gen.castV (K := ℝ) n) + len f) ≤ R) :
    Spec.dist (site A (basesOf A ms B) (pointOf A ms o) (Gen.castV n) f) (image ms (siteAt B o n f)) ≤
      (ms.length + 1) * (1 / 2) ^ 40 * R := by
  obtain ⟨hR0, hk0, -, -, -, -⟩ := hB.parts
  have hS0 : 0 < span B := lt_of_lt_of_le (by positivity) hS
  have hk : (0 : ℝ) ≤ ms.length := Nat.cast_nonneg _
  obtain ⟨c0, c1, c2⟩ := basesOf_cols A ms B
  have l0 := norm3_nonneg B.col0
  have l1 := norm3_nonneg B.col1
  have l2 := norm3_nonneg B.col2
  have hspan : span B = norm3 B.col0 + norm3 B.col1 + norm3 B.col2 := by simp [span, len_eq]
  obtain ⟨e0, d0⟩ := cols_near A hB hm hS (v := B.col0) (by linarith)
  obtain ⟨e1, d1⟩ := cols_near A hB hm hS (v := B.col1) (by linarith)
  obtain ⟨e2, d2⟩ := cols_near A hB hm hS (v := B.col2) (by linarith)
  rw [← c0] at e0 d0
  rw [← c1] at e1 d1
  rw [← c2] at e2 d2
  obtain ⟨ho1, ho2⟩ := Budgeted.point A hB hm ho
  have ho3 := ho.last
  rw [len_eq] at ho3
  have ho4 := norm3_le_add (pointOf A ms o) (image ms o)
  have hL : 0 ≤ len (Gen.castV (K := ℝ) n) + len f := add_nonneg (Real.sqrt_nonneg _) (Real.sqrt_nonneg _)
  -- rounding in the coordinates
  have hsite := C138_site A (basesOf A ms B) (pointOf A ms o) n f
  have hreach : reach (basesOf A ms B) (pointOf A ms o) (Gen.castV n) f ≤ 10 * R := by
    unfold reach
    rw [len_eq, len_eq, len_eq, len_eq (pointOf A ms o)]
    have hr := rows_le (basesOf A ms B)
    have hr2 : norm3 (basesOf A ms B).row0 + norm3 (basesOf A ms B).row1 + norm3 (basesOf A ms B).row2 ≤ 7 * span B := by
      have e14 : (1 / 2 : ℝ) ^ 14 = 1 / 16384 := by norm_num
      rw [e14] at d0 d1 d2
      linarith
    have h3 := mul_le_mul_of_nonneg_right hr2 hL
    linarith
  have ht := tiny_unit hB.radius
  have h1 : Spec.dist (site A (basesOf A ms B) (pointOf A ms o) (Gen.castV n) f) (siteAt (basesOf A ms B) (pointOf A ms o) n f) ≤
      (1 / 2) ^ 42 * R := by
    refine hsite.trans ?_
    have h47 : (1 / 2 : ℝ) ^ 47 * reach (basesOf A ms B) (pointOf A ms o) (Gen.castV n) f ≤ (1 / 2) ^ 47 * (10 * R) :=
      mul_le_mul_of_nonneg_left hreach (by positivity)
    rw [unit_eq] at ht
    refine (add_le_add h47 (mul_le_mul_of_nonneg_left ht (by norm_num))).trans ?_
    have : (1 / 2 : ℝ) ^ 47 * (10 * R) = 10 * (1 / 2) ^ 47 * R := by ring
    rw [this]
    norm_num
    linarith
  -- drift of the crystal
  have h2 : norm3 (siteAt (basesOf A ms B) (pointOf A ms o) n f - image ms (siteAt B o n f)) ≤ ms.length * (1 / 2) ^ 41 * R := by
    rw [image_site]
    have e : siteAt (basesOf A ms B) (pointOf A ms o) n f - siteAt (turned ms B) (image ms o) n f =
        (pointOf A ms o - image ms o) + ((((n.x : ℝ) + f.x) • ((basesOf A ms B).col0 - turn ms B.col0) +
          ((n.y : ℝ) + f.y) • ((basesOf A ms B).col1 - turn ms B.col1)) + ((n.z : ℝ) + f.z) • ((basesOf A ms B).col2 - turn ms B.col2)) := by
      ext <;> simp [siteAt, cart, turned, M3.col0, M3.col1, M3.col2] <;> ring
    rw [e]
    have t1 := norm3_add_le (pointOf A ms o - image ms o) ((((n.x : ℝ) + f.x) • ((basesOf A ms B).col0 - turn ms B.col0) +
          ((n.y : ℝ) + f.y) • ((basesOf A ms B).col1 - turn ms B.col1)) + ((n.z : ℝ) + f.z) • ((basesOf A ms B).col2 - turn ms B.col2))
    have t2 := norm3_add_le (((n.x : ℝ) + f.x) • ((basesOf A ms B).col0 - turn ms B.col0) +
          ((n.y : ℝ) + f.y) • ((basesOf A ms B).col1 - turn ms B.col1)) (((n.z : ℝ) + f.z) • ((basesOf A ms B).col2 - turn ms B.col2))
    have t3 := norm3_add_le (((n.x : ℝ) + f.x) • ((basesOf A ms B).col0 - turn ms B.col0)) (((n.y : ℝ) + f.y) • ((basesOf A ms B).col1 - turn ms B.col1))
    rw [norm3_smul] at t2 t3
    rw [norm3_smul] at t3
    obtain ⟨n0, n1, n2⟩ := abs_coord_le (Gen.castV (K := ℝ) n)
    obtain ⟨f0, f1, f2⟩ := abs_coord_le f
    simp only [Gen.castV] at n0 n1 n2
    rw [len_eq, len_eq] at hL h
    simp only [Gen.castV] at hL h
    have key (a b : ℝ) (v : V3 ℝ) (ha : |a| ≤ norm3 (⟨n.x, n.y, n.z⟩ : V3 ℝ)) (hb : |b| ≤ norm3 f) (hv : norm3 v ≤ ms.length * (1 / 2) ^ 44 * span B) :
        |a + b| * norm3 v ≤ ms.length * (1 / 2) ^ 44 * R := by
      refine (mul_le_mul ((abs_add_le a b).trans (add_le_add ha hb)) hv (norm3_nonneg _) hL).trans ?_
      rw [show (norm3 (⟨n.x, n.y, n.z⟩ : V3 ℝ) + norm3 f) * (ms.length * (1 / 2) ^ 44 * span B) =
        ms.length * (1 / 2) ^ 44 * (span B * (norm3 (⟨n.x, n.y, n.z⟩ : V3 ℝ) + norm3 f)) by ring]
      exact mul_le_mul_of_nonneg_left h (by positivity)
    have k0 := key _ _ _ n0 f0 e0
    have k1 := key _ _ _ n1 f1 e1
    have k2 := key _ _ _ n2 f2 e2
    have hp : (0 : ℝ) ≤ ms.length * R := by positivity
    have g1 : (ms.length : ℝ) * (1 / 2) ^ 45 * R = (1 / 35184372088832) * (ms.length * R) := by norm_num; ring
    have g2 : (ms.length : ℝ) * (1 / 2) ^ 44 * R = (1 / 17592186044416) * (ms.length * R) := by norm_num; ring
    have g3 : (ms.length : ℝ) * (1 / 2) ^ 41 * R = (1 / 2199023255552) * (ms.length * R) := by norm_num; ring
    rw [g2] at k0 k1 k2
    rw [g1] at ho1
    rw [g3]
    linarith
  rw [dist_eq] at h1 ⊢
  have h3 := norm3_tri (site A (basesOf A ms B) (pointOf A ms o) (Gen.castV n) f) (siteAt (basesOf A ms B) (pointOf A ms o) n f)
    (image ms (siteAt B o n f))
  refine h3.trans ((add_le_add h1 h2).trans ?_)
  have hp : (0 : ℝ) ≤ ms.length * R := by positivity
  norm_num
  linarith

end
end Fl
end CZ
