import Mathlib.Algebra.Order.Floor.Ring
import Mathlib.Tactic.Linarith

/-!
# Rounding
-/

namespace CZ

/-- `np.round` of one number: nearest integer, ties to even. -/
def npRound {K : Type} [Field K] [LinearOrder K] [FloorRing K] (x : K) : ℤ :=
  if x - ⌊x⌋ < 1 / 2 then ⌊x⌋
  else if 1 / 2 < x - ⌊x⌋ then ⌊x⌋ + 1
  else if ⌊x⌋ % 2 = 0 then ⌊x⌋ else ⌊x⌋ + 1

variable {K : Type} [Field K] [LinearOrder K] [IsStrictOrderedRing K] [FloorRing K]

theorem npRound_near (x : K) : |(npRound x : K) - x| ≤ 1 / 2 := by
  have h0 := Int.floor_le x
  have h1 := Int.lt_floor_add_one x
  unfold npRound
  split_ifs <;> rw [abs_le] <;> push_cast <;> constructor <;> linarith

/-- If two whole numbers are equally near, the even one is taken. -/
theorem npRound_even (x : K) (h : |(npRound x : K) - x| = 1 / 2) : Even (npRound x) := by
  have h0 := Int.floor_le x
  have h1 := Int.lt_floor_add_one x
  have key : ∀ a : ℤ, |(a : K) - x| = 1 / 2 → (a : K) - x = 1 / 2 ∨ (a : K) - x = -(1 / 2) := fun a ha => by
    rcases abs_choice ((a : K) - x) with h' | h' <;> rw [h'] at ha
    · exact .inl ha
    · exact .inr (by linarith)
  unfold npRound at h ⊢
  split_ifs at h ⊢ with c1 c2 c3
  · rcases key _ h with h | h <;> linarith
  · rcases key _ h with h | h <;> push_cast at h <;> linarith
  · exact Int.even_iff.mpr c3
  · exact Int.even_iff.mpr (by omega)

theorem npRound_int (n : ℤ) : npRound (n : K) = n := by
  unfold npRound
  rw [Int.floor_intCast, if_pos (by simp)]

theorem npRound_nonneg {x : K} (h : 0 ≤ x) : 0 ≤ npRound x := by
  have := Int.floor_nonneg.mpr h
  unfold npRound
  split_ifs <;> omega

end CZ
