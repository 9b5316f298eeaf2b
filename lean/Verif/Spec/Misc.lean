import Verif.Geom

/-!
# Specification vocabulary for the utilities
-/

namespace CZ.Spec

/-- `xs` is what `get_N_splits(n, m, l)` promises: n integers of [m, l-m), increasing with steps of at least m. -/
def Splitting (n m l : ℤ) (xs : List ℤ) : Prop :=
  (xs.length : ℤ) = n ∧ (∀ x ∈ xs, m ≤ x ∧ x < l - m) ∧ xs.Pairwise fun x y => x ≤ y ∧ m ≤ y - x

/-- There is room for n splits. -/
def Fits (n m l : ℤ) : Prop := ∃ xs, Splitting n m l xs

end CZ.Spec
