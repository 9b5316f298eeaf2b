import Verif.Wulff
import Verif.Spec.Prefab

/-!
# Specification of Wulff constructions
-/

namespace CZ.Spec

/-- `parts` divides a list, in order, into `m` parts of equal length. -/
def EvenDivision {α : Type} (m : ℕ) (xs : List α) (parts : List (List α)) : Prop :=
  parts.length = m ∧ parts.flatten = xs ∧ ∀ p ∈ parts, p.length * m = xs.length

/-- The polyhedron of the facets: points not more than `tol` beyond any of them. -/
def InPolyhedron (fs : List Wulff.Facet) (tol : ℝ) (p : V3 ℝ) : Prop := ∀ f ∈ fs, height f.normal p < f.dist + tol

end CZ.Spec
