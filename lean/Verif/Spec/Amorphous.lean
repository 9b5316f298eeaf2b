import Verif.Spec.Measure

/-!
# Specification vocabulary for amorphous blocks
-/

namespace CZ.Spec

variable {K : Type} [Field K] [LinearOrder K]

/-- The point lies in the box [0, dims). -/
def InBox (dims p : V3 K) : Prop :=
  (0 ≤ p.x ∧ p.x < dims.x) ∧ (0 ≤ p.y ∧ p.y < dims.y) ∧ (0 ≤ p.z ∧ p.z < dims.z)

/-- Squared distance in space. -/
def sqDist (p q : V3 K) : K := (p.x - q.x) ^ 2 + (p.y - q.y) ^ 2 + (p.z - q.z) ^ 2

/-- Any two of the points are at least `m` apart. -/
def Apart (m : K) (ps : List (V3 K)) : Prop := ps.Pairwise fun p q => m ^ 2 ≤ sqDist p q

/-- Any two of the points are at least `m` apart, also from each other's images along x and y. -/
def ApartXY (dims : V3 K) (m : K) (ps : List (V3 K)) : Prop :=
  ps.Pairwise fun p q => ∀ s ∈ imageDistances dims true true false p q, m ^ 2 ≤ s

/-- The box length `L` is a whole number of cells of size `m`, or at most three cells cover it. -/
def WholeCells (m L : K) : Prop := (∃ n : ℕ, L = n * m) ∨ L ≤ 3 * m

end CZ.Spec
