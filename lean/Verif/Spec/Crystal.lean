import Verif.Geom
import Mathlib.Analysis.Convex.Hull

/-!
# Specification of crystals, independent of the generator model
-/

namespace CZ.Spec

variable {K : Type} [Field K]

/-- Cartesian position of the point with crystal coordinates `e`: origin plus a combination of the basis vectors,
which are the columns of `B`. -/
def cart (B : M3 K) (o e : V3 K) : V3 K := o + (e.x • B.col0 + e.y • B.col1 + e.z • B.col2)

/-- The site with fractional coordinates `f` in cell `n`. -/
def siteAt (B : M3 K) (o : V3 K) (n : V3 ℤ) (f : V3 K) : V3 K :=
  cart B o ⟨(n.x : K) + f.x, (n.y : K) + f.y, (n.z : K) + f.z⟩

/-- The infinite crystal: all pairs of position and species. -/
def Crystal (B : M3 K) (o : V3 K) (sites : List (V3 K × ℤ)) : Set (V3 K × ℤ) :=
  {a | ∃ n : V3 ℤ, ∃ f ∈ sites, a = (siteAt B o n f.1, f.2)}

/-- The row vector `e` times the matrix `M`. -/
def rowTimes (e : V3 K) (M : M3 K) : V3 K :=
  ⟨e.x * M.m00 + e.y * M.m10 + e.z * M.m20, e.x * M.m01 + e.y * M.m11 + e.z * M.m21,
   e.x * M.m02 + e.y * M.m12 + e.z * M.m22⟩

/-- Three vectors are linearly independent. -/
def LinIndep (u v w : V3 K) : Prop := ∀ a b c : K, a • u + b • v + c • w = 0 → a = 0 ∧ b = 0 ∧ c = 0

/-- One vector is a multiple of the other. -/
def Parallel (u v : V3 K) : Prop := (∃ c : K, v = c • u) ∨ ∃ c : K, u = c • v

/-- The convex region spanned by the vertices. -/
def Region {K : Type} [Field K] [LinearOrder K] (box : List (V3 K)) : Set (V3 K) := convexHull K {p | p ∈ box}

end CZ.Spec
