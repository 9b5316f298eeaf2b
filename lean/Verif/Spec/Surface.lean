import Verif.Surface
import Verif.Spec.Geometry

/-!
# Specification vocabulary for alpha shapes and neighbour graphs
-/

namespace CZ.Spec
open Surf

/-- The point has the same distance to all four corners. -/
def Equidistant (c p0 p1 p2 p3 : V3 ℝ) : Prop := dist c p1 = dist c p0 ∧ dist c p2 = dist c p0 ∧ dist c p3 = dist c p0

/-- The four points lie in a plane. -/
def Coplanar (p0 p1 p2 p3 : V3 ℝ) : Prop :=
  ∃ a b c : ℝ, (a ≠ 0 ∨ b ≠ 0 ∨ c ≠ 0) ∧ a • (p1 - p0) + b • (p2 - p0) + c • (p3 - p0) = 0

/-- What scipy promises about `neighbors`: -1 or the number of a tetrahedron. -/
def NeighborsOk (tets : List Tet) : Prop := ∀ t ∈ tets, ∀ k, -1 ≤ t.nb k ∧ t.nb k < (tets.length : ℤ)

/-- Tetrahedron `i` passes the probe test. -/
def InShape (probe : List Bool) (i : ℕ) : Prop := probe[i]? = some true

/-- Behind the face opposite to vertex `k` of `t` there is no tetrahedron, or one that fails the probe test. -/
def OpenFace (probe : List Bool) (t : Tet) (k : Fin 4) : Prop := t.nb k = -1 ∨ ∃ j : ℕ, t.nb k = j ∧ ¬ InShape probe j

/-- Tetrahedron `i` has a face on the hull of all points. -/
def OnHull (tets : List Tet) (i : ℕ) : Prop := ∃ t k, tets[i]? = some t ∧ t.nb k = -1

/-- Behind the face there is no tetrahedron, or one on the hull that fails the probe test: the face can be seen from outside. -/
def VisibleFace (tets : List Tet) (probe : List Bool) (t : Tet) (k : Fin 4) : Prop :=
  t.nb k = -1 ∨ ∃ j : ℕ, t.nb k = j ∧ ¬ InShape probe j ∧ OnHull tets j

/-- Vertex number `x` lies on an open face of a tetrahedron of the shape. -/
def OnSurface (tets : List Tet) (probe : List Bool) (x : ℕ) : Prop :=
  ∃ i t k, tets[i]? = some t ∧ InShape probe i ∧ OpenFace probe t k ∧ ∃ k', k' ≠ k ∧ t.v k' = x

/-- What scipy promises about a triangulation of `n` points: vertices are numbers of points, neighbours are -1 or numbers of
tetrahedra. -/
def IsTriangulation (tets : List Tet) (n : ℕ) : Prop := NeighborsOk tets ∧ ∀ t ∈ tets, ∀ k, t.v k < n

/-- The points, each displaced by the vector at the same place of `noise`. -/
def jittered (pts noise : List (V3 ℝ)) : List (V3 ℝ) := (pts.zip noise).map fun a => a.1 + a.2

/-- The four corners are not coplanar and the sphere through them has radius at most `r`. -/
def SmallTet (pts : List (V3 ℝ)) (r : ℝ) (t : Tet) : Prop :=
  ∃ p : Fin 4 → V3 ℝ, (∀ k, pts[t.v k]? = some (p k)) ∧ ¬ Coplanar (p 0) (p 1) (p 2) (p 3) ∧
    ∃ c, Equidistant c (p 0) (p 1) (p 2) (p 3) ∧ dist c (p 0) ≤ r

/-- `x` is a vertex of a face of a tetrahedron in `S` behind which there is no tetrahedron of `S`. -/
def OnBoundary (tets : List Tet) (S : Tet → Prop) (x : ℕ) : Prop :=
  ∃ t ∈ tets, S t ∧ ∃ k, (t.nb k = -1 ∨ ∃ (j : ℕ) (t' : Tet), t.nb k = j ∧ tets[j]? = some t' ∧ ¬ S t') ∧ ∃ k', k' ≠ k ∧ t.v k' = x

/-- Behind the face opposite to vertex `k` there is no tetrahedron of `S`. -/
def OpenTo (tets : List Tet) (S : Tet → Prop) (t : Tet) (k : Fin 4) : Prop :=
  t.nb k = -1 ∨ ∃ (j : ℕ) (t' : Tet), t.nb k = j ∧ tets[j]? = some t' ∧ ¬ S t'

/-- Behind the face there is nothing, or a tetrahedron on the hull that is not in `S`. -/
def SeenFromOutside (tets : List Tet) (S : Tet → Prop) (t : Tet) (k : Fin 4) : Prop :=
  t.nb k = -1 ∨ ∃ (j : ℕ) (t' : Tet), t.nb k = j ∧ tets[j]? = some t' ∧ ¬ S t' ∧ ∃ k', t'.nb k' = -1

/-- The tetrahedra marked in a shape. -/
def Marked (tets : List Tet) (m : List Bool) (s : Fin 4 → ℕ) : Prop := ∃ (i : ℕ) (t : Tet), m[i]? = some true ∧ tets[i]? = some t ∧ s = t.v

/-- Two vertices are joined when they are different corners of a common tetrahedron. -/
def SharesTet (S : (Fin 4 → ℕ) → Prop) (x y : ℕ) : Prop := ∃ s, S s ∧ ∃ i j, i ≠ j ∧ s i = x ∧ s j = y

/-- Reached from `x` over at most `n` edges. -/
inductive Reached (S : (Fin 4 → ℕ) → Prop) (x : ℕ) : ℕ → ℕ → Prop
  | here (n : ℕ) : Reached S x n x
  | edge {n y z : ℕ} : Reached S x n y → SharesTet S y z → Reached S x (n + 1) z

/-- Reached from `x` over exactly `n` steps of a relation. -/
inductive Steps (R : ℕ → ℕ → Prop) (x : ℕ) : ℕ → ℕ → Prop
  | here : Steps R x 0 x
  | step {n y z : ℕ} : Steps R x n y → R y z → Steps R x (n + 1) z

/-- The vertices `x` and `y` stand at the same place of two different ones of the first four tetrahedra of a selection `sel`. -/
def SamePlace (tets : List Tet) (sel : List ℕ) (x y : ℕ) : Prop :=
  ∃ a b i j : ℕ, a < 4 ∧ b < 4 ∧ a ≠ b ∧ sel[a]? = some i ∧ sel[b]? = some j ∧
    ∃ s t k, tets[i]? = some s ∧ tets[j]? = some t ∧ s.v k = x ∧ t.v k = y

end CZ.Spec
