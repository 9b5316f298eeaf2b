import Verif.Geom
import Mathlib.Analysis.SpecialFunctions.Sqrt
import Mathlib.Algebra.Order.Floor.Ring

/-!
# Algebraic surfaces

Model of `czone/volume/algebraic.py`.  Exact reals instead of floats; array arguments have the shapes (3,) or (N,3)
(other accepted shapes such as (3,1) are squeezed by the setters and are not distinguished here).
-/

namespace CZ

noncomputable section

open Classical

/-- `np.linalg.norm(v)` for a vector. -/
def norm3 (v : V3 ℝ) : ℝ := Real.sqrt v.normSq

/-- `np.finfo(float).eps`. -/
def machEps : ℝ := (1 / 2) ^ 52

/-- algebraic.py:73-92, fields of a Sphere. -/
structure Sphere where
  radius : ℝ
  center : V3 ℝ
  tol : ℝ

/-- algebraic.py:128-148, fields of a Plane. -/
structure Plane where
  normal : V3 ℝ
  point : V3 ℝ
  tol : ℝ

/-- algebraic.py:226-250, fields of a Cylinder. -/
structure Cylinder where
  axis : V3 ℝ
  point : V3 ℝ
  radius : ℝ
  length : ℝ
  tol : ℝ

/-- algebraic.py:53-56, the `tol` setter: value to store, or AssertionError. -/
def tolSet (t : ℝ) : Py ℝ := if 0 < t then .ok t else .error .assertion

/-- algebraic.py:108-113, the `radius` setter of Sphere. -/
def Sphere.radiusSet (r : ℝ) : Py ℝ := if 0 < r then .ok r else .error .value

/-- algebraic.py:84-92, `Sphere(radius, center, tol)`; the shape check of the centre (lines 120-125) is left to the
type. -/
def Sphere.make (radius : ℝ) (center : V3 ℝ) (tol : ℝ) : Py Sphere := do
  let r ← Sphere.radiusSet radius
  let t ← tolSet tol
  return ⟨r, center, t⟩

/-- algebraic.py:94-96, `Sphere.checkIfInterior` for one row of the batch. -/
def Sphere.interior (s : Sphere) (p : V3 ℝ) : Bool :=
  decide ((p - s.center).normSq < (s.radius + s.tol) ^ 2)

/-- algebraic.py:171-179, the `normal` setter of Plane: normalised vector to store, or ValueError. -/
def Plane.normalSet (n : V3 ℝ) : Py (V3 ℝ) :=
  if norm3 n > machEps then .ok ((norm3 n)⁻¹ • n) else .error .value

/-- algebraic.py:141-148, `Plane(normal, point, tol)`. -/
def Plane.make (normal point : V3 ℝ) (tol : ℝ) : Py Plane := do
  let n ← Plane.normalSet normal
  let t ← tolSet tol
  return ⟨n, point, t⟩

/-- algebraic.py:189-200, `sdist_from_plane` for one point. -/
def Plane.sdist (pl : Plane) (p : V3 ℝ) : ℝ := p.dot pl.normal - pl.point.dot pl.normal

/-- algebraic.py:202-212, `dist_from_plane` for one point. -/
def Plane.distFrom (pl : Plane) (p : V3 ℝ) : ℝ := |pl.sdist p|

/-- algebraic.py:181-182, `Plane.checkIfInterior` for one row. -/
def Plane.interior (pl : Plane) (p : V3 ℝ) : Bool := decide (pl.sdist p < pl.tol)

/-- algebraic.py:184-187, `flip_orientation` (goes through the normalising setter). -/
def Plane.flip (pl : Plane) : Py Plane := do
  let n ← Plane.normalSet (-pl.normal)
  return { pl with normal := n }

/-- A point argument as users pass it: one vector of shape (3,) or a batch of shape (N,3). -/
inductive PtArg
  | vec (p : V3 ℝ)
  | rows (ps : List (V3 ℝ))

/-- algebraic.py:214-223, `project_point`.  For a vector of shape (3,) the signed distance is a scalar and
`[:,None]` raises IndexError. -/
def Plane.project (pl : Plane) : PtArg → Py (List (V3 ℝ))
  | .vec _ => .error .index
  | .rows ps => .ok (ps.map fun p => p - pl.sdist p • pl.normal)

/-- algebraic.py:261-267, the `axis` setter of Cylinder. -/
def Cylinder.axisSet (a : V3 ℝ) : Py (V3 ℝ) :=
  if norm3 a ≤ machEps then .error .value else .ok ((norm3 a)⁻¹ • a)

/-- algebraic.py:283-288 and 295-300, the `radius` and `length` setters of Cylinder. -/
def Cylinder.sizeSet (r : ℝ) : Py ℝ := if r < machEps then .error .value else .ok r

/-- algebraic.py:240-250, `Cylinder(axis, point, radius, length, tol)`. -/
def Cylinder.make (axis point : V3 ℝ) (radius length tol : ℝ) : Py Cylinder := do
  let a ← Cylinder.axisSet axis
  let r ← Cylinder.sizeSet radius
  let l ← Cylinder.sizeSet length
  let t ← tolSet tol
  return ⟨a, point, r, l, t⟩

/-- algebraic.py:302-311, `Cylinder.checkIfInterior` for one row. -/
def Cylinder.interior (c : Cylinder) (p : V3 ℝ) : Bool :=
  decide (norm3 ((p - c.point).cross c.axis) < c.radius + c.tol) &&
  decide (|(p - c.point).dot c.axis| < c.length / 2 + c.tol)

/-- Division of a vector by its norm without a guard: numpy yields NaN entries when the norm is 0
(algebraic.py:324,327). -/
def unitOrNan (v : V3 ℝ) : Py (V3 ℝ) := if norm3 v = 0 then .error .nan else .ok ((norm3 v)⁻¹ • v)

/-- algebraic.py:313-341, `Cylinder.get_bounding_box`: eight corners, in the order of the code. -/
def Cylinder.bbox (c : Cylinder) : Py (List (V3 ℝ)) := do
  let vz := c.axis
  let o ← unitOrNan ⟨1, 1, 1⟩
  let v0 ← unitOrNan (o - o.dot vz • vz)
  let v1 ← unitOrNan (v0.cross vz)
  let square := [c.point + c.radius • (v0 + v1), c.point + c.radius • (v0 - v1),
                 c.point + c.radius • (-v0 + v1), c.point + c.radius • (-v0 - v1)]
  let h := (1 / 2 : ℝ) • (c.length • vz)
  return square.map (· + h) ++ square.map (· - h)

/-- An algebraic object of any of the three classes. -/
inductive Alg
  | sphere (s : Sphere)
  | plane (p : Plane)
  | cyl (c : Cylinder)

/-- `checkIfInterior` dispatch (method overriding) for one row. -/
def Alg.interior : Alg → V3 ℝ → Bool
  | .sphere s => s.interior
  | .plane p => p.interior
  | .cyl c => c.interior

/-- algebraic.py:356-360, `facet_to_plane` (default tolerance 1e-5); facet indices come from Delaunay. -/
def facetToPlane (points : List (V3 ℝ)) (f : ℕ × ℕ × ℕ) : Py Plane := do
  let p0 ← pyGet points f.1
  let p1 ← pyGet points f.2.1
  let p2 ← pyGet points f.2.2
  Plane.make ((p1 - p0).cross (p2 - p0)) p0 (1 / 10 ^ 5)

/-- `np.mean(points, axis=0)`. -/
def mean3 (points : List (V3 ℝ)) : V3 ℝ := (points.length : ℝ)⁻¹ • points.sum

/-- algebraic.py:350-372, `convex_hull_to_planes`.  `facets` and `inside` stand for Delaunay's `convex_hull` and
`find_simplex(ipoint) >= 0`. -/
def convexHullToPlanes (points : List (V3 ℝ)) (facets : List (ℕ × ℕ × ℕ)) (inside : V3 ℝ → Bool) :
    Py (List Plane) := do
  let planes ← facets.mapM (facetToPlane points)
  let ip := mean3 points
  if inside ip = false then throw .assertion
  planes.mapM fun pl => if pl.interior ip = false then pl.flip else pure pl

end

end CZ
