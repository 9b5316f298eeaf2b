import Verif.Algebraic
import Verif.Generator
import Verif.Round
import Mathlib.Data.Int.Log

/-!
# Interior tests in rounded arithmetic

The same code as `Algebraic` (tests whether points are interior) and `Generator` (coordinates of the atoms), with the
rounding that the exact model leaves out.  `Arith` says what is known of the operations of numpy on 64-bit floats: the result of
one operation is the exact result up to a relative error of 2^-53, plus an absolute error of 2^-1075 when the result is
subnormal; a dot product of three terms, computed by the linear algebra library in an order of its own and with or without fused
operations, has the error bound that all these ways have in common.  Overflow is not expressed.  The constants stored in the
objects (radius, normal, tolerance, …) are what they are: any real numbers, in particular any floats.
-/

namespace CZ
namespace Fl

noncomputable section

open Classical

/-- Unit roundoff of 64-bit floats, 2^-53. -/
@[irreducible] def unit : ℝ := (1 / 2) ^ 53
/-- Half of the smallest subnormal number, 2^-1075. -/
@[irreducible] def tiny : ℝ := (1 / 2) ^ 1075

/-- Operations on floats: `rnd x` is what is stored for the exact result `x` of one operation, `dot` is `np.dot` of two vectors (or
one entry of a product of matrices). -/
structure Arith where
  rnd : ℝ → ℝ
  near : ∀ x, |rnd x - x| ≤ unit * |x| + tiny
  dot : V3 ℝ → V3 ℝ → ℝ
  dot_near : ∀ a b, |dot a b - a.dot b| ≤ 4 * unit * (|a.x * b.x| + |a.y * b.y| + |a.z * b.z|) + 6 * tiny

/-- Exponent of the last place of the 64-bit float nearest to `x`. -/
def exponent (x : ℝ) : ℤ := max (Int.log 2 |x| - 52) (-1074)
/-- Round to nearest, ties to even, with 53 binary digits and gradual underflow (IEEE 754 binary64 without overflow). -/
def rnd64 (x : ℝ) : ℝ := npRound (x / 2 ^ exponent x) * 2 ^ exponent x

/-- A dot product as a loop: products and sums are rounded one by one. -/
def loopDot (rnd : ℝ → ℝ) (a b : V3 ℝ) : ℝ := rnd (rnd (rnd (a.x * b.x) + rnd (a.y * b.y)) + rnd (a.z * b.z))
/-- A dot product with fused multiply-add. -/
def fmaDot (rnd : ℝ → ℝ) (a b : V3 ℝ) : ℝ := rnd (rnd (rnd (a.x * b.x) + a.y * b.y) + a.z * b.z)

variable (A : Arith)

/-- Difference of two arrays, entry by entry. -/
def sub (p q : V3 ℝ) : V3 ℝ := ⟨A.rnd (p.x - q.x), A.rnd (p.y - q.y), A.rnd (p.z - q.z)⟩
/-- Sum of two arrays, entry by entry. -/
def add (p q : V3 ℝ) : V3 ℝ := ⟨A.rnd (p.x + q.x), A.rnd (p.y + q.y), A.rnd (p.z + q.z)⟩
/-- `np.sum(d**2.0)` over three entries. -/
def sumSq (d : V3 ℝ) : ℝ := A.rnd (A.rnd (A.rnd (d.x ^ 2) + A.rnd (d.y ^ 2)) + A.rnd (d.z ^ 2))
/-- `np.cross` of two vectors. -/
def cross (d a : V3 ℝ) : V3 ℝ :=
  ⟨A.rnd (A.rnd (d.y * a.z) - A.rnd (d.z * a.y)), A.rnd (A.rnd (d.z * a.x) - A.rnd (d.x * a.z)),
   A.rnd (A.rnd (d.x * a.y) - A.rnd (d.y * a.x))⟩

/-- algebraic.py:171-179, the `normal` setter of Plane: `np.linalg.norm` of one vector is the root of its dot product with itself. -/
def normalSet (n : V3 ℝ) : Py (V3 ℝ) :=
  let N := A.rnd (Real.sqrt (A.dot n n))
  if N > machEps then .ok ⟨A.rnd (n.x / N), A.rnd (n.y / N), A.rnd (n.z / N)⟩ else .error .value

/-- algebraic.py:261-267, the `axis` setter of Cylinder. -/
def axisSet (n : V3 ℝ) : Py (V3 ℝ) :=
  let N := A.rnd (Real.sqrt (A.dot n n))
  if N ≤ machEps then .error .value else .ok ⟨A.rnd (n.x / N), A.rnd (n.y / N), A.rnd (n.z / N)⟩

/-- algebraic.py:94-96, `Sphere.checkIfInterior` for one row. -/
def sphere (s : Sphere) (p : V3 ℝ) : Bool := decide (sumSq A (sub A p s.center) < A.rnd (A.rnd (s.radius + s.tol) ^ 2))

/-- algebraic.py:181-182, 199-200, `Plane.checkIfInterior` for one row. -/
def plane (pl : Plane) (p : V3 ℝ) : Bool := decide (A.rnd (A.dot p pl.normal - A.dot pl.point pl.normal) < pl.tol)

/-- algebraic.py:302-311, `Cylinder.checkIfInterior` for one row; `np.linalg.norm(…, axis=1)` is the root of the sum of squares. -/
def cylinder (c : Cylinder) (p : V3 ℝ) : Bool :=
  decide (A.rnd (Real.sqrt (sumSq A (cross A (sub A p c.point) c.axis))) < A.rnd (c.radius + c.tol)) &&
  decide (|A.dot (sub A p c.point) c.axis| < A.rnd (A.rnd (c.length / 2) + c.tol))

/-- `checkIfInterior` of any of the three classes. -/
def interior : Alg → V3 ℝ → Bool
  | .sphere s => sphere A s
  | .plane p => plane A p
  | .cyl c => cylinder A c

/-- generator.py:202-224, the coordinates of the atom with fractional coordinates `f` in the cell `n`; `B` are the scaled bases.  (The
fourth homogeneous coordinate adds exact zeros.) -/
def site (B : M3 ℝ) (o : V3 ℝ) (n f : V3 ℝ) : V3 ℝ :=
  let l : V3 ℝ := ⟨A.dot B.row0 n, A.dot B.row1 n, A.dot B.row2 n⟩
  let s : V3 ℝ := ⟨A.dot B.row0 f, A.dot B.row1 f, A.dot B.row2 f⟩
  add A (add A l s) o

/-- voxel.py:124-128, `get_extents` from the computed fractional coordinates `e :: es` of the corners of the box. -/
def extents (e : V3 ℝ) (es : List (V3 ℝ)) : V3 ℤ × V3 ℤ :=
  let mn := Voxel.minV e es
  let mx := Voxel.maxV e es
  (⟨⌊mn.x⌋, ⌊mn.y⌋, ⌊mn.z⌋⟩, ⟨⌈mx.x⌉, ⌈mx.y⌉, ⌈mx.z⌉⟩)

/-- volume.py:347-353 with generator.py:200-232, `populate_atoms` of a Volume made of surfaces and filled by a crystal without
post-transformation and strain: the computed coordinates and species of the sites in all cells of the block, filtered by the
computed tests. -/
def fill (algs : List Alg) (B : M3 ℝ) (o : V3 ℝ) (sites : List (V3 ℝ × ℤ)) (e : V3 ℝ) (es : List (V3 ℝ)) : List (V3 ℝ × ℤ) :=
  ((Gen.cells (extents e es).1 (extents e es).2).flatMap fun n => sites.map fun f => (site A B o (Gen.castV n) f.1, f.2)).filter
    fun a => algs.all fun s => interior A s a.1

end
end Fl
end CZ
