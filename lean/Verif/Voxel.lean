import Verif.Geom
import Mathlib.Algebra.Order.Floor.Ring

/-!
# Voxel

Model of `czone/volume/voxel.py` over an ordered field with floor (exact arithmetic).
-/

namespace CZ

/-- The broadcastable values of `Voxel.scale` (voxel.py:38-47): a number or shape (1,); shape (3,) or (1,3), which
multiplies the columns; shape (3,1), which multiplies the rows; shape (3,3), entry by entry.  Arrays with more than two
axes are also broadcastable in numpy and not modelled. -/
inductive Scale (K : Type)
  | scalar (c : K)
  | cols (s : V3 K)
  | rows (s : V3 K)
  | full (s : M3 K)

/-- voxel.py:22-31, the attributes of a Voxel. -/
structure Voxel (K : Type) where
  bases : M3 K
  scale : Scale K
  origin : V3 K

namespace Voxel

section
variable {K : Type} [Field K] [LinearOrder K]

/-- voxel.py:95-106, `_collinear`: `|v·w / (|v||w|)| == 1.0`.  Squared to avoid the root: with non-zero norms the
quotient has absolute value 1 iff `(v·w)^2 = |v|^2 |w|^2`; a zero norm gives NaN, which is not equal to 1. -/
def collinear (v w : V3 K) : Bool :=
  decide (v.normSq ≠ 0 ∧ w.normSq ≠ 0 ∧ (v.dot w) ^ 2 = v.normSq * w.normSq)

/-- voxel.py:54-73, the `bases` setter (shape check left to the type): the value to store, or AssertionError. -/
def basesSet (B : M3 K) : Py (M3 K) :=
  if collinear B.row0 B.row1 then .error .assertion
  else if collinear B.row0 B.row2 then .error .assertion
  else if collinear B.row1 B.row2 then .error .assertion
  else .ok B

/-- voxel.py:22-31, `Voxel(bases, scale, origin)`; every value of `Scale` is broadcastable. -/
def make (B : M3 K) (s : Scale K) (o : V3 K) : Py (Voxel K) := do
  let b ← basesSet B
  return ⟨b, s, o⟩

/-- voxel.py:85-88, `sbases`: numpy product of the 3x3 array with the scale array. -/
def sbases (v : Voxel K) : M3 K :=
  let B := v.bases
  match v.scale with
  | .scalar c => c • B
  | .cols s => ⟨B.m00 * s.x, B.m01 * s.y, B.m02 * s.z, B.m10 * s.x, B.m11 * s.y, B.m12 * s.z,
      B.m20 * s.x, B.m21 * s.y, B.m22 * s.z⟩
  | .rows s => ⟨B.m00 * s.x, B.m01 * s.x, B.m02 * s.x, B.m10 * s.y, B.m11 * s.y, B.m12 * s.y,
      B.m20 * s.z, B.m21 * s.z, B.m22 * s.z⟩
  | .full s => ⟨B.m00 * s.m00, B.m01 * s.m01, B.m02 * s.m02, B.m10 * s.m10, B.m11 * s.m11, B.m12 * s.m12,
      B.m20 * s.m20, B.m21 * s.m21, B.m22 * s.m22⟩

/-- voxel.py:90-93. -/
def reciprocalBases (v : Voxel K) : Py (M3 K) := v.sbases.inv

/-- `np.min` of a non-empty list of numbers. -/
def minL (a : K) (l : List K) : K := l.foldl min a
/-- `np.max` of a non-empty list of numbers. -/
def maxL (a : K) (l : List K) : K := l.foldl max a

/-- `np.min(extents, axis=0)`. -/
def minV (e : V3 K) (es : List (V3 K)) : V3 K :=
  ⟨minL e.x (es.map V3.x), minL e.y (es.map V3.y), minL e.z (es.map V3.z)⟩
/-- `np.max(extents, axis=0)`. -/
def maxV (e : V3 K) (es : List (V3 K)) : V3 K :=
  ⟨maxL e.x (es.map V3.x), maxL e.y (es.map V3.y), maxL e.z (es.map V3.z)⟩

/-- voxel.py:118-122, the fractional coordinates of the box vertices. -/
def fracBox (v : Voxel K) (box : List (V3 K)) : Py (List (V3 K)) :=
  (box.map (· - v.origin)).mapM v.sbases.solve

/-- voxel.py:108-128, `get_extents`.  An empty box: `np.min` of an empty array raises ValueError. -/
def getExtents [FloorRing K] (v : Voxel K) (box : List (V3 K)) : Py (V3 ℤ × V3 ℤ) := do
  match ← v.fracBox box with
  | [] => .error .value
  | e :: es =>
    let mn := minV e es
    let mx := maxV e es
    return (⟨⌊mn.x⌋, ⌊mn.y⌋, ⌊mn.z⌋⟩, ⟨⌈mx.x⌉, ⌈mx.y⌉, ⌈mx.z⌉⟩)

end

end Voxel

end CZ
