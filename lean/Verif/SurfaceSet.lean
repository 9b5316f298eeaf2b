import Verif.Algebraic

/-!
# Assignments to algebraic surfaces

Model of the property setters and constructors of `czone/volume/algebraic.py` over histories of assignments, on values of several kinds.
Numbers are Python or numpy numbers, with nan and the infinities; strings carry the number they spell, if any.  Arrays have finite entries
or, with one axis, at least one nan; arrays with infinite entries and arrays given where a number is expected are not modelled.
-/

namespace CZ
namespace SurfSet

/-- A Python float. -/
inductive Num
  | fin (x : ℝ)
  | inf
  | ninf
  | nan

/-- What is assigned to `radius`, `length` or `tol`; `other` stands for None, lists and other objects without `__float__` and comparison
with numbers. -/
inductive Val
  | num (x : Num)
  | str (spells : Option Num)
  | other

/-- What is assigned to `center`, `point`, `normal` or `axis`, after `np.array`: shape (3,), (3,) with a nan, (3,1), (1,3), (3,3), one number
(no axis or all axes of length 1), or something else: one axis with a length other than 3 and 1. -/
inductive Arr
  | vec (v : V3 ℝ)
  | nan
  | col (v : V3 ℝ)
  | row (v : V3 ℝ)
  | mat (M : M3 ℝ)
  | one
  | misfit

noncomputable section
open Classical

/-- `x > 0.0`: false for nan. -/
def Num.positive : Num → Bool
  | .fin x => decide (0 < x)
  | .inf => true
  | .ninf => false
  | .nan => false

/-- `x < np.finfo(float).eps`: false for nan. -/
def Num.tiny : Num → Bool
  | .fin x => decide (x < machEps)
  | .inf => false
  | .ninf => true
  | .nan => false

/-- Addition of floats. -/
def Num.add : Num → Num → Num
  | .fin x, .fin y => .fin (x + y)
  | .nan, _ => .nan
  | _, .nan => .nan
  | .inf, .ninf => .nan
  | .ninf, .inf => .nan
  | .inf, _ => .inf
  | _, .inf => .inf
  | .ninf, _ => .ninf
  | _, .ninf => .ninf

/-- `x / 2.0`. -/
def Num.half : Num → Num
  | .fin x => .fin (x / 2)
  | x => x

/-- `x ** 2.0`. -/
def Num.sq : Num → Num
  | .fin x => .fin (x ^ 2)
  | .nan => .nan
  | _ => .inf

/-- `a < x` for a finite `a`. -/
def Num.above (a : ℝ) : Num → Bool
  | .fin x => decide (a < x)
  | .inf => true
  | .ninf => false
  | .nan => false

/-- `float(val)`. -/
def Val.toFloat : Val → Py Num
  | .num x => .ok x
  | .str (some x) => .ok x
  | .str none => .error .value
  | .other => .error .type

/-- algebraic.py:53-56, the `tol` setter. -/
def tolStore (v : Val) : Py Num := do
  let x ← v.toFloat
  if x.positive then .ok x else .error .assertion

/-- algebraic.py:108-113, the `radius` setter of Sphere: the value is compared as it is, so that strings raise TypeError. -/
def radiusStore : Val → Py Num
  | .num x => if x.positive then .ok x else .error .value
  | _ => .error .type

/-- algebraic.py:283-288 and 295-300, the `radius` and `length` setters of Cylinder. -/
def sizeStore (v : Val) : Py Num := do
  let x ← v.toFloat
  if x.tiny then .error .value else .ok x

/-- The attribute `_center` of a Sphere or `_point` of a Plane or Cylinder: shape (3,), with a nan, of shape (3,1), of shape (3,3). -/
inductive Pos
  | vec (v : V3 ℝ)
  | nan
  | col (v : V3 ℝ)
  | mat (M : M3 ℝ)

/-- algebraic.py:120-125, the `center` setter of Sphere: three entries, and the first axis has length 3. -/
def centerStore : Arr → Py Pos
  | .vec v => .ok (.vec v)
  | .nan => .ok .nan
  | .col v => .ok (.col v)
  | _ => .error .value

/-- algebraic.py:160-164, the `point` setter of Plane: `np.squeeze`, then the first axis has length 3. -/
def pointStore : Arr → Py Pos
  | .vec v => .ok (.vec v)
  | .nan => .ok .nan
  | .col v => .ok (.vec v)
  | .row v => .ok (.vec v)
  | .mat M => .ok (.mat M)
  | .one => .error .index
  | .misfit => .error .assertion

/-- algebraic.py:171-179, the `normal` setter of Plane; the norm of an array with a nan is nan, which is not above anything. -/
def normalStore : Arr → Py (V3 ℝ)
  | .vec v => Plane.normalSet v
  | .col v => Plane.normalSet v
  | .row v => Plane.normalSet v
  | .nan => .error .value
  | _ => .error .assertion

/-- algebraic.py:275-276, the `point` setter of Cylinder: `reshape((3,))`. -/
def cylPointStore : Arr → Py Pos
  | .vec v => .ok (.vec v)
  | .nan => .ok .nan
  | .col v => .ok (.vec v)
  | .row v => .ok (.vec v)
  | _ => .error .value

/-- algebraic.py:261-267, the `axis` setter of Cylinder; `none` stands for an axis with a nan: nan is not `<=` anything, so it is
divided by its norm and stored. -/
def axisStore : Arr → Py (Option (V3 ℝ))
  | .vec v => (Cylinder.axisSet v).map some
  | .col v => (Cylinder.axisSet v).map some
  | .row v => (Cylinder.axisSet v).map some
  | .nan => .ok none
  | _ => .error .value

/-- Attributes of a Sphere (algebraic.py:84-92). -/
structure SphereObj where
  radius : Num
  center : Pos
  tol : Num

/-- Attributes of a Plane (algebraic.py:141-148). -/
structure PlaneObj where
  normal : V3 ℝ
  point : Pos
  tol : Num

/-- Attributes of a Cylinder (algebraic.py:240-250). -/
structure CylObj where
  axis : Option (V3 ℝ)
  point : Pos
  radius : Num
  length : Num
  tol : Num

/-- Assignment through a setter: on an exception nothing is stored. -/
def store {α β : Type} (o : α) (r : Py β) (f : β → α) : α × Py Unit :=
  match r with
  | .ok x => (f x, .ok ())
  | .error e => (o, .error e)

namespace SphereObj

/-- `Sphere(radius, center, tol)`, algebraic.py:84-92. -/
def make (radius : Val) (center : Arr) (tol : Val) : Py SphereObj := do
  let r ← radiusStore radius
  let c ← centerStore center
  let t ← tolStore tol
  return ⟨r, c, t⟩

/-- Assignments. -/
inductive Op
  | radius (x : Val)
  | center (x : Arr)
  | tol (x : Val)

/-- One assignment. -/
def step (o : SphereObj) : Op → SphereObj × Py Unit
  | .radius x => store o (radiusStore x) fun r => { o with radius := r }
  | .center x => store o (centerStore x) fun c => { o with center := c }
  | .tol x => store o (tolStore x) fun t => { o with tol := t }

/-- A history of assignments; refused ones raise and the caller goes on. -/
def run (o : SphereObj) (ops : List Op) : SphereObj := ops.foldl (fun o op => (o.step op).1) o

/-- algebraic.py:94-96, `checkIfInterior` on an array of shape (N,3), with broadcasting: a centre of shape (3,1) is subtracted from the rows of
three points number by number, and one point gives three answers. -/
def check (o : SphereObj) (ps : List (V3 ℝ)) : Py (List Bool) :=
  let lim := (o.radius.add o.tol).sq
  let one (c p : V3 ℝ) : Bool := Num.above ((p - c).normSq) lim
  match o.center, ps with
  | .vec c, ps => .ok (ps.map (one c))
  | .nan, ps => .ok (ps.map fun _ => false)
  | .col c, [p] => .ok [one ⟨c.x, c.x, c.x⟩ p, one ⟨c.y, c.y, c.y⟩ p, one ⟨c.z, c.z, c.z⟩ p]
  | .col c, [p, q, r] => .ok [one ⟨c.x, c.x, c.x⟩ p, one ⟨c.y, c.y, c.y⟩ q, one ⟨c.z, c.z, c.z⟩ r]
  | _, _ => .error .value

end SphereObj

namespace PlaneObj

/-- `Plane(normal, point, tol)`, algebraic.py:141-148. -/
def make (normal point : Arr) (tol : Val) : Py PlaneObj := do
  let n ← normalStore normal
  let q ← pointStore point
  let t ← tolStore tol
  return ⟨n, q, t⟩

/-- Assignments, and `flip_orientation()`. -/
inductive Op
  | normal (x : Arr)
  | point (x : Arr)
  | tol (x : Val)
  | flip

/-- One assignment; `flip_orientation` (algebraic.py:184-187) assigns the negative normal. -/
def step (o : PlaneObj) : Op → PlaneObj × Py Unit
  | .normal x => store o (normalStore x) fun n => { o with normal := n }
  | .point x => store o (pointStore x) fun q => { o with point := q }
  | .tol x => store o (tolStore x) fun t => { o with tol := t }
  | .flip => store o (normalStore (.vec (-o.normal))) fun n => { o with normal := n }

/-- A history of assignments. -/
def run (o : PlaneObj) (ops : List Op) : PlaneObj := ops.foldl (fun o op => (o.step op).1) o

/-- algebraic.py:181-182 and 189-200, `checkIfInterior` on an array of shape (N,3): a point of shape (3,3) gives three numbers, subtracted
from those of three points or of one point. -/
def check (o : PlaneObj) (ps : List (V3 ℝ)) : Py (List Bool) :=
  let one (q p : V3 ℝ) : Bool := Num.above (p.dot o.normal - q.dot o.normal) o.tol
  match o.point, ps with
  | .vec q, ps => .ok (ps.map (one q))
  | .nan, ps => .ok (ps.map fun _ => false)
  | .mat M, [p] => .ok [one ⟨M.m00, M.m01, M.m02⟩ p, one ⟨M.m10, M.m11, M.m12⟩ p, one ⟨M.m20, M.m21, M.m22⟩ p]
  | .mat M, [p, q, r] => .ok [one ⟨M.m00, M.m01, M.m02⟩ p, one ⟨M.m10, M.m11, M.m12⟩ q, one ⟨M.m20, M.m21, M.m22⟩ r]
  | _, _ => .error .value

end PlaneObj

namespace CylObj

/-- `Cylinder(axis, point, radius, length, tol)`, algebraic.py:240-250. -/
def make (axis point : Arr) (radius length tol : Val) : Py CylObj := do
  let a ← axisStore axis
  let q ← cylPointStore point
  let r ← sizeStore radius
  let l ← sizeStore length
  let t ← tolStore tol
  return ⟨a, q, r, l, t⟩

/-- Assignments. -/
inductive Op
  | axis (x : Arr)
  | point (x : Arr)
  | radius (x : Val)
  | length (x : Val)
  | tol (x : Val)

/-- One assignment. -/
def step (o : CylObj) : Op → CylObj × Py Unit
  | .axis x => store o (axisStore x) fun a => { o with axis := a }
  | .point x => store o (cylPointStore x) fun q => { o with point := q }
  | .radius x => store o (sizeStore x) fun r => { o with radius := r }
  | .length x => store o (sizeStore x) fun l => { o with length := l }
  | .tol x => store o (tolStore x) fun t => { o with tol := t }

/-- A history of assignments. -/
def run (o : CylObj) (ops : List Op) : CylObj := ops.foldl (fun o op => (o.step op).1) o

/-- algebraic.py:302-311, `checkIfInterior` on an array of shape (N,3); comparisons with nan are false. -/
def check (o : CylObj) (ps : List (V3 ℝ)) : Py (List Bool) :=
  match o.axis, o.point with
  | some a, .vec q => .ok (ps.map fun p => Num.above (norm3 ((p - q).cross a)) (o.radius.add o.tol) &&
      Num.above |(p - q).dot a| (o.length.half.add o.tol))
  | _, .vec _ => .ok (ps.map fun _ => false)
  | _, .nan => .ok (ps.map fun _ => false)
  | _, _ => .error .value

end CylObj

end
end SurfSet
end CZ
