import Verif.Algebraic

/-!
# Vertices of the region cut out by planes

Model of `get_bounding_box(planes)`, `czone/volume/algebraic.py` lines 374-421.  The two solvers are parameters:

* `linprog c rows`: `scipy.optimize.linprog(c, A_ub, b_ub)` for four variables (three coordinates and one radius), one row
  `(a, w, b)` per inequality `a . x + w r <= b`, without the argument `bounds`, for which scipy takes every variable to be
  non-negative;
* `halfspaces rows x`: the attribute `intersections` of `scipy.spatial.HalfspaceIntersection(rows, x)` with one row `(a, d)` per
  inequality `a . x + d <= 0`, `none` for QhullError.
-/

namespace CZ

noncomputable section
open Classical

/-- The fields `status` and `x` of the result of `linprog`; `x` is split into the point and the last variable. -/
structure LpRes where
  status : ℤ
  x : V3 ℝ
  r : ℝ

/-- The two scipy routines. -/
structure Solvers where
  linprog : V3 ℝ × ℝ → List (V3 ℝ × ℝ × ℝ) → LpRes
  halfspaces : List (V3 ℝ × ℝ) → V3 ℝ → Option (List (V3 ℝ))

/-- `np.min([a, b], axis=0)`. -/
def min3 (a b : V3 ℝ) : V3 ℝ := ⟨min a.x b.x, min a.y b.y, min a.z b.z⟩

/-- algebraic.py:392-396, the shift of the coordinates. -/
def planeShift (planes : List Plane) : V3 ℝ :=
  (-(3 / 2) : ℝ) • planes.foldl (fun s pl => min3 s pl.point) 0

/-- algebraic.py:402-406, one row of `A`, `d` and `norms`. -/
def planeRow (shift : V3 ℝ) (pl : Plane) : V3 ℝ × ℝ × ℝ :=
  (pl.normal, -1 * pl.normal.dot (pl.point + shift), norm3 pl.normal)

/-- algebraic.py:374-421, `get_bounding_box(planes)`: vertices and status.  An empty list fails at `planes[0]`. -/
def getBoundingBox (S : Solvers) (planes : List Plane) : Py (List (V3 ℝ) × ℤ) :=
  if planes = [] then .error .index
  else
    let shift := planeShift planes
    let rows := planes.map (planeRow shift)
    let res := S.linprog (0, -1) (rows.map fun t => (t.1, t.2.2, -1 * t.2.1))
    if res.status = 0 then
      match S.halfspaces (rows.map fun t => (t.1, t.2.1)) res.x with
      | none => .ok ([], 2)
      | some vs => .ok (vs.map (· - shift), res.status)
    else .ok ([], res.status)

end
end CZ
