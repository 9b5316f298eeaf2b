import Verif.Bounding
import Verif.Spec.Geometry
import Mathlib.Analysis.Convex.Hull
import Mathlib.Analysis.Convex.Extreme

/-!
# Specification: regions cut out by planes, linear programs and half-space intersections

The first part speaks about points in space only.  The second part says what is assumed of the two scipy routines that
`get_bounding_box` calls.
-/

namespace CZ.Spec

/-- `q` is on the plane through `p` with normal `n`, or on the side opposite to the normal. -/
def Below (n p q : V3 ℝ) : Prop := (q.x - p.x) * n.x + (q.y - p.y) * n.y + (q.z - p.z) * n.z ≤ 0

/-- The region common to a list of half spaces, each given by outward normal and point. -/
def Cell (hs : List (V3 ℝ × V3 ℝ)) : Set (V3 ℝ) := {q | ∀ h ∈ hs, Below h.1 h.2 q}

/-- The closed ball around `c` of radius `r` lies in `S`. -/
def BallIn (S : Set (V3 ℝ)) (c : V3 ℝ) (r : ℝ) : Prop := ∀ q, dist q c ≤ r → q ∈ S

/-- All coordinates stay below a constant. -/
def BoundedSet (S : Set (V3 ℝ)) : Prop := ∃ R : ℝ, ∀ q ∈ S, |q.x| ≤ R ∧ |q.y| ≤ R ∧ |q.z| ≤ R

/-! ### The two routines -/

/-- Feasible points of the linear program with non-negative variables. -/
def Feasible (rows : List (V3 ℝ × ℝ × ℝ)) (x : V3 ℝ) (r : ℝ) : Prop :=
  0 ≤ x.x ∧ 0 ≤ x.y ∧ 0 ≤ x.z ∧ 0 ≤ r ∧
    ∀ t ∈ rows, t.1.x * x.x + t.1.y * x.y + t.1.z * x.z + t.2.1 * r ≤ t.2.2

/-- The objective. -/
def cost (c : V3 ℝ × ℝ) (x : V3 ℝ) (r : ℝ) : ℝ := c.1.x * x.x + c.1.y * x.y + c.1.z * x.z + c.2 * r

/-- `(x, r)` is feasible and no feasible point is cheaper. -/
def Optimal (c : V3 ℝ × ℝ) (rows : List (V3 ℝ × ℝ × ℝ)) (x : V3 ℝ) (r : ℝ) : Prop :=
  Feasible rows x r ∧ ∀ y s, Feasible rows y s → cost c x r ≤ cost c y s

/-- What the documentation of `linprog` says: status 0 with an optimal point if there is one, 2 if there is no feasible point,
3 if the objective is unbounded below on the feasible points. -/
structure LpAnswer (c : V3 ℝ × ℝ) (rows : List (V3 ℝ × ℝ × ℝ)) (res : LpRes) : Prop where
  zero : res.status = 0 ↔ ∃ x r, Optimal c rows x r
  optimal : res.status = 0 → Optimal c rows res.x res.r
  two : res.status = 2 ↔ ¬ ∃ x r, Feasible rows x r
  three : res.status = 3 ↔ ∀ B, ∃ x r, Feasible rows x r ∧ cost c x r < B

/-- The region of `A x + d ≤ 0`. -/
def Ineqs (rows : List (V3 ℝ × ℝ)) : Set (V3 ℝ) := {q | ∀ t ∈ rows, t.1.x * q.x + t.1.y * q.y + t.1.z * q.z + t.2 ≤ 0}

/-- A point that satisfies all inequalities strictly. -/
def Strict (rows : List (V3 ℝ × ℝ)) (q : V3 ℝ) : Prop :=
  ∀ t ∈ rows, t.1.x * q.x + t.1.y * q.y + t.1.z * q.z + t.2 < 0

/-- What the documentation of `HalfspaceIntersection` says: it fails unless the given point is clearly inside; for a bounded region
the intersections are its vertices (in the sense of extreme points).  Nothing is assumed about unbounded regions. -/
structure HsAnswer (rows : List (V3 ℝ × ℝ)) (x : V3 ℝ) (res : Option (List (V3 ℝ))) : Prop where
  fails : ¬ Strict rows x → res = none
  succeeds : Strict rows x → BoundedSet (Ineqs rows) → ∃ vs, res = some vs ∧ {v | v ∈ vs} = (Ineqs rows).extremePoints ℝ

/-- Both routines answer as documented, on every input. -/
structure ExactSolvers (S : Solvers) : Prop where
  lp : ∀ c rows, LpAnswer c rows (S.linprog c rows)
  hs : ∀ rows x, HsAnswer rows x (S.halfspaces rows x)

end CZ.Spec
