import Verif.Geom
import Mathlib.Analysis.SpecialFunctions.Sqrt
import Mathlib.Analysis.SpecialFunctions.Pow.NNReal

/-!
# Specification: Euclidean geometry in plain coordinates

Nothing here mentions the model of the code.
-/

namespace CZ.Spec

/-- Euclidean distance. -/
noncomputable def dist (p q : V3 ℝ) : ℝ :=
  Real.sqrt ((p.x - q.x) ^ 2 + (p.y - q.y) ^ 2 + (p.z - q.z) ^ 2)

/-- Euclidean length. -/
noncomputable def len (p : V3 ℝ) : ℝ := Real.sqrt (p.x ^ 2 + p.y ^ 2 + p.z ^ 2)

/-- Perpendicular vectors. -/
def Perp (p q : V3 ℝ) : Prop := p.x * q.x + p.y * q.y + p.z * q.z = 0

/-- Distance-preserving map. -/
def Isom (f : V3 ℝ → V3 ℝ) : Prop := ∀ p q, dist (f p) (f q) = dist p q

/-- Open ball. -/
def Ball (c : V3 ℝ) (r : ℝ) (p : V3 ℝ) : Prop := dist p c < r

/-- `p` is less than `d` beyond the plane through `q` with outward unit normal `n`: the foot of the perpendicular is
reached by going back some `s < d` along the normal. -/
def HalfSpace (n q : V3 ℝ) (d : ℝ) (p : V3 ℝ) : Prop := ∃ s, s < d ∧ Perp (p - s • n - q) n

/-- Finite circular cylinder (open) with centre `c`, unit axis `a`, radius `r`, half length `h`: the foot of the
perpendicular on the axis is `c + t a` with `|t| < h` and is nearer than `r`. -/
def Tube (c a : V3 ℝ) (r h : ℝ) (p : V3 ℝ) : Prop :=
  ∃ t : ℝ, |t| < h ∧ Perp (p - (c + t • a)) a ∧ dist p (c + t • a) < r

end CZ.Spec
