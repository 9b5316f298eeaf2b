import Verif.Spec.Crystal
import Verif.Spec.Geometry

/-!
# Specification of crystal planes
-/

namespace CZ.Spec

/-- h·f. -/
def miller (h : V3 ℤ) (f : V3 ℝ) : ℝ := h.x * f.x + h.y * f.y + h.z * f.z

/-- The k-th plane of the family with Miller indices `h`: the points whose crystal coordinates satisfy h·f = k.  The planes of
the family with indices without common factor contain all lattice points. -/
def LatticePlane (B : M3 ℝ) (o : V3 ℝ) (h : V3 ℤ) (k : ℤ) : Set (V3 ℝ) := {x | ∃ f, x = cart B o f ∧ miller h f = k}

/-- The reciprocal vector of the family: perpendicular to the planes, its length is the inverse of their spacing. -/
def IsReciprocal (B : M3 ℝ) (h : V3 ℤ) (g : V3 ℝ) : Prop :=
  ∀ f, (cart B 0 f).x * g.x + (cart B 0 f).y * g.y + (cart B 0 f).z * g.z = miller h f

/-- Exactly one index is not zero. -/
def AxisIndices (h : V3 ℤ) : Prop :=
  (h.x ≠ 0 ∧ h.y = 0 ∧ h.z = 0) ∨ (h.x = 0 ∧ h.y ≠ 0 ∧ h.z = 0) ∨ (h.x = 0 ∧ h.y = 0 ∧ h.z ≠ 0)

end CZ.Spec
