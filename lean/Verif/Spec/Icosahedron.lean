import Verif.Spec.Geometry
import Mathlib.Analysis.SpecialFunctions.Trigonometric.Basic

/-!
# Specification vocabulary for icosahedral particles
-/

namespace CZ.Spec

/-- Scalar product. -/
def scalar (p q : V3 ℝ) : ℝ := p.x * q.x + p.y * q.y + p.z * q.z

/-- Vector product. -/
def vector (p q : V3 ℝ) : V3 ℝ := ⟨p.y * q.z - p.z * q.y, p.z * q.x - p.x * q.z, p.x * q.y - p.y * q.x⟩

/-- The angle between `p` and `q` has the cosine `c`. -/
def AngleCos (p q : V3 ℝ) (c : ℝ) : Prop := scalar p q = c * (len p * len q)

/-- A regular wedge of an icosahedron: three edges of equal length `l` from the centre, the angle between any two with
cosine 1/√5 (that of an icosahedron's neighbouring vertices seen from its centre), and the angle between two faces that meet in an
edge is a fifth of a full turn. -/
structure IcoWedge (e f g : V3 ℝ) (l : ℝ) : Prop where
  pos : 0 < l
  len_e : len e = l
  len_f : len f = l
  len_g : len g = l
  ef : AngleCos e f (1 / Real.sqrt 5)
  eg : AngleCos e g (1 / Real.sqrt 5)
  fg : AngleCos f g (1 / Real.sqrt 5)
  at_e : AngleCos (vector e f) (vector e g) (Real.cos (2 * Real.pi / 5))
  at_f : AngleCos (vector f e) (vector f g) (Real.cos (2 * Real.pi / 5))
  at_g : AngleCos (vector g e) (vector g f) (Real.cos (2 * Real.pi / 5))

end CZ.Spec
