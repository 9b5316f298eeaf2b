import Verif.Transform
import Verif.Spec.Geometry

/-!
# Specification vocabulary for transformations

Which transformation objects count as rigid, described by how a user constructs them.
-/

namespace CZ.Spec

/-- Orthogonal matrix: its columns are an orthonormal system. -/
def Orthogonal (M : M3 ℝ) : Prop := M.transpose * M = 1

/-- Rigid motions that can also be applied to surfaces: translations, rotations with an exactly orthogonal matrix,
inversions, general matrix transformations with orthogonal matrix, and compositions. -/
inductive RigidMotion : Tr ℝ → Prop
  | translation (s : V3 ℝ) (l b : Bool) : RigidMotion (.translation s l b)
  | rotation (M : M3 ℝ) (o : Option (V3 ℝ)) (l b : Bool) (t : Tr ℝ) (hM : Orthogonal M)
      (ht : Tr.mkRotation M o l b = .ok t) : RigidMotion t
  | inversion (o : Option (V3 ℝ)) (l b : Bool) : RigidMotion (Tr.mkInversion o l b)
  | matrix (M : M3 ℝ) (o : Option (V3 ℝ)) (l b : Bool) (hM : Orthogonal M) :
      RigidMotion (.matrix .general M o l b)
  | multi (ts : List (Tr ℝ)) (h : ∀ t ∈ ts, RigidMotion t) : RigidMotion (.multi ts)

/-- Rigid maps of points: the above and reflections in planes with a unit normal, arbitrarily nested. -/
inductive RigidMap : Tr ℝ → Prop
  | motion (t : Tr ℝ) (h : RigidMotion t) : RigidMap t
  | reflection (pl : Plane) (l b : Bool) (hn : len pl.normal = 1) : RigidMap (Tr.mkReflection pl l b)
  | multi (ts : List (Tr ℝ)) (h : ∀ t ∈ ts, RigidMap t) : RigidMap (.multi ts)

/-- `q` is the mirror image of `p` in the plane through `c` with unit normal `n`: the midpoint lies on the plane and the
connecting segment is parallel to the normal. -/
def MirrorImage (n c p q : V3 ℝ) : Prop :=
  Perp ((1 / 2 : ℝ) • (p + q) - c) n ∧ ∃ s : ℝ, q - p = s • n

/-- A proper rotation matrix. -/
def ProperRotation (M : M3 ℝ) : Prop := Orthogonal M ∧ M.det = 1

/-- Same direction: positive multiples of one another. -/
def SameDirection (v w : V3 ℝ) : Prop := ∃ c : ℝ, 0 < c ∧ w = c • v

/-- Elementary rotations about the fixed axes, acting on points. -/
noncomputable def spinZ (a : ℝ) (p : V3 ℝ) : V3 ℝ :=
  ⟨Real.cos a * p.x - Real.sin a * p.y, Real.sin a * p.x + Real.cos a * p.y, p.z⟩
noncomputable def spinX (a : ℝ) (p : V3 ℝ) : V3 ℝ :=
  ⟨p.x, Real.cos a * p.y - Real.sin a * p.z, Real.sin a * p.y + Real.cos a * p.z⟩

end CZ.Spec
