import Verif.Generator
import Verif.Algebraic
import Verif.Misc
import Verif.Round

/-!
# Crystal planes

Model of `snap_plane_near_point`, `czone/volume/algebraic.py` lines 423-494, in exact reals.
-/

namespace CZ

/-- `np.fix` of one number: rounding towards zero. -/
def npFix {K : Type} [Field K] [LinearOrder K] [FloorRing K] (x : K) : ℤ := if 0 ≤ x then ⌊x⌋ else ⌈x⌉

noncomputable section
open Classical

/-- algebraic.py:458-478, one coordinate of `new_point`: `target = 1 / h` is infinite for h = 0.  For any other mode string the
zeros of line 462 remain. -/
def snapCoord (mode : String) (h : ℤ) (f : ℝ) : ℝ :=
  let target : ℝ := 1 / (h : ℝ)
  if mode = "nearest" then (if h ≠ 0 then ((npRound (f / target) : ℤ) : ℝ) * target else f)
  else if mode = "ceil" then (if h ≠ 0 then roundAway (f / target) * target else f)
  else if mode = "floor" then (if h ≠ 0 then ((npFix (f / target) : ℤ) : ℝ) * target else f)
  else 0

/-- Miller indices as a vector. -/
def millerV (h : V3 ℤ) : V3 ℝ := ⟨(h.x : ℝ), (h.y : ℝ), (h.z : ℝ)⟩

/-- algebraic.py:423-494, `snap_plane_near_point(point, generator, miller_indices, mode)`.  A strain field that is not in crystal
mode leaves `point_fcoord` unassigned (UnboundLocalError, for the three known modes; otherwise it is not read).  Strain
fields that are not homogeneous are not modelled (they cannot be constructed). -/
def snapPlane (point : V3 ℝ) (g : Gen ℝ) (h : V3 ℤ) (mode : String) : Py Plane :=
  match g.voxel with
  | none => .error .attribute
  | some v =>
    match g.strain with
    | none => do
      let f ← v.sbases.solve point
      let new : V3 ℝ := ⟨snapCoord mode h.x f.x, snapCoord mode h.y f.y, snapCoord mode h.z f.z⟩
      let R ← v.reciprocalBases
      Plane.make (R.transpose.mulVec (millerV h)) (v.sbases.mulVec new) (1 / 10 ^ 5)
    | some s => do
      let f ← if s.mode = "crystal" then (s.matrix * v.sbases).solve point
        else if mode = "nearest" ∨ mode = "ceil" ∨ mode = "floor" then .error .unboundLocal else .ok 0
      let new : V3 ℝ := ⟨snapCoord mode h.x f.x, snapCoord mode h.y f.y, snapCoord mode h.z f.z⟩
      let R ← (v.sbases * s.matrix).inv
      Plane.make (R.transpose.mulVec (millerV h)) ((s.matrix * v.sbases).mulVec new) (1 / 10 ^ 5)

end
end CZ
