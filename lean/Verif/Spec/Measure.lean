import Verif.Geom
import Mathlib.Order.Bounds.Basic

/-!
# Specification vocabulary for the measuring utilities
-/

namespace CZ.Spec

/-- Two coordinates along an axis of `n` voxels differ by at most one; along a periodic axis counted around. -/
def AxisNear (n : ℕ) (per : Bool) (a b : ℕ) : Prop :=
  ∃ d : ℤ, (d = -1 ∨ d = 0 ∨ d = 1) ∧ (if per then (n : ℤ) ∣ b - (a + d) else (b : ℤ) = a + d)

/-- Voxels `v`, `w` of the nx × ny × nz grid (x runs fastest) touch. -/
def VoxelNear (nx ny nz : ℕ) (px py pz : Bool) (v w : ℕ) : Prop :=
  AxisNear nx px (v % nx) (w % nx) ∧ AxisNear ny py (v / nx % ny) (w / nx % ny) ∧
    AxisNear nz pz (v / (nx * ny)) (w / (nx * ny))

/-- The squared distances from `a` to the periodic images of `b`; images are only taken along periodic axes. -/
def imageDistances {K : Type} [Field K] (L : V3 K) (px py pz : Bool) (a b : V3 K) : Set K :=
  {s | ∃ i j k : ℤ, (px = false → i = 0) ∧ (py = false → j = 0) ∧ (pz = false → k = 0) ∧
    s = (a.x - (b.x + i * L.x)) ^ 2 + (a.y - (b.y + j * L.y)) ^ 2 + (a.z - (b.z + k * L.z)) ^ 2}

/-- `L` is the extent of the points along the axes. -/
def IsExtent {K : Type} [Field K] [LinearOrder K] (ps : List (V3 K)) (L : V3 K) : Prop :=
  IsGreatest {d | ∃ p ∈ ps, ∃ q ∈ ps, d = p.x - q.x} L.x ∧ IsGreatest {d | ∃ p ∈ ps, ∃ q ∈ ps, d = p.y - q.y} L.y ∧
    IsGreatest {d | ∃ p ∈ ps, ∃ q ∈ ps, d = p.z - q.z} L.z

end CZ.Spec
