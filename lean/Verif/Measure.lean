import Verif.Geom
import Mathlib.Algebra.Order.Floor.Ring

/-!
# Measuring utilities

Model of `czone/util/measure.py`.  Integer-valued float arrays are integers.
-/

namespace CZ

/-! ## get_voxel_grid -/
namespace Grid

/-- measure.py:33-36, the relative coordinates `nn_x`, `nn_y`, `nn_z` of the j-th neighbour. -/
def nnx (j : ℕ) : ℤ := (j % 3 : ℕ) - 1
@[inherit_doc nnx] def nny (j : ℕ) : ℤ := (j / 3 % 3 : ℕ) - 1
@[inherit_doc nnx] def nnz (j : ℕ) : ℤ := (j / 9 : ℕ) - 1

/-- measure.py:38-66, the entry `neighbors[v, j]` after the edge corrections and `% N`. -/
def entry (nx ny nz v j : ℕ) : ℤ :=
  let s0 : ℤ := v + (nnx j * 1 + nny j * nx + nnz j * (nx * ny))
  -- lines 45-48, 50-53: columns range(0, 27, 3) and range(2, 27, 3)
  let s1 : ℤ := if v % nx = 0 ∧ j % 3 = 0 then s0 + nx else s0
  let s2 : ℤ := if (v % nx : ℕ) = (nx : ℤ) - 1 ∧ j % 3 = 2 then s1 - nx else s1
  -- lines 55-63
  let s3 : ℤ := if v / nx % ny = 0 ∧ nny j = -1 then s2 + nx * ny else s2
  let s4 : ℤ := if (v / nx % ny : ℕ) = (ny : ℤ) - 1 ∧ nny j = 1 then s3 - nx * ny else s3
  s4 % ((nx * ny * nz : ℕ) : ℤ)

/-- measure.py:76-84, for each axis the pairs (voxel lies on the face, neighbour column points across that face): lower
face, upper face. -/
def facesX (nx v j : ℕ) : List (Bool × Bool) :=
  [(decide (v % nx = 0), decide (j % 3 = 0)), (decide ((v % nx : ℕ) = (nx : ℤ) - 1), decide (j % 3 = 2))]
@[inherit_doc facesX] def facesY (nx ny v j : ℕ) : List (Bool × Bool) :=
  [(decide (v / nx % ny = 0), decide (j / 3 % 3 = 0)), (decide ((v / nx % ny : ℕ) = (ny : ℤ) - 1), decide (j / 3 % 3 = 2))]
@[inherit_doc facesX] def facesZ (nx ny nz v j : ℕ) : List (Bool × Bool) :=
  [(decide (v / (nx * ny) = 0), decide (j / 9 = 0)), (decide ((v / (nx * ny) : ℕ) = (nz : ℤ) - 1), decide (j / 9 = 2))]

/-- measure.py:98-147: is `neighbors[v, j]` overwritten by NaN?  Faces, then edges, then corners. -/
def isNan (nx ny nz : ℕ) (px py pz : Bool) (v j : ℕ) : Bool :=
  let X := facesX nx v j
  let Y := facesY nx ny v j
  let Z := facesZ nx ny nz v j
  let fx := !px
  let fy := !py
  let fz := !pz
  (fx && X.any fun c => c.1 && c.2) || (fy && Y.any fun c => c.1 && c.2) || (fz && Z.any fun c => c.1 && c.2) ||
  (fx && fy && X.any fun x => Y.any fun y => (x.1 && y.1) && (x.2 && y.2)) ||
  (fx && fz && X.any fun x => Z.any fun z => (x.1 && z.1) && (x.2 && z.2)) ||
  (fy && fz && Y.any fun y => Z.any fun z => (y.1 && z.1) && (y.2 && z.2)) ||
  (fx && fy && fz && X.any fun x => Y.any fun y => Z.any fun z => ((y.1 && z.1) && x.1) && ((y.2 && z.2) && x.2))

/-- measure.py:7-156, `get_voxel_grid(dim, px, py, pz)`: the row of voxel `v`.  Fully periodic: the 27 entries (line 70); otherwise
the entries that are not NaN (line 152), of which line 152 makes a set.  (For a size 0 there are no voxels.) -/
def row (nx ny nz : ℕ) (px py pz : Bool) (v : ℕ) : List ℤ :=
  if px ∧ py ∧ pz then (List.range 27).map (entry nx ny nz v)
  else (((List.range 27).filter fun j => !isNan nx ny nz px py pz v j).map (entry nx ny nz v)).dedup

/-- The whole result. -/
def grid (nx ny nz : ℕ) (px py pz : Bool) : List (List ℤ) := (List.range (nx * ny * nz)).map (row nx ny nz px py pz)

end Grid

section
variable {K : Type} [Field K] [LinearOrder K]

/-- measure.py:187-190, the distance along one periodic axis: `min(|d|, L - |d|)`. -/
def sdistAxis (per : Bool) (L d : K) : K := if per then min |d| (L - |d|) else |d|

/-- measure.py:158-193, `get_sdist_fun(dims, px, py, pz)` for a pair of points.  The function defined for the case without
periodic axes (lines 173-177) is shadowed by the second definition; `np.array(None)[cols]` raises IndexError. -/
def getSdistFun (dims : Option (V3 K)) (px py pz : Bool) : Py (V3 K → V3 K → K) :=
  match dims with
  | none => .error .index
  | some L => .ok fun a b =>
    let d : V3 K := ⟨sdistAxis px L.x (a.x - b.x), sdistAxis py L.y (a.y - b.y), sdistAxis pz L.z (a.z - b.z)⟩
    d.x * d.x + d.y * d.y + d.z * d.z

end

/-! ## calc_rdf -/
namespace Rdf
section
variable {K : Type} [Field K] [LinearOrder K] [FloorRing K]

/-- Componentwise minimum and maximum of a nonempty list (`np.min`, `np.max` with axis=0). -/
def minV (p : V3 K) (ps : List (V3 K)) : V3 K := ps.foldl (fun a b => ⟨min a.x b.x, min a.y b.y, min a.z b.z⟩) p
@[inherit_doc minV] def maxV (p : V3 K) (ps : List (V3 K)) : V3 K :=
  ps.foldl (fun a b => ⟨max a.x b.x, max a.y b.y, max a.z b.z⟩) p

/-- measure.py:212, `coords -= np.min(coords, axis=0)`: the array the caller passed is changed in place. -/
def shifted : List (V3 K) → List (V3 K)
  | [] => []
  | p :: ps => (p :: ps).map (· - minV p ps)

/-- measure.py:222, `box_idx`. -/
def boxIdx (c : K) (Nx Ny : ℕ) (p : V3 K) : ℤ := ⌊p.x / c⌋ * 1 + ⌊p.y / c⌋ * Nx + ⌊p.z / c⌋ * (Nx * Ny)

/-- measure.py:234, the coordinates in voxel `i`. -/
def parts (c : K) (Nx Ny : ℕ) (ps : List (V3 K)) (i : ℤ) : List (V3 K) := ps.filter fun p => decide (boxIdx c Nx Ny p = i)

/-- measure.py:239-249, the squared distances that are entered into the histogram, voxel by voxel.  `nn[box_idx[i]]`
(line 243) reads the box of the i-th atom, not the i-th box: IndexError when there are fewer atoms than voxels, or when
that box is outside the grid.  A negative `box_idx` cannot occur. -/
def pairs (c : K) (N : ℕ × ℕ × ℕ) (ps : List (V3 K)) (px py pz : Bool) (f : V3 K → V3 K → K) : ℕ → ℕ → Py (List K)
  | 0, _ => .ok []
  | k + 1, i => do
    let cur := parts c N.1 N.2.1 ps i
    let b ← pyGet (ps.map (boxIdx c N.1 N.2.1)) i
    let nb ← pyGet (Grid.grid N.1 N.2.1 N.2.2 px py pz) b.toNat
    let here := nb.flatMap fun n => cur.flatMap fun p => (parts c N.1 N.2.1 ps n).map (f p)
    let rest ← pairs c N ps px py pz f k (i + 1)
    return here ++ rest

/-- measure.py:214-216, the number of voxels per axis. -/
def numVox (c : K) (L : V3 K) : ℕ × ℕ × ℕ := (⌈L.x / c⌉.toNat, ⌈L.y / c⌉.toNat, ⌈L.z / c⌉.toNat)

/-- measure.py:196-253, `calc_rdf(coords, cutoff, px, py, pz)`: the array of the caller afterwards, and the squared
distances that are counted (for the binning by `np.histogram`, which drops distances above the cutoff, and the removal of the
first bin see `RdfHist`).  The empty array raises ValueError in `np.min`. -/
def calcRdf (c : K) (px py pz : Bool) : List (V3 K) → List (V3 K) × Py (List K)
  | [] => ([], .error .value)
  | p :: ps =>
    let qs := shifted (p :: ps)
    let L : V3 K := match qs with
      | [] => 0
      | q :: qs' => maxV q qs'
    let N := numVox c L
    (qs, do
      let f ← getSdistFun (some L) px py pz
      pairs c N qs px py pz f (N.1 * N.2.1 * N.2.2) 0)

end
end Rdf

end CZ
