import Verif.Measure
import Verif.Round

/-!
# Amorphous blocks

Model of `czone/generator/amorphous_algorithms.py` over an ordered field.  Random numbers come from a stream; loops run for a
bounded number of draws, `none` means not finished yet.  `min_dist` is positive where the functions are used (the setter of
the generator checks it), so division by zero is not modelled.  `coords` is preallocated in the code and filled in order;
here it is the list of the rows filled so far.  Progress messages are not modelled.
-/

namespace CZ
namespace Amo
section
variable {K : Type} [Field K] [LinearOrder K] [FloorRing K]

/-- amorphous_algorithms.py:12-20, `get_p_dist` for one coordinate: squared distance, periodic in x and y. -/
def pDist (dims c new : V3 K) : K :=
  let d0 : V3 K := ⟨|c.x - new.x|, |c.y - new.y|, |c.z - new.z|⟩
  let d1 : V3 K := ⟨dims.x - d0.x, dims.y - d0.y, d0.z⟩
  (min d0.x d1.x) ^ 2 + (min d0.y d1.y) ^ 2 + (min d0.z d1.z) ^ 2

/-- `np.ceil(dims / size).astype(int)` (lines 45, 182). -/
def numBlocks (size : K) (dims : V3 K) : ℕ × ℕ × ℕ := (⌈dims.x / size⌉.toNat, ⌈dims.y / size⌉.toNat, ⌈dims.z / size⌉.toNat)

/-- Lines 57-58: `[i, (i + 1) % n, (i - 1) % n]`. -/
def tmpPeriodic (n i : ℕ) : List ℕ := [i, (i + 1) % n, (((i : ℤ) - 1) % n).toNat]

/-- Lines 59-63: `[k]`, `k - 1`, `k + 1` where they exist. -/
def tmpOpen (n k : ℕ) : List ℕ := [k] ++ (if 0 < k then [k - 1] else []) ++ (if (k : ℤ) < n - 1 then [k + 1] else [])

/-- Lines 31-35, `get_tuples`. -/
def tuples (tx ty tz : List ℕ) : List (ℕ × ℕ × ℕ) := tx.flatMap fun x => ty.flatMap fun y => tz.map fun z => (x, y, z)

/-- Lines 43-69, `neighbors[b0][b1][b2]` of `get_voxels`: IndexError outside the grid.  (Python would wrap negative
indices; they do not occur, coordinates are nonnegative.) -/
def neighbours (n : ℕ × ℕ × ℕ) (b : ℤ × ℤ × ℤ) : Py (List (ℕ × ℕ × ℕ)) :=
  if 0 ≤ b.1 ∧ b.1 < n.1 ∧ 0 ≤ b.2.1 ∧ b.2.1 < n.2.1 ∧ 0 ≤ b.2.2 ∧ b.2.2 < n.2.2 then
    .ok (tuples (tmpPeriodic n.1 b.1.toNat) (tmpPeriodic n.2.1 b.2.1.toNat) (tmpOpen n.2.2 b.2.2.toNat))
  else .error .index

/-- Rows of `coords` filled so far, and for each voxel the indices of the atoms in it. -/
structure State (K : Type) where
  coords : List (V3 K)
  voxels : ℕ × ℕ × ℕ → List ℕ

/-- Line 135, `np.floor(new_coord / min_dist)`. -/
def block (m : K) (p : V3 K) : ℤ × ℤ × ℤ := (⌊p.x / m⌋, ⌊p.y / m⌋, ⌊p.z / m⌋)

/-- Lines 133-156, one draw: `none` if the coordinate is too close to an atom of a neighbouring voxel, else the state with the
atom added. -/
def tryCoord (dims : V3 K) (m : K) (st : State K) (new : V3 K) : Py (Option (State K)) := do
  let b := block m new
  let tlist ← neighbours (numBlocks m dims) b
  let parts := tlist.flatMap st.voxels
  let ps ← parts.mapM (pyGet st.coords)
  if ps.any fun c => decide (pDist dims c new < m ^ 2) then return none
  else
    let t := (b.1.toNat, b.2.1.toNat, b.2.2.toNat)
    return some ⟨st.coords ++ [new], fun s => if s = t then st.voxels s ++ [st.coords.length] else st.voxels s⟩

/-- `rng.uniform(size=(1, 3)) * dims`. -/
def scale (dims u : V3 K) : V3 K := ⟨u.x * dims.x, u.y * dims.y, u.z * dims.z⟩

/-- Lines 130-156, the loops; `rng k` are the random numbers of the k-th draw. -/
def loop (dims : V3 K) (m : K) (numC : ℕ) (rng : ℕ → V3 K) : ℕ → ℕ → State K → Option (Py (List (V3 K)))
  | fuel, k, st =>
    if st.coords.length < numC then
      match fuel with
      | 0 => none
      | fuel + 1 => match tryCoord dims m st (scale dims (rng k)) with
        | .error e => some (.error e)
        | .ok none => loop dims m numC rng fuel (k + 1) st
        | .ok (some st') => loop dims m numC rng fuel (k + 1) st'
    else some (.ok st.coords)

/-- Lines 72-158, `gen_p_substrate(dims, min_dist, density)`; ValueError from `np.zeros` for a negative number of atoms. -/
def genPSubstrate (dims : V3 K) (m density : K) (rng : ℕ → V3 K) (fuel : ℕ) : Option (Py (List (V3 K))) :=
  let numC := npRound (dims.x * dims.y * dims.z * density)
  if numC < 0 then some (.error .value) else loop dims m numC.toNat rng fuel 0 ⟨[], fun _ => []⟩

end
end Amo
end CZ
