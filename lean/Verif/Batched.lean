import Verif.Amorphous

/-!
# Amorphous blocks in batches

Model of `gen_p_substrate_batched`, `czone/generator/amorphous_algorithms.py` lines 22-29 and 160-245.  Random numbers come
from a stream of batches (the length of each is `batch_size`); `none` means not finished within the given number of batches.
`coords` is preallocated in the code and filled in order; here it is the list of the rows filled so far.
-/

namespace CZ
namespace Batch
section
variable {K : Type} [Field K] [LinearOrder K] [FloorRing K]

/-- State between batches: rows of `coords` filled, `voxels`, `num_accepted`. -/
structure State (K : Type) where
  coords : List (V3 K)
  voxels : ℕ → List ℕ
  accepted : ℕ

/-- Line 205, `np.floor(new_coord / voxel_size) @ Nt`. -/
def block (s : K) (n : ℕ × ℕ × ℕ) (p : V3 K) : ℤ := ⌊p.x / s⌋ * 1 + ⌊p.y / s⌋ * n.1 + ⌊p.z / s⌋ * (n.1 * n.2.1)

/-- `neighbors[b]` for `neighbors = get_voxel_grid(num_blocks, True, True, False)` (line 191): IndexError outside the grid.
(Python would wrap negative indices; they do not occur, coordinates are nonnegative.) -/
def nbrs (n : ℕ × ℕ × ℕ) (b : ℤ) : Py (List ℤ) :=
  if 0 ≤ b ∧ b < ((n.1 * n.2.1 * n.2.2 : ℕ) : ℤ) then .ok (Grid.row n.1 n.2.1 n.2.2 true true false b.toNat) else .error .index

/-- Lines 212-216, the coordinates of the atoms in the voxels around `b`. -/
def compareParts (n : ℕ × ℕ × ℕ) (st : State K) (b : ℤ) : Py (List (V3 K)) := do
  let tlist ← nbrs n b
  (tlist.flatMap fun t => st.voxels t.toNat).mapM (pyGet st.coords)

/-- Line 218, `np.ones(…) * -1000`. -/
def padding : V3 K := ⟨-1000, -1000, -1000⟩

/-- Lines 22-29 and 218-222, `get_p_dist_batch` for one candidate: its rows of `all_compare_parts` are the `parts` followed by
padding up to the longest list. -/
def passes (dims : V3 K) (m : K) (maxCompare : ℕ) (parts : List (V3 K)) (new : V3 K) : Bool :=
  (parts ++ List.replicate (maxCompare - parts.length) padding).all fun c => decide (m ^ 2 < Amo.pDist dims c new)

/-- Line 229, `b in neighbors[b']`.  (`neighbors[b']` was already looked up for every block in line 213.) -/
def nearBlock (n : ℕ × ℕ × ℕ) (b b' : ℤ) : Bool :=
  match nbrs n b' with
  | .ok l => l.contains b
  | .error _ => false

/-- Lines 225-231: of the candidates that passed, one is dropped when a later one lies in a neighbouring block
(`block[inds[j]] in neighbors[block[inds[i]]]`, i > j; `inds` is not updated meanwhile). -/
def dropMask (near : ℤ → ℤ → Bool) : List (Bool × ℤ) → List Bool
  | [] => []
  | (a, b) :: l => (a && !(l.any fun x => x.1 && near b x.2)) :: dropMask near l

/-- Lines 237-239: `stop_idx` is the first index where the running count exceeds `r`; everything from there on is refused. -/
def truncMask (r : ℕ) : ℕ → List Bool → List Bool
  | _, [] => []
  | c, b :: l => if r < c + b.toNat then (b :: l).map fun _ => false else b :: truncMask r (c + b.toNat) l

/-- Boolean mask indexing. -/
def select {α : Type} (mask : List Bool) (xs : List α) : List α := ((mask.zip xs).filter fun x => x.1).map fun x => x.2

/-- Lines 233-234, `for i, b in enumerate(block[accept_filter]): voxels[b].append(i + num_accepted)`. -/
def appendVoxels : List ℤ → ℕ → (ℕ → List ℕ) → ℕ → List ℕ
  | [], _, v => v
  | b :: bs, i, v => appendVoxels bs (i + 1) fun t => if t = b.toNat then v t ++ [i] else v t

/-- Lines 201-243, one batch. -/
def step (dims : V3 K) (m s : K) (numC : ℕ) (st : State K) (new : List (V3 K)) : Py (State K) := do
  let n := Amo.numBlocks s dims
  let blocks := new.map (block s n)
  let cand ← (npUniqueIdx blocks).mapM (pyGet (blocks.zip new))
  let parts ← cand.mapM fun c => compareParts n st c.1
  let maxCompare := (parts.map List.length).foldl max 0
  let filter1 := (parts.zip cand).map fun x => passes dims m maxCompare x.1 x.2.2
  let filter2 := dropMask (nearBlock n) (filter1.zip (cand.map fun c => c.1))
  let voxels := appendVoxels (select filter2 (cand.map fun c => c.1)) st.accepted st.voxels
  let good := filter2.count true
  let filter3 := if numC < good + st.accepted then truncMask (numC - st.accepted) 0 filter2 else filter2
  return ⟨st.coords ++ select filter3 (cand.map fun c => c.2), voxels, st.accepted + good⟩

/-- Lines 198-245, the loop; `rng k` are the coordinates of the k-th batch before scaling. -/
def loop (dims : V3 K) (m s : K) (numC : ℕ) (rng : ℕ → List (V3 K)) : ℕ → ℕ → State K → Option (Py (List (V3 K)))
  | fuel, k, st =>
    if st.accepted < numC then
      match fuel with
      | 0 => none
      | fuel + 1 => match step dims m s numC st ((rng k).map (Amo.scale dims)) with
        | .error e => some (.error e)
        | .ok st' => loop dims m s numC rng fuel (k + 1) st'
    else some (.ok st.coords)

/-- Lines 160-245, `gen_p_substrate_batched(dims, min_dist, density, voxel_scale=…)`. -/
def gen (dims : V3 K) (m density scale : K) (rng : ℕ → List (V3 K)) (fuel : ℕ) : Option (Py (List (V3 K))) :=
  let numC := npRound (dims.x * dims.y * dims.z * density)
  if numC < 0 then some (.error .value) else loop dims m (m * scale) numC.toNat rng fuel 0 ⟨[], fun _ => [], 0⟩

end
end Batch
end CZ
