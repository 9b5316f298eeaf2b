import Verif.Rounded
import Verif.Amorphous

/-!
# Amorphous blocks in rounded arithmetic

`gen_p_substrate` (czone/generator/amorphous_algorithms.py:72-158) as in `Amorphous`, with every operation on coordinates rounded.
Voxel lists and neighbour lists hold integers and are taken over.
-/

namespace CZ
namespace Fl
namespace Amo

noncomputable section

open Classical

variable (A : Arith)

/-- amorphous_algorithms.py:12-20, `get_p_dist` for one coordinate. -/
def pDist (dims c new : V3 ℝ) : ℝ :=
  let d0 : V3 ℝ := ⟨|A.rnd (c.x - new.x)|, |A.rnd (c.y - new.y)|, |A.rnd (c.z - new.z)|⟩
  sumSq A ⟨min d0.x (A.rnd (dims.x - d0.x)), min d0.y (A.rnd (dims.y - d0.y)), d0.z⟩

/-- Line 45, `np.ceil(dims / min_dist).astype(int)`. -/
def numBlocks (m : ℝ) (dims : V3 ℝ) : ℕ × ℕ × ℕ :=
  (⌈A.rnd (dims.x / m)⌉.toNat, ⌈A.rnd (dims.y / m)⌉.toNat, ⌈A.rnd (dims.z / m)⌉.toNat)

/-- Line 135, `np.floor(new_coord / min_dist).astype(int)`. -/
def block (m : ℝ) (p : V3 ℝ) : ℤ × ℤ × ℤ := (⌊A.rnd (p.x / m)⌋, ⌊A.rnd (p.y / m)⌋, ⌊A.rnd (p.z / m)⌋)

/-- Lines 133-156, one draw.  `m2` is `min_dist**2.0` as the C library computes it. -/
def tryCoord (dims : V3 ℝ) (m m2 : ℝ) (st : CZ.Amo.State ℝ) (new : V3 ℝ) : Py (Option (CZ.Amo.State ℝ)) := do
  let b := block A m new
  let tlist ← CZ.Amo.neighbours (numBlocks A m dims) b
  let parts := tlist.flatMap st.voxels
  let ps ← parts.mapM (pyGet st.coords)
  if ps.any fun c => decide (pDist A dims c new < m2) then return none
  else
    let t := (b.1.toNat, b.2.1.toNat, b.2.2.toNat)
    return some ⟨st.coords ++ [new], fun s => if s = t then st.voxels s ++ [st.coords.length] else st.voxels s⟩

/-- Lines 133 and 144, `rng.uniform(size=(1, 3)) * dims`. -/
def scale (dims u : V3 ℝ) : V3 ℝ := ⟨A.rnd (u.x * dims.x), A.rnd (u.y * dims.y), A.rnd (u.z * dims.z)⟩

/-- Lines 130-156, the loops. -/
def loop (dims : V3 ℝ) (m m2 : ℝ) (numC : ℕ) (rng : ℕ → V3 ℝ) : ℕ → ℕ → CZ.Amo.State ℝ → Option (Py (List (V3 ℝ)))
  | fuel, k, st =>
    if st.coords.length < numC then
      match fuel with
      | 0 => none
      | fuel + 1 => match tryCoord A dims m m2 st (scale A dims (rng k)) with
        | .error e => some (.error e)
        | .ok none => loop dims m m2 numC rng fuel (k + 1) st
        | .ok (some st') => loop dims m m2 numC rng fuel (k + 1) st'
    else some (.ok st.coords)

/-- Lines 72-158, `gen_p_substrate(dims, min_dist, density)`. -/
def genPSubstrate (dims : V3 ℝ) (m m2 density : ℝ) (rng : ℕ → V3 ℝ) (fuel : ℕ) : Option (Py (List (V3 ℝ))) :=
  let numC := npRound (A.rnd (A.rnd (A.rnd (dims.x * dims.y) * dims.z) * density))
  if numC < 0 then some (.error .value) else loop A dims m m2 numC.toNat rng fuel 0 ⟨[], fun _ => []⟩

end
end Amo
end Fl
end CZ
