import Verif.Molecule

/-!
# Alpha shapes and neighbour graphs

Model of `czone/surface/alpha_shape.py` and of the graph functions of `czone/surface/adsorbate.py`.  The Delaunay triangulation
is a parameter: a list of tetrahedra with their neighbours as scipy returns them.
-/

namespace CZ
namespace Surf

/-- A row of `tri.simplices` with the row of `tri.neighbors`: `nb k` is the tetrahedron on the other side of the face opposite to
vertex `k`, -1 if there is none. -/
structure Tet where
  v : Fin 4 → ℕ
  nb : Fin 4 → ℤ

/-- `a[i]` of an array, negative indices count from the end. -/
def npTake {α : Type} (xs : List α) (i : ℤ) : Py α := do pyGet xs (← normIdx xs.length i)

/-- `a[row]` for a row of four indices. -/
def take4 {α : Type} (xs : List α) (i : Fin 4 → ℤ) : Py (Fin 4 → α) := do
  let a ← npTake xs (i 0)
  let b ← npTake xs (i 1)
  let c ← npTake xs (i 2)
  let d ← npTake xs (i 3)
  return fun k => match k with
    | 0 => a
    | 1 => b
    | 2 => c
    | 3 => d

noncomputable section
open Classical

/-- alpha_shape.py:9-48, the value for one tetrahedron; `none` stands for the values inf and nan of a division by zero. -/
def circumradius (p0 p1 p2 p3 : V3 ℝ) : Option ℝ :=
  let q1 := p1 - p0
  let q2 := p2 - p0
  let q3 := p3 - p0
  let l1 := q1.x * q1.x + q1.y * q1.y + q1.z * q1.z
  let l2 := q2.x * q2.x + q2.y * q2.y + q2.z * q2.z
  let l3 := q3.x * q3.x + q3.y * q3.y + q3.z * q3.z
  let dx := l1 * (q2.y * q3.z - q2.z * q3.y) - l2 * (q1.y * q3.z - q1.z * q3.y) + l3 * (q1.y * q2.z - q1.z * q2.y)
  let dy := l1 * (q2.x * q3.z - q2.z * q3.x) - l2 * (q1.x * q3.z - q1.z * q3.x) + l3 * (q1.x * q2.z - q1.z * q2.x)
  let dz := l1 * (q2.x * q3.y - q2.y * q3.x) - l2 * (q1.x * q3.y - q1.y * q3.x) + l3 * (q1.x * q2.y - q1.y * q2.x)
  let aa := q1.x * (q2.y * q3.z - q2.z * q3.y) - q2.x * (q1.y * q3.z - q1.z * q3.y) + q3.x * (q1.y * q2.z - q1.z * q2.y)
  let a := 2 * aa
  if a = 0 then none else some (norm3 ⟨dx / a, -dy / a, dz / a⟩)

/-- `circumradii <= probe_radius` (alpha_shape.py:75, 149, 151) for one tetrahedron: comparisons with inf and nan are False. -/
def within (r : ℝ) : Option ℝ → Bool
  | none => false
  | some c => decide (c ≤ r)

/-- alpha_shape.py:72-75, 145-151: the probe test of every tetrahedron with the corners taken from `pts`. -/
def probeTest (tets : List Tet) (pts : List (V3 ℝ)) (r : ℝ) : Py (List Bool) :=
  tets.mapM fun t => do
    let p ← take4 pts fun k => (t.v k : ℤ)
    return within r (circumradius (p 0) (p 1) (p 2) (p 3))

end

/-- alpha_shape.py:79, 155: tetrahedra with fewer than four neighbours. -/
def outside (tets : List Tet) : List Bool :=
  tets.map fun t => decide (((List.finRange 4).filter fun k => 0 ≤ t.nb k).length < 4)

/-- alpha_shape.py:86-88, 162-164, one row: some neighbour fails the probe test and lies on the outside.  The missing neighbour
-1 selects the last tetrahedron. -/
def nbCheck (probe out : List Bool) (t : Tet) : Py Bool := do
  let p ← take4 probe t.nb
  let o ← take4 out t.nb
  return (List.finRange 4).any fun k => !(p k) && o k

/-- alpha_shape.py:79-91, 155-167. -/
def surfaceTris (tets : List Tet) (probe : List Bool) : Py (List Bool) := do
  let nc ← tets.mapM (nbCheck probe (outside tets))
  return npAnd probe (npOr (outside tets) nc)

/-- alpha_shape.py:97, 173, one row: vertices whose opposite neighbour exists and passes the probe test. -/
def outRow (probe : List Bool) (t : Tet) : Py (List ℕ) := do
  let p ← take4 probe t.nb
  return ((List.finRange 4).filter fun k => !(decide (t.nb k = -1) || !(p k))).map t.v

/-- alpha_shape.py:95-97, 109, 171-173, 185: the returned indices.  `list(set(...))` has no repetitions; its order is not
specified. -/
def outPoints (tets : List Tet) (probe : List Bool) : Py (List ℕ) := do
  let s ← surfaceTris tets probe
  let sub ← npMask s tets
  let rows ← sub.mapM (outRow probe)
  return rows.flatten.dedup

/-- alpha_shape.py:106-107, 182-183: `np.nonzero` of the tetrahedra that are inside or pass the probe test. -/
def aTris (tets : List Tet) (probe : List Bool) : List ℕ :=
  let m := npNot (npAnd (outside tets) (npNot probe))
  (List.range m.length).filter fun i => m.getD i false

/-- The information returned with the indices (alpha_shape.py:99-109). -/
structure Shape where
  tets : List Tet
  surface : List Bool
  aTris : List ℕ

noncomputable section
open Classical

/-- Addition of noise row by row. -/
def addNoise (pts noise : List (V3 ℝ)) : List (V3 ℝ) := List.zipWith (· + ·) pts noise

/-- alpha_shape.py:50-111, `alpha_shape_alg_3D`; `del` is the Delaunay triangulation, the noise is given already scaled. -/
def alphaShape (del : List (V3 ℝ) → List Tet) (noise noise' points : List (V3 ℝ)) (r : ℝ) : Py (List ℕ × Shape) := do
  let pts := addNoise points noise
  let tets := del pts
  let probe ← probeTest tets (addNoise pts noise') r
  let s ← surfaceTris tets probe
  let o ← outPoints tets probe
  return (o, ⟨tets, s, aTris tets probe⟩)

/-- The loop of alpha_shape.py:141-151 over the samples `i, ..., N-1` with the probe test so far. -/
def sampleLoop (tets : List Tet) (noise : ℕ → List (V3 ℝ)) (points : List (V3 ℝ)) (r : ℝ) : ℕ → ℕ → List Bool → Py (List Bool)
  | 0, _, acc => .ok acc
  | n + 1, i, acc => do
    let p ← probeTest tets (addNoise points (noise i)) r
    sampleLoop tets noise points r n (i + 1) (npOr acc p)

/-- alpha_shape.py:113-187, `alpha_shape_alg_3D_with_sampling`.  Without samples the name `probe_test` is unbound. -/
def alphaShapeSampled (del : List (V3 ℝ) → List Tet) (noise : ℕ → List (V3 ℝ)) (n : ℕ) (points : List (V3 ℝ)) (r : ℝ) :
    Py (List ℕ × Shape) :=
  match n with
  | 0 => .error .unboundLocal
  | n + 1 => do
    let tets := del points
    let p0 ← probeTest tets (addNoise points (noise 0)) r
    let probe ← sampleLoop tets noise points r n 1 p0
    let s ← surfaceTris tets probe
    let o ← outPoints tets probe
    return (o, ⟨tets, s, aTris tets probe⟩)

end

/-! ## the neighbour graph -/

/-- `mat[i,j] = 1`. -/
def setEntry (m : ℕ → ℕ → ℕ) (i j : ℕ) : ℕ → ℕ → ℕ := Function.update m i (Function.update (m i) j 1)

/-- The pairs `i < j` of adsorbate.py:42-43, in order. -/
def pairs4 : List (Fin 4 × Fin 4) := [(0, 1), (0, 2), (0, 3), (1, 2), (1, 3), (2, 3)]

/-- adsorbate.py:41-47, one tetrahedron. -/
def addTet (m : ℕ → ℕ → ℕ) (s : Fin 4 → ℕ) : ℕ → ℕ → ℕ :=
  pairs4.foldl (fun m p => setEntry (setEntry m (s p.1) (s p.2)) (s p.2) (s p.1)) m

/-- `np.max(simplices)+1`; ValueError for no simplices. -/
def numVertices : List (Fin 4 → ℕ) → Py ℕ
  | [] => .error .value
  | s :: ss => .ok ((s :: ss).foldl (fun n s => max n (max (max (s 0) (s 1)) (max (s 2) (s 3)))) 0 + 1)

/-- adsorbate.py:26-49, `sparse_matrix_from_tri`: the size and the entries. -/
def sparseMatrix (simps : List (Fin 4 → ℕ)) : Py (ℕ × (ℕ → ℕ → ℕ)) := do
  let n ← numVertices simps
  return (n, simps.foldl addTet fun _ _ => 0)

/-- The same function on an array of shape (1,M,4), which it gets for `surface_only=False` because `a_tris` is a tuple
(adsorbate.py:135): `s[i]`, `s[j]` are the rows of the first four tetrahedra, and the entries are set column by column. -/
def sparseMatrixFull (simps : List (Fin 4 → ℕ)) : Py (ℕ × (ℕ → ℕ → ℕ)) := do
  let n ← numVertices simps
  let rows ← take4 simps fun k => (k.val : ℤ)
  return (n, pairs4.foldl (fun m p =>
    let m1 := (List.finRange 4).foldl (fun m k => setEntry m (rows p.1 k) (rows p.2 k)) m
    (List.finRange 4).foldl (fun m k => setEntry m (rows p.2 k) (rows p.1 k)) m1) fun _ _ => 0)

/-- `graph @ v`. -/
def matVec (n : ℕ) (m : ℕ → ℕ → ℕ) (v : List ℕ) : List ℕ :=
  (List.range n).map fun i => ((List.range n).map fun j => m i j * v.getD j 0).sum

/-- The loop of adsorbate.py:141-142. -/
def shells (n : ℕ) (m : ℕ → ℕ → ℕ) : ℕ → List ℕ → List ℕ
  | 0, v => v
  | k + 1, v => shells n m k (matVec n m v)

/-- adsorbate.py:112-145, `get_nearest_neighbors(target_idx, shape_dict, N_shells, surface_only)`. -/
def nearestNeighbors (target : ℕ) (sh : Shape) (nShells : ℕ) (surfaceOnly : Bool) : Py (List ℕ) := do
  let simps := sh.tets.map Tet.v
  let g ← if surfaceOnly then do sparseMatrix (← npMask sh.surface simps)
    else do sparseMatrixFull (← sh.aTris.mapM (pyGet simps))
  if target < g.1 then
    let v := (shells g.1 g.2 nShells ((List.replicate g.1 0).set target 1)).set target 0
    return (List.range v.length).filter fun i => v.getD i 0 ≠ 0
  else .error .index

end Surf
end CZ
