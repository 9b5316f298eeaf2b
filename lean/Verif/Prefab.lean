import Verif.Volume
import Verif.Snap
import Verif.Surface

/-!
# Prefabricated defect structures

Model of `czone/prefab/prefab.py` in exact reals.  `get_N_splits` is run with a bound on the number of passes, so the
builders return `none` when the splits are not found within the bound.
-/

namespace CZ

noncomputable section
open Classical

namespace Prefab

/-- pymatgen `Lattice.d_hkl`: `1 / sqrt(hkl @ G* @ hkl)` with `G*` the metric tensor of the reciprocal lattice
whose rows are `inv(M).T`; the value is the reciprocal length of `inv(M) @ hkl`.  An infinite result (all indices zero) is
marked as NaN; it does not occur in the callers, where `snap_plane_near_point` has raised before. -/
def dHkl (s : Struct ℝ) (h : V3 ℤ) : Py ℝ := do
  let R ← s.latticeMatrix.inv
  if norm3 (R.mulVec (millerV h)) = 0 then .error .nan else .ok (norm3 (R.mulVec (millerV h)))⁻¹

/-- `bbox[np.argmin(f), :]`: the first row with the smallest value. -/
def rowMin (f : V3 ℝ → ℝ) (p : V3 ℝ) : List (V3 ℝ) → V3 ℝ
  | [] => p
  | q :: qs => if f q < f p then rowMin f q qs else rowMin f p qs

/-- `bbox[np.argmax(f), :]`: the first row with the largest value. -/
def rowMax (f : V3 ℝ → ℝ) (p : V3 ℝ) : List (V3 ℝ) → V3 ℝ
  | [] => p
  | q :: qs => if f p < f q then rowMax f q qs else rowMax f p qs

/-- prefab.py:155-157, 396-398: `start` and `finish` in the bounding box.  None and the tuple returned for planes have no
attribute `T`; an array of shape (0,) cannot be multiplied; an array of shape (3,) cannot be indexed with `[i, :]`;
argmin of no rows raises ValueError. -/
def boxSpan (n : V3 ℝ) : BBox → Py (V3 ℝ × V3 ℝ)
  | .rows (p :: ps) => .ok (rowMin (n.dot ·) p ps, rowMax (n.dot ·) p ps)
  | .rows [] => .error .value
  | .cleared => .error .value
  | .single _ => .error .index
  | .tuple _ _ => .error .attribute
  | .none => .error .attribute

/-- prefab.py:159-163, 400-404: every sphere among the algebraic objects replaces the two points. -/
def sphereSpan (n : V3 ℝ) (algs : List Alg) (se : V3 ℝ × V3 ℝ) : V3 ℝ × V3 ℝ :=
  algs.foldl (fun r a => match a with
    | .sphere s => ((-1 * s.radius) • n, s.radius • n)
    | _ => r) se

/-- prefab.py:175-178, 416-419: the loop appending shifted planes. -/
def stack (n : V3 ℝ) (d : ℝ) : ℕ → V3 ℝ → Py (List Plane)
  | 0, _ => .ok []
  | k + 1, q => do
    let pl ← Plane.make n (q + d • n) (1 / 10 ^ 5)
    let rest ← stack n d k (q + d • n)
    return pl :: rest

/-- prefab.py:154-178, 395-419: the list `planes` for the unit vector `norm_vec`.  The volume must be a Volume: a
MultiVolume has no `get_bounding_box`, None has no attributes. -/
def candidates (env : Env) (g : Gen ℝ) (vol : Option VTree) (n : V3 ℝ) (h : V3 ℤ) : Py (Vol × List Plane) :=
  match vol with
  | none => .error .attribute
  | some (.multi _ _ _) => .error .attribute
  | some (.vol v) => do
    let b ← v.boundingBox env
    let se ← boxSpan n b
    let se := sphereSpan n v.algs se
    let sp ← snapPlane se.1 g h "floor"
    let ep ← snapPlane se.2 g h "ceil"
    match g.struct with
    | none => .error .attribute
    | some s => do
      let d ← dHkl s h
      let rest ← stack sp.normal d (npRound (ep.distFrom sp.point / d)).toNat sp.point
      return (v, sp :: rest)

/-- Loop state of prefab.py:187-212, 428-457: `gen_tmp`, `twin_last` or `polarity`, `vols`, and the two entries of
`defect_types`. -/
structure State where
  gen : Gen ℝ
  sign : ℤ
  vols : List VTree
  twin : Bool
  fault : Bool

/-- `planes[splits[i]]`. -/
def chosen (planes : List Plane) (splits : List ℤ) (i : ℕ) : Py Plane := do
  let k ← pyGet splits i
  Surf.npTake planes k

/-- prefab.py:193-204, one defect of the fcc prefabs: transformation and new value of `twin_last`; `draw` is the random
number, `pl` the plane of the defect. -/
def fccDefect (h : V3 ℤ) (ratio draw : ℝ) (pl : Py Plane) (g : Gen ℝ) (sign : ℤ) : Py (Tr ℝ × ℤ × Bool) :=
  if draw < ratio then
    match g.voxel with
    | none => .error .attribute
    | some v => .ok (.translation (((sign : ℝ) • v.sbases).mulVec
        ⟨1 / 3 * 1 * (h.x.sign : ℝ), 1 / 3 * 1 * (h.y.sign : ℝ), 1 / 3 * (-2) * (h.z.sign : ℝ)⟩) true false, sign, false)
  else do
    let p ← pl
    return (Tr.mkReflection p true false, sign * -1, true)

/-- `np.allclose(a, b)` for two points (rtol 1e-5, atol 1e-8). -/
def allclose (a b : V3 ℝ) : Prop :=
  |a.x - b.x| ≤ 1 / 10 ^ 8 + 1 / 10 ^ 5 * |b.x| ∧ |a.y - b.y| ≤ 1 / 10 ^ 8 + 1 / 10 ^ 5 * |b.y| ∧
    |a.z - b.z| ≤ 1 / 10 ^ 8 + 1 / 10 ^ 5 * |b.z|

/-- prefab.py:435-450, 460, one defect of the wurtzite prefab. -/
def wurtziteDefect (bz : V3 ℝ) (pl : Py Plane) (g : Gen ℝ) (sign : ℤ) : Py (Tr ℝ × ℤ × Bool) := do
  let p ← pl
  let p100 ← snapPlane p.point g ⟨0, 0, 1⟩ "nearest"
  let p200 ← snapPlane p.point g ⟨0, 0, 2⟩ "nearest"
  let bsf : ℝ := if allclose p100.point p200.point then 2 else 1
  match g.voxel with
  | none => .error .attribute
  | some v => .ok (.translation (((sign : ℝ) • v.sbases).mulVec ⟨bsf / 3 * 1, bsf / 3 * -1, bsf / 3 * 0⟩ + bz) true false,
      sign * -1, false)

/-- prefab.py:206-212, 452-457: the grain for one defect. -/
def addGrain (env : Env) (vol : Vol) (N : ℤ) (planes : List Plane) (splits : List ℤ) (i : ℕ) (d : Tr ℝ × ℤ × Bool) (st : State) :
    Py State := do
  let g ← st.gen.fromGenerator [d.1]
  let w ← vol.fromVolume env (some (some (.crystal g))) []
  let p ← chosen planes splits i
  let q ← Plane.make ((1 : ℝ) • p.normal) p.point (1 / 10 ^ 5)
  return ⟨g, d.2.1, st.vols ++ [.vol { w.addAlg (.plane q) with priority := N - (i + 1) }], st.twin || d.2.2, st.fault || !d.2.2⟩

/-- prefab.py:192-212, 433-460: the loop over `range(self.N)`; `defect i` is the part that differs between the prefabs. -/
def grains (env : Env) (vol : Vol) (N : ℤ) (planes : List Plane) (splits : List ℤ) (defect : ℕ → Py Plane → Gen ℝ → ℤ → Py (Tr ℝ × ℤ × Bool)) :
    ℕ → ℕ → State → Py State
  | 0, _, st => .ok st
  | k + 1, i, st => do
    let d ← defect i (chosen planes splits i) st.gen st.sign
    let st' ← addGrain env vol N planes splits i d st
    grains env vol N planes splits defect k (i + 1) st'

/-- prefab.py:185-187, 426-428 and the loop: the grains for given planes and splits. -/
def assemble (env : Env) (g : Gen ℝ) (vol : Vol) (N : ℤ) (planes : List Plane) (splits : List ℤ)
    (defect : ℕ → Py Plane → Gen ℝ → ℤ → Py (Tr ℝ × ℤ × Bool)) : Py State := do
  let g0 ← g.fromGenerator []
  let w ← vol.fromVolume env (some (some (.crystal g0))) []
  grains env vol N planes splits defect N.toNat 0 ⟨g0, 1, [.vol { w with priority := N }], false, false⟩

/-- Attributes of fccMixedTwinSF (prefab.py:57-82). -/
structure Fcc where
  gen : Option (Gen ℝ)
  vol : Option VTree
  ratio : ℝ
  N : ℤ
  minSep : ℤ
  plane : V3 ℤ

/-- prefab.py:111-142, `fccMixedTwinSF(generator, volume, ratio, N, min_sep, plane)`: the assertions of the setters.  Miller
indices are three ints by type. -/
def Fcc.make (gen : Option GenObj) (vol : Option VTree) (ratio : ℝ) (N minSep : ℤ) (plane : V3 ℤ) : Py Fcc :=
  if ¬ (0 ≤ ratio ∧ ratio ≤ 1) then .error .assertion
  else match gen with
    | none => .ok ⟨none, vol, ratio, N, minSep, plane⟩
    | some (.crystal g) => .ok ⟨some g, vol, ratio, N, minSep, plane⟩
    | some _ => .error .assertion

/-- prefab.py:147-217, `build_object(return_defect_types=True)`: the MultiVolume, and `defect_types["twin"]`,
`defect_types["stacking_fault"]`.  `split` and `fuel` belong to `get_N_splits`, `rand i` is the i-th `np.random.rand()`.  A zero
`norm_vec` (all indices zero or singular bases) would give NaN coordinates. -/
def Fcc.build (env : Env) (p : Fcc) (split : ℕ → ℕ) (fuel : ℕ) (rand : ℕ → ℝ) : Option (Py (VTree × Bool × Bool)) :=
  match p.gen with
  | none => some (.error .attribute)
  | some g =>
    match g.voxel with
    | none => some (.error .attribute)
    | some x =>
      match unitOrNan (x.bases.mulVec (millerV p.plane)) with
      | .error e => some (.error e)
      | .ok n =>
        match candidates env g p.vol n p.plane with
        | .error e => some (.error e)
        | .ok (v, planes) =>
          match Splits.getNSplits p.N p.minSep planes.length split fuel with
          | none => none
          | some (.error e) => some (.error e)
          | some (.ok splits) =>
            some ((assemble env g v p.N planes splits.reverse
              (fun i => fccDefect p.plane p.ratio (rand i))).map fun st => (.multi st.vols 0 none, st.twin, st.fault))

/-- prefab.py:220-256 fccStackingFault and 258-294 fccTwin: `ratio` is overridden. -/
def Fcc.stackingFault (gen : Option GenObj) (vol : Option VTree) (N minSep : ℤ) (plane : V3 ℤ) : Py Fcc :=
  Fcc.make gen vol 1 N minSep plane
def Fcc.twins (gen : Option GenObj) (vol : Option VTree) (N minSep : ℤ) (plane : V3 ℤ) : Py Fcc :=
  Fcc.make gen vol 0 N minSep plane

/-- Attributes of wurtziteStackingFault (prefab.py:320-337). -/
structure Wurtzite where
  gen : Option (Gen ℝ)
  vol : Option VTree
  N : ℤ
  minSep : ℤ

/-- prefab.py:388-465, `build_object`. -/
def Wurtzite.build (env : Env) (p : Wurtzite) (split : ℕ → ℕ) (fuel : ℕ) : Option (Py VTree) :=
  match p.gen with
  | none => some (.error .attribute)
  | some g =>
    match g.voxel with
    | none => some (.error .attribute)
    | some x =>
      match x.reciprocalBases with
      | .error e => some (.error e)
      | .ok R =>
        match unitOrNan (R.mulVec (millerV ⟨0, 0, 2⟩)) with
        | .error e => some (.error e)
        | .ok n =>
          match candidates env g p.vol n ⟨0, 0, 2⟩ with
          | .error e => some (.error e)
          | .ok (v, planes) =>
            match Splits.getNSplits p.N p.minSep planes.length split fuel with
            | none => none
            | some (.error e) => some (.error e)
            | some (.ok splits) =>
              some ((assemble env g v p.N planes splits.reverse
                (fun _ => wurtziteDefect (((1 / 2 : ℝ) • x.sbases).mulVec ⟨0, 0, -1⟩))).map fun st => .multi st.vols 0 none)

/-- What may be stored in `SimpleGrainBoundary.plane`: a Plane object or something else (Miller indices, None). -/
inductive BoundaryPlane
  | plane (p : Plane)
  | other

/-- Attributes of SimpleGrainBoundary (prefab.py:473-493); `r1`, `r2` are stored and `point` is not stored; none of them is
read. -/
structure Boundary where
  z1 : V3 ℝ
  z2 : V3 ℝ
  plane : BoundaryPlane
  vol : Option VTree
  gen : Option GenObj

/-- prefab.py:473-493, `SimpleGrainBoundary(z1, r1, z2, r2, plane, point, volume, generator)`; zone axes have three entries by
type. -/
def Boundary.make {R P : Type} (z1 : V3 ℝ) (_r1 : R) (z2 : Option (V3 ℝ)) (_r2 : R) (plane : BoundaryPlane) (_point : P)
    (vol : Option VTree) (gen : Option GenObj) : Boundary :=
  ⟨z1, z2.getD z1, plane, vol, gen⟩

/-- volume.py:189-198 on a tree: only a Volume has `add_alg_object`; anything but an algebraic object fails the
assertion. -/
def addPlane : VTree → BoundaryPlane → Py VTree
  | .vol v, .plane p => .ok (.vol (v.addAlg (.plane p)))
  | .vol _, .other => .error .assertion
  | .multi _ _ _, _ => .error .attribute

/-- `vol.priority += 1`. -/
def bump : VTree → VTree
  | .vol v => .vol { v with priority := v.priority + 1 }
  | .multi vs p h => .multi vs (p + 1) h

/-- prefab.py:524-540, `build_object`. -/
def Boundary.build (env : Env) (b : Boundary) : Py VTree :=
  match b.gen with
  | some (.crystal g) =>
    match g.voxel with
    | none => .error .attribute
    | some x => do
      let r1 ← Tr.mkRotationOf (Tr.rotVtv (x.sbases.mulVec b.z1) ⟨0, 0, 1⟩) none true false
      let r2 ← Tr.mkRotationOf (Tr.rotVtv (x.sbases.mulVec b.z2) ⟨0, 0, 1⟩) none true false
      let g1 ← g.fromGenerator [r1]
      let g2 ← g.fromGenerator [r2]
      match b.vol with
      | none => .error .attribute
      | some t => do
        let v1 ← t.fromVolume env (some (some (.crystal g1))) []
        let v1 ← addPlane v1 b.plane
        let v2 ← t.fromVolume env (some (some (.crystal g2))) []
        return .multi [v1, bump v2] 0 none
  | _ => .error .attribute

end Prefab

end

end CZ
