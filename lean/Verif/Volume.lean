import Verif.Generator
import Verif.Scene

/-!
# Volumes and MultiVolumes

Model of `czone/volume/volume.py`.  A Volume object is a record; a MultiVolume is a tree of volumes.  Sharing of one
object by several owners is not expressed here (see `Verif.Heap`).

External code is collected in `Env`: qhull (hull construction and point location), half-space intersection, the random
numbers and the amorphous block generator.
-/

namespace CZ

/-- External code used by volumes.

* `inHull pts tol p`: `Delaunay(pts).find_simplex(p, tol=tol) >= 0`, where the triangulation is of the hull vertices of
  `pts` (volume.py:247,306).
* `hullOk pts`: `ConvexHull(pts)` and `Delaunay` do not raise QhullError.
* `planesBox planes`: what `get_bounding_box` of algebraic.py:374-421 returns, vertices and status.
* `rng n`: the random streams available to the n-th call of `supply_atoms`.
* `substrate dims d`: coordinates returned by `gen_p_substrate(dims, d)`, which draws from a generator seeded with 0 in every call
  (amorphous_algorithms.py:76, 107). -/
structure Env where
  inHull : List (V3 ℝ) → ℝ → V3 ℝ → Bool
  hullOk : List (V3 ℝ) → Bool
  planesBox : List Plane → List (V3 ℝ) × ℤ
  rng : ℕ → ℕ → ℕ → ℕ → ℝ
  substrate : V3 ℝ → ℝ → List (V3 ℝ)

/-- What may be handed to a generator as bounding box: an (N,3) array, the empty array of shape (0,) left by the points
setter, an array of shape (3,), the tuple returned for planes, or None (volume.py:314-344). -/
inductive BBox
  | rows (ps : List (V3 ℝ))
  | cleared
  | single (p : V3 ℝ)
  | tuple (ps : List (V3 ℝ)) (status : ℤ)
  | none

noncomputable section
open Classical

/-- Attributes of an AmorphousGenerator (generator.py:347-363). -/
structure Amorph where
  origin : Option (V3 ℝ)
  density : ℝ
  minDist : ℝ
  species : ℤ
  useOld : Bool
  old : Option (List (V3 ℝ) × List ℤ)

/-- The generator classes (generator.py:62, 328, 425). -/
inductive GenObj
  | crystal (g : Gen ℝ)
  | amorphous (a : Amorph)
  | null

namespace GenObj

/-- `np.max(rows, axis=0) - np.min(rows, axis=0)` (generator.py:419-420). -/
def boxDims : List (V3 ℝ) → Py (V3 ℝ)
  | [] => .error .value
  | p :: ps => .ok (Voxel.maxV p ps - Voxel.minV p ps)

/-- `supply_atoms(bbox)`: generator.py:200-236, 415-422, 438-439.  The first component is the generator after the call.
Boxes that are not (N,3) arrays: `box - origin` in `get_extents` raises ValueError for shapes (0,) and for the tuple,
TypeError for None; a (3,) box makes `np.linalg.solve` raise ValueError (right-hand side without axes).  `np.max(..., axis=0)` raises ValueError for them, a (3,)
box gives a scalar, which `gen_p_substrate` turns into an array without axes and indexes (IndexError). -/
def supply (env : Env) (n : ℕ) : GenObj → BBox → GenObj × Py (List (V3 ℝ) × List ℤ)
  | .crystal g, b =>
    match g.voxel with
    | none => (.crystal g, .error .attribute)
    | some _ =>
      match b with
      | .rows ps => let r := g.supply (env.rng n) ps; (.crystal r.1, r.2)
      | .cleared => (.crystal g, .error .value)
      | .single _ => (.crystal g, .error .value)
      | .tuple _ _ => (.crystal g, .error .value)
      | .none => (.crystal g, .error .type)
  | .amorphous a, b =>
    match a.useOld, a.old with
    | true, some r => (.amorphous a, .ok r)
    | _, _ =>
      let dims : Py (V3 ℝ) := match b with
        | .rows ps => boxDims ps
        | .cleared => .error .value
        | .single _ => .error .index
        | .tuple _ _ => .error .value
        | .none => .error .value
      match dims with
      | .error e => (.amorphous a, .error e)
      | .ok d =>
        let cs := env.substrate d a.minDist
        let r := (cs, List.replicate cs.length a.species)
        (.amorphous { a with old := some r }, .ok r)
  | .null, _ => (.null, .ok ([], []))

/-- `generator.transform(t)`: generator.py:238-252; the other two classes have no such method. -/
def transform : GenObj → Tr ℝ → GenObj × Py Unit
  | .crystal g, t => let r := g.transform t; (.crystal r.1, r.2)
  | .amorphous a, _ => (.amorphous a, .error .attribute)
  | .null, _ => (.null, .error .attribute)

end GenObj

/-- The array held in `_points`: of shape (N,3), of shape (0,) after the points setter cleared it, or of shape (3,)
(volume.py:179, 261). -/
inductive PtsArr
  | arr (ps : List (V3 ℝ))
  | cleared
  | single (p : V3 ℝ)

/-- Attributes of a Volume (volume.py:131-145).  `hull` are the points of the ConvexHull object, `tri` the points the
Delaunay triangulation was made from (the code takes only the hull vertices of them, which span the same region). -/
structure Vol where
  points : Option PtsArr
  hull : Option (List (V3 ℝ))
  tri : Option (List (V3 ℝ))
  algs : List Alg
  gen : Option GenObj
  priority : ℤ
  tol : ℝ
  atoms : Option (List (V3 ℝ))
  species : Option (List ℤ)

namespace Vol

/-- volume.py:138-145, the attributes set before anything else. -/
def blank (tol : ℝ) : Vol := ⟨none, none, none, [], none, 0, tol, none, none⟩

/-- volume.py:241-247, `createHull`. -/
def createHull (env : Env) (v : Vol) : Vol × Py Unit :=
  match v.points with
  | some (.arr ps) =>
    if ¬ 3 < ps.length then (v, .error .assertion)
    else if env.hullOk ps then ({ v with hull := some ps, tri := some ps }, .ok ())
    else (v, .error .runtime)
  | some .cleared => (v, .error .assertion)
  | some (.single _) => (v, .error .assertion)
  | none => (v, .error .attribute)

/-- Rows of a point argument after `expand_dims`. -/
def rowsOf : PtArg → List (V3 ℝ)
  | .vec p => [p]
  | .rows ps => ps

/-- volume.py:270-274: the hull object is updated in place if there is one, otherwise it is created.  The triangulation
is not touched in the first case. -/
def updateHull (env : Env) (v : Vol) (ps : List (V3 ℝ)) : Vol × Py Unit :=
  match v.hull with
  | some h => ({ v with hull := some (h ++ ps) }, .ok ())
  | none => v.createHull env

/-- volume.py:249-274, `addPoints` (the shape assertions hold by type).  The first single point: `_points` is set, then
`np.expand_dims(points)` without axis raises TypeError.  Appending to an array of shape (0,) or (3,): ValueError. -/
def addPoints (env : Env) (v : Vol) (a : PtArg) : Vol × Py Unit :=
  match v.points with
  | none =>
    match a with
    | .vec p => ({ v with points := some (.single p) }, .error .type)
    | .rows ps => updateHull env { v with points := some (.arr ps) } ps
  | some (.arr qs) => updateHull env { v with points := some (.arr (qs ++ rowsOf a)) } (rowsOf a)
  | some .cleared => (v, .error .value)
  | some (.single _) => (v, .error .value)

/-- volume.py:176-182, the `points` setter. -/
def setPoints (env : Env) (v : Vol) (ps : List (V3 ℝ)) : Vol × Py Unit :=
  let v0 := { v with points := some .cleared }
  match addPoints env v0 (.rows ps) with
  | (v1, .error .assertion) => (v1, .error .value)
  | r => r

/-- volume.py:189-198, `add_alg_object`: a deep copy is appended. -/
def addAlg (v : Vol) (a : Alg) : Vol := { v with algs := v.algs ++ [a] }

/-- volume.py:225-235, `add_generator`; `none` as generator fails the isinstance test.  Setting the origin needs a
voxel; the Null generator has none. -/
def addGenerator (v : Vol) (g : Option GenObj) (origin : Option (V3 ℝ)) : Vol × Py Unit :=
  match g with
  | none => (v, .error .type)
  | some (.amorphous a) => ({ v with gen := some (.amorphous a) }, .ok ())
  | some (.crystal g) =>
    match origin with
    | none => ({ v with gen := some (.crystal g) }, .ok ())
    | some o =>
      match g.voxel with
      | none => (v, .error .attribute)
      | some x => ({ v with gen := some (.crystal { g with voxel := some { x with origin := o } }) }, .ok ())
  | some .null =>
    match origin with
    | none => ({ v with gen := some .null }, .ok ())
    | some _ => (v, .error .attribute)

/-- volume.py:131-165, `Volume(points, alg_objects, generator, priority, tolerance, gen_origin=...)`; points have shape
(N,3) by type, the priority is an int by type. -/
def make (env : Env) (points : Option (List (V3 ℝ))) (algs : List Alg) (gen : Option GenObj) (priority : ℤ) (tol : ℝ)
    (genOrigin : Option (V3 ℝ)) : Py Vol := do
  let v := blank tol
  let v ← match points with
    | none => pure v
    | some ps => match v.addPoints env (.rows ps) with
      | (v', .ok ()) => pure v'
      | (_, .error e) => .error e
  let v ← match gen with
    | none => pure v
    | some g => match v.addGenerator (some g) genOrigin with
      | (v', .ok ()) => pure v'
      | (_, .error e) => .error e
  return algs.foldl addAlg { v with priority := priority }

/-- volume.py:301-312, `checkIfInterior` on rows. -/
def check (env : Env) (v : Vol) (ps : List (V3 ℝ)) : List Bool :=
  let c0 := List.replicate ps.length true
  let c1 := match v.tri with
    | none => c0
    | some t => npAnd c0 (ps.map (env.inHull t v.tol))
  v.algs.foldl (fun c a => npAnd c (ps.map a.interior)) c1

/-- volume.py:298-299: a single point is expanded to one row. -/
def checkIfInterior (env : Env) (v : Vol) (a : PtArg) : List Bool := v.check env (rowsOf a)

/-- The answer for one row. -/
def interior (env : Env) (v : Vol) (p : V3 ℝ) : Bool :=
  (match v.tri with
    | none => true
    | some t => env.inHull t v.tol p) && v.algs.all (·.interior p)

/-- volume.py:543-547, the corners of `makeRectPrism(a, b, c)`. -/
def rectPrism (a b c : ℝ) : List (V3 ℝ) :=
  [⟨0, 0, 0⟩, ⟨a, 0, 0⟩, ⟨0, b, 0⟩, ⟨0, 0, c⟩, ⟨a, b, 0⟩, ⟨a, 0, c⟩, ⟨0, b, c⟩, ⟨a, b, c⟩]

/-- volume.py:549-554, `makeRectPrism(a, b, c, center)`. -/
def rectPrismAt (a b c : ℝ) : Option (V3 ℝ) → List (V3 ℝ)
  | none => rectPrism a b c
  | some ctr => (rectPrism a b c).map (· + (ctr - mean3 (rectPrism a b c)))

/-- volume.py:327-329, 337, 341: the isinstance filters. -/
def spheres (v : Vol) : List Sphere := v.algs.filterMap fun | .sphere s => some s | _ => none
def planes (v : Vol) : List Plane := v.algs.filterMap fun | .plane s => some s | _ => none
def cylinders (v : Vol) : List Cylinder := v.algs.filterMap fun | .cyl s => some s | _ => none

/-- volume.py:331, first sphere of smallest radius. -/
def smallest (s : Sphere) : List Sphere → Sphere
  | [] => s
  | t :: ts => if t.radius < s.radius then smallest t ts else smallest s ts

/-- volume.py:332-335, cube around a sphere (tolerance not included). -/
def sphereBox (s : Sphere) : List (V3 ℝ) :=
  let d := 2 * s.radius
  (rectPrism d d d).map (· + (s.center - (d / 2) • (⟨1, 1, 1⟩ : V3 ℝ)))

/-- volume.py:314-344, `get_bounding_box`. -/
def boundingBox (env : Env) (v : Vol) : Py BBox :=
  match v.points with
  | some (.arr ps) => .ok (.rows ps)
  | some .cleared => .ok .cleared
  | some (.single p) => .ok (.single p)
  | none =>
    match v.spheres with
    | s :: ss => .ok (.rows (sphereBox (smallest s ss)))
    | [] =>
      if 3 < v.planes.length then .ok (.tuple (env.planesBox v.planes).1 (env.planesBox v.planes).2)
      else match v.cylinders with
        | c :: _ => c.bbox.map BBox.rows
        | [] => .ok .none

/-- volume.py:347-353, `populate_atoms`; `n` numbers the call of `supply_atoms`. -/
def populate (env : Env) (n : ℕ) (v : Vol) : Vol × Py Unit :=
  match v.boundingBox env with
  | .error e => (v, .error e)
  | .ok b =>
    match v.gen with
    | none => (v, .error .attribute)
    | some g =>
      match g.supply env n b with
      | (g', .error e) => ({ v with gen := some g' }, .error e)
      | (g', .ok (cs, zs)) =>
        let v1 := { v with gen := some g' }
        let c := v1.check env cs
        match npMask c cs, npMask c zs with
        | .ok as, .ok ss => ({ v1 with atoms := some as, species := some ss }, .ok ())
        | .ok as, .error e => ({ v1 with atoms := some as }, .error e)
        | .error e, _ => (v1, .error e)

/-- volume.py:285-288, the loop over the algebraic objects, each transformed in place. -/
def transformAlgs (t : Tr ℝ) : List Alg → List Alg × Py Unit
  | [] => ([], .ok ())
  | a :: as =>
    match t.alg a with
    | (a', .error e) => (a' :: as, .error e)
    | (a', .ok ()) => let r := transformAlgs t as; (a' :: r.1, r.2)

/-- volume.py:285-291, what follows the treatment of the points. -/
def transformRest (v : Vol) (t : Tr ℝ) : Vol × Py Unit :=
  match transformAlgs t v.algs with
  | (as, .error e) => ({ v with algs := as }, .error e)
  | (as, .ok ()) =>
    let v1 := { v with algs := as }
    if t.locked then
      match v.gen with
      | none => (v1, .ok ())
      | some g => let r := g.transform t; ({ v1 with gen := some r.1 }, r.2)
    else (v1, .ok ())

/-- volume.py:276-291, `transform`.  For arrays of shape (0,) or (3,) in `_points` see the comments: the former cannot
be broadcast (ValueError), the latter stays one-dimensional and the setter raises ValueError as for (N,3). -/
def transform (env : Env) (v : Vol) (t : Tr ℝ) : Vol × Py Unit :=
  match v.points with
  | none => v.transformRest t
  | some .cleared => (v, .error .value)
  | some pts =>
    let ps := match pts with
      | .arr ps => ps
      | .single p => [p]
      | .cleared => []
    match v.setPoints env (ps.map t.apply) with
    | (v1, .error e) => (v1, .error e)
    | (v1, .ok ()) =>
      match v1.createHull env with
      | (v2, .error e) => (v2, .error e)
      | (v2, .ok ()) => v2.transformRest t

/-- volume.py:374-376, transformations one after another. -/
def transformAll (env : Env) (v : Vol) : List (Tr ℝ) → Vol × Py Unit
  | [] => (v, .ok ())
  | t :: ts =>
    match v.transform env t with
    | (v', .error e) => (v', .error e)
    | (v', .ok ()) => transformAll env v' ts

/-- volume.py:366-378, `from_volume(generator=..., transformation=ts)`; `gen = none` means the keyword is absent.  The
tolerance of the new volume is the default 1e-10.  `points` of shape (0,) or (3,) fail the assertion of the
constructor. -/
def fromVolume (env : Env) (v : Vol) (gen : Option (Option GenObj)) (ts : List (Tr ℝ)) : Py Vol := do
  let pts : Option (List (V3 ℝ)) ← match v.points with
    | none => pure none
    | some (.arr ps) => pure (some ps)
    | some _ => .error .assertion
  let w ← make env pts v.algs none v.priority (1 / 10 ^ 10) none
  let w ← match w.addGenerator (gen.getD v.gen) none with
    | (w', .ok ()) => pure w'
    | (_, .error e) => .error e
  match w.transformAll env ts with
  | (w', .ok ()) => pure w'
  | (_, .error e) => .error e

end Vol

/-- Python values as far as the priority setters distinguish them. -/
inductive PyVal
  | int (n : ℤ)
  | bool (b : Bool)
  | npInt (n : ℤ)
  | float (x : ℝ)
  | none
  | other

/-- volume.py:63-68, the `priority` setter: `isinstance(x, int)` also holds for bool, not for numpy integers.  Returns
the stored priority and the outcome. -/
def volPrioritySet (old : ℤ) : PyVal → ℤ × Py Unit
  | .int n => (n, .ok ())
  | .bool b => (if b then 1 else 0, .ok ())
  | _ => (old, .error .type)

/-- Volumes and MultiVolumes (volume.py:103, 381): a MultiVolume owns a list of volumes, has a priority and, after
`populate_atoms`, arrays of atoms and species. -/
inductive VTree
  | vol (v : Vol)
  | multi (vs : List VTree) (priority : ℤ) (held : Option (List (V3 ℝ) × List ℤ))

namespace VTree

/-- `priority`. -/
def priority : VTree → ℤ
  | .vol v => v.priority
  | .multi _ p _ => p

/-- `atoms` and `species` when both are present. -/
def held : VTree → Option (List (V3 ℝ) × List ℤ)
  | .vol v => match v.atoms, v.species with
    | some a, some s => some (a, s)
    | _, _ => none
  | .multi _ _ h => h

mutual
/-- `checkIfInterior` on rows: volume.py:293-312, 464-477. -/
def check (env : Env) : VTree → List (V3 ℝ) → List Bool
  | .vol v, ps => v.check env ps
  | .multi vs _ _, ps => checkList env vs ps (List.replicate ps.length false)
/-- The loop of volume.py:474-475. -/
def checkList (env : Env) : List VTree → List (V3 ℝ) → List Bool → List Bool
  | [], _, acc => acc
  | v :: vs, ps, acc => checkList env vs ps (npOr acc (check env v ps))
end

/-- The answer of `checkIfInterior` for a single point: the only entry of the answer array. -/
def interior (env : Env) (t : VTree) (p : V3 ℝ) : Bool := (t.check env [p]).headD false

/-- View of an owned volume used by the resolution loop of volume.py:486-503. -/
def toSceneObj (env : Env) (t : VTree) : SceneObj (V3 ℝ) ℤ :=
  { priority := t.priority, supply := .error .notImplemented, cur := t.held, interior := t.interior env }

/-- volume.py:484-503 of an already populated and sorted list: the concatenated arrays.  `np.vstack([])` raises
ValueError. -/
def resolve (env : Env) (s : List VTree) : Py (List (V3 ℝ) × List ℤ) := do
  let objs := s.map (toSceneObj env)
  let c ← Precedence.checks (objs.map Scene.toObj)
  if s.length = 0 then throw .value
  let sc : Scene (V3 ℝ) ℤ := ⟨some objs, some c, (0, 0)⟩
  let as ← Scene.allAtoms sc
  let ss ← Scene.allSpecies sc
  return (as, ss)

mutual
/-- `populate_atoms`: volume.py:347-353, 479-503.  The counter numbers the calls of `supply_atoms`. -/
def populate (env : Env) : VTree → ℕ → VTree × ℕ × Py Unit
  | .vol v, n => let r := v.populate env n; (.vol r.1, n + 1, r.2)
  | .multi vs p h, n =>
    match populateList env vs n with
    | (vs', n', .error e) => (.multi vs' p h, n', .error e)
    | (vs', n', .ok ()) =>
      let s := stableSort VTree.priority vs'
      match resolve env s with
      | .error e => (.multi s p h, n', .error e)
      | .ok r => (.multi s p (some r), n', .ok ())
/-- The loop of volume.py:481-482. -/
def populateList (env : Env) : List VTree → ℕ → List VTree × ℕ × Py Unit
  | [], n => ([], n, .ok ())
  | v :: vs, n =>
    match populate env v n with
    | (v', n', .error e) => (v' :: vs, n', .error e)
    | (v', n', .ok ()) => let r := populateList env vs n'; (v' :: r.1, r.2)
end

mutual
/-- `transform`: volume.py:276-291, 457-462. -/
def transform (env : Env) (t : Tr ℝ) : VTree → VTree × Py Unit
  | .vol v => let r := v.transform env t; (.vol r.1, r.2)
  | .multi vs p h => let r := transformList env t vs; (.multi r.1 p h, r.2)
/-- The loop of volume.py:461-462. -/
def transformList (env : Env) (t : Tr ℝ) : List VTree → List VTree × Py Unit
  | [] => ([], .ok ())
  | v :: vs =>
    match transform env t v with
    | (v', .error e) => (v' :: vs, .error e)
    | (v', .ok ()) => let r := transformList env t vs; (v' :: r.1, r.2)
end

mutual
/-- `from_volume`: volume.py:356-378, 505-521. -/
def fromVolume (env : Env) (gen : Option (Option GenObj)) (ts : List (Tr ℝ)) : VTree → Py VTree
  | .vol v => (v.fromVolume env gen ts).map VTree.vol
  | .multi vs p _ => (fromVolumeList env gen ts vs).map fun ws => .multi ws p none
/-- The loop of volume.py:518-519. -/
def fromVolumeList (env : Env) (gen : Option (Option GenObj)) (ts : List (Tr ℝ)) : List VTree → Py (List VTree)
  | [] => .ok []
  | v :: vs => do
    let w ← fromVolume env gen ts v
    let ws ← fromVolumeList env gen ts vs
    return w :: ws
end

end VTree

end

end CZ
