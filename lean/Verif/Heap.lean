import Verif.Volume
import Mathlib.Logic.Function.Basic

/-!
# Objects and references

The other modules describe objects as values.  Here objects live in a store and refer to each other, so that copies,
sharing and in-place changes can be expressed.  Stored objects: algebraic surfaces, voxels, strain fields, generators,
volumes and MultiVolumes.  Arrays, structures and post transforms are never changed in place by the modelled methods and
are kept as values.  Every object gets the next free address.
-/

namespace CZ

/-- Addresses. -/
scoped notation "Ref" => ℕ

noncomputable section
open Classical

/-- A crystalline Generator (generator.py:87-104) refers to its voxel and its strain field; the strain field given by the user is
stored without copying (generator.py:181-184). -/
structure GenFields where
  struct : Option (Struct ℝ)
  voxel : Option Ref
  strain : Option Ref
  post : Option (Post ℝ)

/-- A generator object. -/
inductive GenCell
  | crystal (c : GenFields)
  | amorphous (a : Amorph)
  | null

/-- A Volume (volume.py:131-145) refers to its surfaces and its generator. -/
structure VolFields where
  points : Option PtsArr
  hull : Option (List (V3 ℝ))
  tri : Option (List (V3 ℝ))
  algs : List Ref
  gen : Option Ref
  priority : ℤ
  tol : ℝ
  atoms : Option (List (V3 ℝ))
  species : Option (List ℤ)

/-- A Volume or MultiVolume object (volume.py:381-424). -/
inductive VolCell
  | vol (c : VolFields)
  | multi (vs : List Ref) (priority : ℤ) (held : Option (List (V3 ℝ) × List ℤ))

/-- The store.  Addresses below `next` are in use. -/
structure Heap where
  alg : Ref → Alg
  voxel : Ref → Voxel ℝ
  strain : Ref → HStrain ℝ
  gen : Ref → GenCell
  vol : Ref → VolCell
  next : Ref

namespace Heap

/-! ## Reading objects as values -/

/-- The value of a generator object. -/
def genVal (h : Heap) (r : Ref) : GenObj :=
  match h.gen r with
  | .crystal c => .crystal ⟨c.struct, c.voxel.map h.voxel, c.strain.map h.strain, c.post⟩
  | .amorphous a => .amorphous a
  | .null => .null

/-- The value of a Volume with the given attributes. -/
def fieldsVal (h : Heap) (c : VolFields) : Vol :=
  ⟨c.points, c.hull, c.tri, c.algs.map h.alg, c.gen.map h.genVal, c.priority, c.tol, c.atoms, c.species⟩

/-- The value of a Volume or MultiVolume; `fuel` bounds the nesting that is followed. -/
def treeVal (h : Heap) : ℕ → Ref → VTree
  | 0, _ => .multi [] 0 none
  | fuel + 1, r =>
    match h.vol r with
    | .vol c => .vol (h.fieldsVal c)
    | .multi vs p hd => .multi (vs.map (h.treeVal fuel)) p hd

/-! ## Writing -/

/-- Assignment through an optional reference. -/
def putOpt {α : Type} (f : Ref → α) : Option Ref → Option α → Ref → α
  | some x, some v => Function.update f x v
  | _, _ => f

/-- In-place update of the attributes reached from a generator object: `voxel.bases`, `voxel.origin` (generator.py:247, 252),
the strain field's origin and bases (strain.py:46-50), `_old_result` (generator.py:421). -/
def putGen (h : Heap) (r : Ref) (g : GenObj) : Heap :=
  match h.gen r, g with
  | .crystal c, .crystal g =>
    { h with voxel := putOpt h.voxel c.voxel g.voxel, strain := putOpt h.strain c.strain g.strain }
  | .amorphous _, .amorphous a => { h with gen := Function.update h.gen r (.amorphous a) }
  | _, _ => h

/-- Assignment to attributes of a Volume other than its surfaces and its generator. -/
def putVol (h : Heap) (r : Ref) (c : VolFields) (v : Vol) : Heap :=
  { h with vol := Function.update h.vol r (.vol { c with
      points := v.points, hull := v.hull, tri := v.tri, priority := v.priority, tol := v.tol, atoms := v.atoms,
      species := v.species }) }

/-- A new algebraic object. -/
def newAlg (h : Heap) (a : Alg) : Heap × Ref :=
  ({ h with alg := Function.update h.alg h.next a, next := h.next + 1 }, h.next)

/-- `copy.deepcopy` of an algebraic object. -/
def copyAlg (h : Heap) (r : Ref) : Heap × Ref := h.newAlg (h.alg r)

/-- A new generator object with the given value; voxel and strain field are new objects. -/
def newGen (h : Heap) : GenObj → Heap × Ref
  | .crystal g =>
    ({ h with
        voxel := putOpt h.voxel (some (h.next + 1)) g.voxel
        strain := putOpt h.strain (some (h.next + 2)) g.strain
        gen := Function.update h.gen h.next
          (.crystal ⟨g.struct, g.voxel.map fun _ => h.next + 1, g.strain.map fun _ => h.next + 2, g.post⟩)
        next := h.next + 3 }, h.next)
  | .amorphous a => ({ h with gen := Function.update h.gen h.next (.amorphous a), next := h.next + 3 }, h.next)
  | .null => ({ h with gen := Function.update h.gen h.next .null, next := h.next + 3 }, h.next)

/-- `copy.deepcopy` of a generator: voxel and strain field are copied with it. -/
def copyGen (h : Heap) (r : Ref) : Heap × Ref := h.newGen (h.genVal r)

/-! ## Methods of generators and surfaces -/

/-- `transformation.applyTransformation_alg(obj)` changes the object and returns it (transform.py:139-148, 215-244). -/
def transformAlg (h : Heap) (r : Ref) (t : Tr ℝ) : Heap × Py Unit :=
  let a := t.alg (h.alg r)
  ({ h with alg := Function.update h.alg r a.1 }, a.2)

/-- generator.py:238-252. -/
def transformGen (h : Heap) (r : Ref) (t : Tr ℝ) : Heap × Py Unit :=
  let g := (h.genVal r).transform t
  (h.putGen r g.1, g.2)

/-- generator.py:200-236, 415-422, 438-439. -/
def supplyGen (env : Env) (n : ℕ) (h : Heap) (r : Ref) (b : BBox) : Heap × Py (List (V3 ℝ) × List ℤ) :=
  let g := (h.genVal r).supply env n b
  (h.putGen r g.1, g.2)

/-- generator.py:52-58, the loop of `from_generator`. -/
def transformGenAll (h : Heap) (r : Ref) : List (Tr ℝ) → Heap × Py Unit
  | [] => (h, .ok ())
  | t :: ts =>
    match h.transformGen r t with
    | (h', .ok ()) => transformGenAll h' r ts
    | (h', .error e) => (h', .error e)

/-- generator.py:46-60, `from_generator(transformation=ts)`. -/
def fromGenerator (h : Heap) (r : Ref) (ts : List (Tr ℝ)) : Heap × Py Ref :=
  let c := h.copyGen r
  match c.1.transformGenAll c.2 ts with
  | (h', .ok ()) => (h', .ok c.2)
  | (h', .error e) => (h', .error e)

/-- algebraic.py:63-67, the loop of `from_alg_object`. -/
def transformAlgAll (h : Heap) (r : Ref) : List (Tr ℝ) → Heap × Py Unit
  | [] => (h, .ok ())
  | t :: ts =>
    match h.transformAlg r t with
    | (h', .ok ()) => transformAlgAll h' r ts
    | (h', .error e) => (h', .error e)

/-- algebraic.py:54-69, `from_alg_object(transformation=ts)`. -/
def fromAlgObject (h : Heap) (r : Ref) (ts : List (Tr ℝ)) : Heap × Py Ref :=
  let c := h.copyAlg r
  match c.1.transformAlgAll c.2 ts with
  | (h', .ok ()) => (h', .ok c.2)
  | (h', .error e) => (h', .error e)

/-! ## Methods of Volume -/

/-- volume.py:189-198, `add_alg_object(obj)`: a deep copy is appended. -/
def addAlg (h : Heap) (r : Ref) (c : VolFields) (a : Ref) : Heap :=
  let k := h.copyAlg a
  { k.1 with vol := Function.update k.1.vol r (.vol { c with algs := c.algs ++ [k.2] }) }

/-- volume.py:232-233, `new_generator.voxel.origin = origin` on the copy. -/
def setVoxelOrigin (h : Heap) (g : Ref) (o : V3 ℝ) : Heap × Py Unit :=
  match h.gen g with
  | .crystal c =>
    match c.voxel with
    | none => (h, .error .attribute)
    | some x => ({ h with voxel := Function.update h.voxel x { h.voxel x with origin := o } }, .ok ())
  | .amorphous _ => (h, .ok ())
  | .null => (h, .error .attribute)

/-- volume.py:225-235, `add_generator(generator, origin)`: a deep copy is attached. -/
def addGenerator (h : Heap) (r : Ref) (c : VolFields) (g : Option Ref) (origin : Option (V3 ℝ)) : Heap × Py Unit :=
  match g with
  | none => (h, .error .type)
  | some g =>
    let k := h.copyGen g
    match (match origin with
      | none => (k.1, .ok ())
      | some o => k.1.setVoxelOrigin k.2 o : Heap × Py Unit) with
    | (h', .error e) => (h', .error e)
    | (h', .ok ()) => ({ h' with vol := Function.update h'.vol r (.vol { c with gen := some k.2 }) }, .ok ())

/-- volume.py:285-288, the loop over the surfaces. -/
def transformAlgs (t : Tr ℝ) : Heap → List Ref → Heap × Py Unit
  | h, [] => (h, .ok ())
  | h, a :: as =>
    match h.transformAlg a t with
    | (h', .error e) => (h', .error e)
    | (h', .ok ()) => transformAlgs t h' as

/-- volume.py:285-291. -/
def transformRest (h : Heap) (c : VolFields) (t : Tr ℝ) : Heap × Py Unit :=
  match transformAlgs t h c.algs with
  | (h', .error e) => (h', .error e)
  | (h', .ok ()) =>
    if t.locked then
      match c.gen with
      | none => (h', .ok ())
      | some g => h'.transformGen g t
    else (h', .ok ())

/-- volume.py:276-291, `transform` of a Volume.  Points and hull are attributes of the object itself and are treated as in
`Vol.transform`. -/
def transformVol (env : Env) (h : Heap) (r : Ref) (c : VolFields) (t : Tr ℝ) : Heap × Py Unit :=
  match c.points with
  | none => h.transformRest c t
  | some .cleared => (h, .error .value)
  | some pts =>
    let ps := match pts with
      | .arr ps => ps
      | .single p => [p]
      | .cleared => []
    match (h.fieldsVal c).setPoints env (ps.map t.apply) with
    | (v1, .error e) => (h.putVol r c v1, .error e)
    | (v1, .ok ()) =>
      match v1.createHull env with
      | (v2, .error e) => (h.putVol r c v2, .error e)
      | (v2, .ok ()) => (h.putVol r c v2).transformRest c t

/-- volume.py:347-353, `populate_atoms` of a Volume. -/
def populateVol (env : Env) (n : ℕ) (h : Heap) (r : Ref) (c : VolFields) : Heap × Py Unit :=
  match (h.fieldsVal c).boundingBox env with
  | .error e => (h, .error e)
  | .ok b =>
    match c.gen with
    | none => (h, .error .attribute)
    | some g =>
      match h.supplyGen env n g b with
      | (h', .error e) => (h', .error e)
      | (h', .ok (cs, zs)) =>
        let v1 := h'.fieldsVal c
        let m := v1.check env cs
        match npMask m cs, npMask m zs with
        | .ok as, .ok ss => (h'.putVol r c { v1 with atoms := some as, species := some ss }, .ok ())
        | .ok as, .error e => (h'.putVol r c { v1 with atoms := some as }, .error e)
        | .error e, _ => (h', .error e)

/-- A new Volume object with the given attributes. -/
def newVol (h : Heap) (c : VolFields) : Heap × Ref :=
  ({ h with vol := Function.update h.vol h.next (.vol c), next := h.next + 1 }, h.next)

/-- volume.py:163-165, the loop of the constructor over the given surfaces; `c` are the attributes so far. -/
def addAlgs (h : Heap) (r : Ref) (c : VolFields) : List Ref → Heap × VolFields
  | [] => (h, c)
  | a :: as =>
    let h' := h.addAlg r c a
    addAlgs h' r { c with algs := c.algs ++ [h.next] } as

/-- volume.py:374-376, transformations one after another. -/
def transformVolAll (env : Env) (h : Heap) (r : Ref) : List (Tr ℝ) → Heap × Py Unit
  | [] => (h, .ok ())
  | t :: ts =>
    match h.vol r with
    | .multi _ _ _ => (h, .error .attribute)
    | .vol c =>
      match h.transformVol env r c t with
      | (h', .error e) => (h', .error e)
      | (h', .ok ()) => transformVolAll env h' r ts

/-- volume.py:356-378, `from_volume(generator=..., transformation=ts)` of a Volume; `gen = none` means the keyword is absent. -/
def fromVolume (env : Env) (h : Heap) (c : VolFields) (gen : Option (Option Ref)) (ts : List (Tr ℝ)) : Heap × Py Ref :=
  match (match c.points with
    | none => (.ok none : Py (Option (List (V3 ℝ))))
    | some (.arr ps) => .ok (some ps)
    | some _ => .error .assertion) with
  | .error e => (h, .error e)
  | .ok pts =>
    match Vol.make env pts [] none c.priority (1 / 10 ^ 10) none with
    | .error e => (h, .error e)
    | .ok w =>
      let k := h.newVol ⟨w.points, w.hull, w.tri, [], none, w.priority, w.tol, w.atoms, w.species⟩
      let s := k.1.addAlgs k.2 ⟨w.points, w.hull, w.tri, [], none, w.priority, w.tol, w.atoms, w.species⟩ c.algs
      match s.1.addGenerator k.2 s.2 (gen.getD c.gen) none with
      | (h', .error e) => (h', .error e)
      | (h', .ok ()) =>
        match h'.transformVolAll env k.2 ts with
        | (h'', .error e) => (h'', .error e)
        | (h'', .ok ()) => (h'', .ok k.2)

/-! ## MultiVolume -/

/-- A new MultiVolume object owning the given objects (volume.py:404-411, 426-444: the references are stored). -/
def newMulti (h : Heap) (vs : List Ref) (priority : ℤ) : Heap × Ref :=
  ({ h with vol := Function.update h.vol h.next (.multi vs priority none), next := h.next + 1 }, h.next)

mutual
/-- `transform` of a Volume or MultiVolume, volume.py:276-291, 457-462; `fuel` is what is left of the recursion limit of the
interpreter (RecursionError is a RuntimeError). -/
def transformV (env : Env) (t : Tr ℝ) : ℕ → Heap → Ref → Heap × Py Unit
  | 0, h, _ => (h, .error .runtime)
  | fuel + 1, h, r =>
    match h.vol r with
    | .vol c => h.transformVol env r c t
    | .multi vs _ _ => transformVs env t fuel h vs
/-- The loop of volume.py:461-462. -/
def transformVs (env : Env) (t : Tr ℝ) : ℕ → Heap → List Ref → Heap × Py Unit
  | _, h, [] => (h, .ok ())
  | fuel, h, v :: vs =>
    match transformV env t fuel h v with
    | (h', .error e) => (h', .error e)
    | (h', .ok ()) => transformVs env t fuel h' vs
end

end Heap
end
end CZ
