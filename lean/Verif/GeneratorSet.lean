import Verif.Generator

/-!
# Assignments to crystalline generators and their voxels

Model of the property setters of `czone/volume/voxel.py` and of Generator in `czone/generator/generator.py` over histories of
assignments and calls, on values of several kinds.  Entries of arrays are finite numbers; 3x3 arrays of strings are not modelled.  A voxel
given to a generator is not changed elsewhere (for shared voxels see `Sharing`).
-/

namespace CZ
namespace GenSet

/-- What is assigned to `scale`, after `np.array`: a number or an array that fits (see `Scale`), an array with more than two axes that
broadcasts with shape (3,3), an array of numbers that does not, something that cannot be multiplied with a number. -/
inductive ScaleArg (K : Type)
  | fits (s : Scale K)
  | deep
  | misfit
  | noNumber

/-- What is assigned to `bases`, after `np.array`: shape (3,3) or another shape. -/
inductive BasesArg (K : Type)
  | mat (B : M3 K)
  | misfit

/-- What is assigned to `origin`: a numpy array of shape (3,), one of another shape (numpy numbers included), an object without `shape`:
lists, tuples, Python numbers, None. -/
inductive OriginArg (K : Type)
  | vec (o : V3 K)
  | misfit
  | noShape

/-- An object of the class asked for, or something else. -/
inductive Obj (α : Type)
  | of (a : α)
  | other

/-- The attribute `_scale`. -/
inductive ScaleVal (K : Type)
  | flat (s : Scale K)
  | deep

/-- voxel.py:22-31, the attributes of a Voxel. -/
structure Vox (K : Type) where
  bases : M3 K
  scale : ScaleVal K
  origin : V3 K

/-- generator.py:87-104, the attributes of a Generator. -/
structure St (K : Type) where
  struct : Option (Struct K)
  voxel : Option (Vox K)
  strain : Option (HStrain K)
  post : Option (Post K)

/-- Assignments and calls: the setters of Generator, those of its voxel (`g.voxel.bases = x`), `transform` and `supply_atoms`. -/
inductive Op (K : Type)
  | structure_ (x : Obj (Struct K))
  | origin (x : OriginArg K)
  | voxel (x : Obj (Vox K))
  | strain (x : Obj (HStrain K))
  | post (x : Obj (Post K))
  | bases (x : BasesArg K)
  | scale (x : ScaleArg K)
  | voxelOrigin (x : OriginArg K)
  | transform (x : Obj (Tr K))
  | supply (rng : ℕ → ℕ → ℕ → K) (bbox : List (V3 K))

section
variable {K : Type} [Field K] [LinearOrder K]

/-- voxel.py:38-47, the `scale` setter: only ValueError is caught, and raised again. -/
def scaleStore : ScaleArg K → Py (ScaleVal K)
  | .fits s => .ok (.flat s)
  | .deep => .ok .deep
  | .misfit => .error .value
  | .noNumber => .error .type

/-- voxel.py:54-73, the `bases` setter. -/
def basesStore : BasesArg K → Py (M3 K)
  | .mat B => Voxel.basesSet B
  | .misfit => .error .assertion

/-- voxel.py:80-83, the `origin` setter: `origin.shape` is read before the conversion. -/
def originStore : OriginArg K → Py (V3 K)
  | .vec o => .ok o
  | .misfit => .error .assertion
  | .noShape => .error .attribute

/-- voxel.py:22-31, `Voxel(bases, scale, origin)`: the setters in this order. -/
def Vox.make (b : BasesArg K) (s : ScaleArg K) (o : OriginArg K) : Py (Vox K) := do
  let b ← basesStore b
  let s ← scaleStore s
  let o ← originStore o
  return ⟨b, s, o⟩

/-- The assignment of a computed value: nothing is stored after an exception. -/
def store {α : Type} (g : St K) (r : Py α) (f : α → St K) : St K × Py Unit :=
  match r with
  | .ok a => (f a, .ok ())
  | .error e => (g, .error e)

/-- An assignment to an attribute of `g.voxel`; None has no such attribute (AttributeError). -/
def inVoxel {α : Type} (g : St K) (r : Py α) (f : Vox K → α → Vox K) : St K × Py Unit :=
  match g.voxel with
  | none => (g, .error .attribute)
  | some v => store g r fun a => { g with voxel := some (f v a) }

/-- The generator as `Gen`, with `s` as scale of its voxel. -/
def St.gen (g : St K) (s : Scale K) : Gen K := ⟨g.struct, g.voxel.map fun v => ⟨v.bases, s, v.origin⟩, g.strain, g.post⟩

/-- generator.py:200-236, `supply_atoms`.  With a scale of more than two axes `np.linalg.solve` in voxel.py:121 raises ValueError, and so
does `np.min` in voxel.py:125 for an empty box. -/
def St.supply [FloorRing K] (g : St K) (rng : ℕ → ℕ → ℕ → K) (bbox : List (V3 K)) : St K × Py (List (V3 K) × List ℤ) :=
  match g.voxel with
  | none => (g, .error .attribute)
  | some v =>
    match v.scale with
    | .deep => (g, .error .value)
    | .flat s =>
      let r := (g.gen s).supply rng bbox
      ({ g with strain := r.1.strain }, r.2)

/-- The setters of `structure` (generator.py:115-127: the structure is stored before the voxel is made), `origin` (154-160), `voxel`
(168-172), `strain_field` (179-183), `post_transform` (190-194), the assignments to the voxel, `transform` (238-252: the bases first) and
`supply_atoms`. -/
def step [FloorRing K] (g : St K) : Op K → St K × Py Unit
  | .structure_ .other => (g, .error .assertion)
  | .structure_ (.of s) =>
    let g1 := { g with struct := some s }
    let o : V3 K := match g.voxel with
      | none => 0
      | some v => v.origin
    store g1 (Vox.make (.mat s.latticeMatrix) (.fits (.scalar 1)) (.vec o)) fun v => { g1 with voxel := some v }
  | .origin x =>
    match g.voxel with
    | none => store g (Vox.make (.mat 1) (.fits (.scalar 1)) x) fun v => { g with voxel := some v }
    | some v => store g (originStore x) fun o => { g with voxel := some { v with origin := o } }
  | .voxel .other => (g, .error .type)
  | .voxel (.of v) => ({ g with voxel := some v }, .ok ())
  | .strain .other => (g, .error .assertion)
  | .strain (.of s) => ({ g with strain := some s }, .ok ())
  | .post .other => (g, .error .assertion)
  | .post (.of t) => ({ g with post := some t }, .ok ())
  | .bases x => inVoxel g (basesStore x) fun v b => { v with bases := b }
  | .scale x => inVoxel g (scaleStore x) fun v s => { v with scale := s }
  | .voxelOrigin x => inVoxel g (originStore x) fun v o => { v with origin := o }
  | .transform .other => (g, .error .assertion)
  | .transform (.of t) =>
    match g.voxel with
    | none => (g, .error .attribute)
    | some v => store g (basesStore (.mat (t.bases v.bases))) fun b =>
        { g with voxel := some { v with bases := b, origin := if t.basisOnly then v.origin else t.apply v.origin } }
  | .supply rng bbox =>
    let r := g.supply rng bbox
    (r.1, r.2.map fun _ => ())

/-- A history: exceptions are caught by the program. -/
def run [FloorRing K] (g : St K) (ops : List (Op K)) : St K := ops.foldl (fun g o => (step g o).1) g

/-- generator.py:87-104, `Generator(origin, structure, strain_field)`: arguments that are None are left out; an exception leaves no
object. -/
def make [FloorRing K] (origin : Option (OriginArg K)) (structure_ : Option (Obj (Struct K))) (strain : Option (Obj (HStrain K))) :
    Py (St K) :=
  let given := (structure_.map Op.structure_).toList ++ (strain.map Op.strain).toList ++ (origin.map Op.origin).toList
  given.foldlM (fun g o => match step g o with
    | (g', .ok ()) => .ok g'
    | (_, .error e) => .error e) ⟨none, none, none, none⟩

end
end GenSet
end CZ
