import Verif.Generator
import Mathlib.Logic.Function.Basic

/-!
# Crystalline generators that share voxels and strain fields

`Generator.voxel` and `Generator.strain_field` store the object they are given (generator.py:168-172, 179-183).  Here
generators refer to their voxel and strain field by address, and the methods and setters act on the stored objects.
-/

namespace CZ
namespace Pool

/-- The attributes of a Generator (generator.py:87-104); voxel and strain field are addresses. -/
structure Cell (K : Type) where
  struct : Option (Struct K)
  voxel : Option ℕ
  strain : Option ℕ
  post : Option (Post K)

end Pool

/-- The objects of a program: generators, voxels and strain fields by address.  Voxels below `next` are in use. -/
structure Pool (K : Type) where
  gen : ℕ → Pool.Cell K
  voxel : ℕ → Voxel K
  strain : ℕ → HStrain K
  next : ℕ

namespace Pool

/-- Calls and assignments on the objects.  `g` is the address of a generator, `s` of a strain field, `v` of a voxel. -/
inductive Op (K : Type)
  | supply (g : ℕ) (rng : ℕ → ℕ → ℕ → K) (bbox : List (V3 K))
  | transform (g : ℕ) (t : Tr K)
  | origin (g : ℕ) (o : V3 K)
  | structure_ (g : ℕ) (s : Struct K)
  | voxel (g v : ℕ)
  | field (g s : ℕ)
  | matrix (s : ℕ) (a : StrainArg K)
  | mode (s : ℕ) (m : String)
  | place (s : ℕ) (o : V3 K)
  | originType (s : ℕ) (val : String)

section
variable {K : Type} [Field K] [LinearOrder K]

/-- The generator read through its references. -/
def val (P : Pool K) (g : ℕ) : Gen K :=
  ⟨(P.gen g).struct, (P.gen g).voxel.map P.voxel, (P.gen g).strain.map P.strain, (P.gen g).post⟩

/-- In-place change of an object that may be missing. -/
def put {α : Type} (f : ℕ → α) : Option ℕ → Option α → ℕ → α
  | some x, some v => Function.update f x v
  | _, _ => f

/-- The voxel and the strain field of generator `g` after a method that changed them in place. -/
def write (P : Pool K) (g : ℕ) (w : Gen K) : Pool K :=
  { P with voxel := put P.voxel (P.gen g).voxel w.voxel, strain := put P.strain (P.gen g).strain w.strain }

/-- A new Voxel object becomes the voxel of generator `g`. -/
def fresh (P : Pool K) (g : ℕ) (v : Voxel K) : Pool K :=
  { P with
    gen := Function.update P.gen g { P.gen g with voxel := some P.next }
    voxel := Function.update P.voxel P.next v
    next := P.next + 1 }

/-- generator.py:122-127: the origin the new voxel gets. -/
def kept (P : Pool K) (g : ℕ) : V3 K := ((P.gen g).voxel.map fun v => (P.voxel v).origin).getD 0

/-- The calls: `supply_atoms` (generator.py:200-236, writes to the strain field), `transform` (238-252), the setters of
`origin` (154-160), `structure` (115-127), `voxel` (168-172), `strain_field` (179-183) of a generator, and of `matrix`, `mode`,
`origin`, `origin_type` (strain.py:57-80, 128-144) of an HStrain.  Exceptions are caught by the program; every object keeps
what had been assigned before the exception. -/
def step [FloorRing K] (P : Pool K) : Op K → Pool K
  | .supply g rng b => P.write g ((P.val g).supply rng b).1
  | .transform g t => P.write g ((P.val g).transform t).1
  | .origin g o =>
    match (P.gen g).voxel with
    | none => P.fresh g ⟨1, .scalar 1, o⟩
    | some v => { P with voxel := Function.update P.voxel v { P.voxel v with origin := o } }
  | .structure_ g s =>
    let P' : Pool K := { P with gen := Function.update P.gen g { P.gen g with struct := some s } }
    match Voxel.make s.latticeMatrix (.scalar 1) (P.kept g) with
    | .ok v => P'.fresh g v
    | .error _ => P'
  | .voxel g v => { P with gen := Function.update P.gen g { P.gen g with voxel := some v } }
  | .field g s => { P with gen := Function.update P.gen g { P.gen g with strain := some s } }
  | .matrix s a =>
    match HStrain.matrixSet a with
    | .ok m => { P with strain := Function.update P.strain s { P.strain s with matrix := m } }
    | .error _ => P
  | .mode s m =>
    match HStrain.modeSet m with
    | .ok m => { P with strain := Function.update P.strain s { P.strain s with mode := m } }
    | .error _ => P
  | .place s o => { P with strain := Function.update P.strain s { P.strain s with origin := o } }
  | .originType s v => { P with strain := Function.update P.strain s { P.strain s with fromGenerator := v == "generator" } }

/-- A program: calls one after another. -/
def run [FloorRing K] (P : Pool K) (ops : List (Op K)) : Pool K := ops.foldl step P

end

end Pool
end CZ
