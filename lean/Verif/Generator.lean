import Verif.Voxel
import Verif.Transform

/-!
# Strain fields, post transforms, generators

Models of `czone/transform/strain.py`, `czone/transform/post.py` and `czone/generator/generator.py`, over an ordered field with floor.
-/

namespace CZ

/-- One atom: a row of the coordinate array and the matching entry of the species array. -/
structure Atom (K : Type) where
  pos : V3 K
  Z : ℤ
  deriving DecidableEq

/-- strain.py:101-117, attributes of an HStrain.  `fromGenerator` is `origin_type == "generator"`. -/
structure HStrain (K : Type) where
  matrix : M3 K
  mode : String
  origin : V3 K
  fromGenerator : Bool
  bases : Option (M3 K)

/-- Array-like values given to `HStrain.matrix`, after `np.squeeze`. -/
inductive StrainArg (K : Type)
  | three (v : V3 K)
  | square (m : M3 K)
  | nine (v : Fin 9 → K)
  | six (v : Fin 6 → K)
  | other (shape : List ℕ)

section Strain
variable {K : Type} [Field K]

/-- strain.py:128-144, the `matrix` setter. -/
def HStrain.matrixSet : StrainArg K → Py (M3 K)
  | .three v => .ok ⟨v.x, 0, 0, 0, v.y, 0, 0, 0, v.z⟩
  | .square m => .ok m
  | .nine v => .ok ⟨v 0, v 1, v 2, v 3, v 4, v 5, v 6, v 7, v 8⟩
  | .six v => .ok ⟨v 0, v 5, v 4, v 5, v 1, v 3, v 4, v 3, v 2⟩
  | .other _ => .error .value

/-- strain.py:75-80, the `mode` setter: `val == "crystal" or "standard"` is truthy for every value. -/
def HStrain.modeSet (val : String) : Py String :=
  if val = "crystal" ∨ ("standard" : String) ≠ "" then .ok val else .error .value

/-- strain.py:101-117, `HStrain(matrix, origin, mode)`; `none` for the origin is the string "generator".  (`origin !=
"generator"` with an array is taken as True, as in the numpy versions the project was written for.) -/
def HStrain.make (matrix : Option (StrainArg K)) (origin : Option (V3 K)) (mode : String) : Py (HStrain K) := do
  let m ← match matrix with
    | some a => HStrain.matrixSet a
    | none => .ok 1
  let md ← HStrain.modeSet mode
  match origin with
  | some o => return ⟨m, md, o, false, none⟩
  | none => return ⟨m, md, 0, true, none⟩

/-- `v @ M` for a row vector. -/
def M3.vecMul (v : V3 K) (M : M3 K) : V3 K := M.transpose.mulVec v

/-- strain.py:40-50, `scrape_params`. -/
def HStrain.scrape (s : HStrain K) (sbases : M3 K) (origin : V3 K) : HStrain K :=
  let s := if s.mode = "crystal" then { s with bases := some sbases } else s
  if s.fromGenerator then { s with origin := origin } else s

/-- strain.py:149-164, `apply_strain` on one row; `inv` of `None` raises LinAlgError. -/
def HStrain.applyPt [DecidableEq K] (s : HStrain K) (p : V3 K) : Py (V3 K) :=
  let sp := p - s.origin
  if s.mode = "crystal" then
    match s.bases with
    | none => .error .linAlg
    | some B => do
      let Bi ← B.inv
      return M3.vecMul (M3.vecMul (M3.vecMul sp Bi.transpose) s.matrix) B.transpose + s.origin
  else .ok (M3.vecMul sp s.matrix + s.origin)

/-- strain.py:149-164 for the whole array.  The inverse is computed once, also when there are no rows. -/
def HStrain.apply [DecidableEq K] (s : HStrain K) (ps : List (V3 K)) : Py (List (V3 K)) :=
  if s.mode = "crystal" then
    match s.bases with
    | none => .error .linAlg
    | some B =>
      match B.inv with
      | .error e => .error e
      | .ok _ => ps.mapM s.applyPt
  else ps.mapM s.applyPt

/-- Positional arguments of `np.random.rand`. -/
inductive RandArg
  | int (n : ℕ)
  | tuple (ns : List ℕ)

/-- `np.random.rand(d0, d1, ...)`: the dimensions must be integers, a tuple raises TypeError.  Returns the shape. -/
def npRandShape : List RandArg → Py (List ℕ)
  | [] => .ok []
  | .int n :: as => do return n :: (← npRandShape as)
  | .tuple _ :: _ => .error .type

/-- strain.py:222-232, the `strain_fun` setter of IStrain.  `ref` are the rows of the random array, `kwargsSet` says
whether `fun_kwargs` has been assigned yet (AttributeError otherwise).  Only AssertionError is caught. -/
def IStrain.strainFunSet (kwargsSet : Bool) (ref : List (V3 K)) (fun_ : List (V3 K) → List (V3 K)) : Py Unit :=
  let attempt : Py Unit := do
    let _ ← npRandShape [.tuple [100, 3]]
    if ¬ kwargsSet then .error .attribute
    else if (fun_ ref).length = 100 then .ok () else .error .assertion
  match attempt with
  | .ok () => .ok ()
  | .error .assertion => .error .value
  | .error e => .error e

/-- strain.py:183-198, `IStrain(fun, origin, mode)`: the function is set first (line 185 or 188), `fun_kwargs` last. -/
def IStrain.make (ref : List (V3 K)) (fun_ : Option (List (V3 K) → List (V3 K))) (mode : String) : Py Unit := do
  match fun_ with
  | some f => IStrain.strainFunSet false ref f
  | none => IStrain.strainFunSet false ref (id : List (V3 K) → List (V3 K))
  let _ ← HStrain.modeSet mode
  return ()

end Strain

/-- Post-generation transformations (post.py:36-42, 61-63, 68-76). -/
inductive Post (K : Type)
  | subst (target substitute : List ℤ) (frac : K)
  | arbitrary (f : List (V3 K) → List ℤ → List (V3 K) × List ℤ)
  | seq (ts : List (Post K))

namespace Post
section
variable {K : Type} [LE K] [DecidableLE K]

/-- post.py:38-42, `ChemicalSubstitution(target, substitute, frac)`. -/
def mkSubst (target substitute : List ℤ) (frac : K) : Py (Post K) :=
  if target.length = substitute.length then .ok (.subst target substitute frac) else .error .assertion

/-- post.py:49-53, one pass of the loop for the pair `(t, s)`: the filter looks at the original species, the
assignment is made in `out`; `probs` is the array of random numbers drawn for this pair. -/
def substPass (frac : K) (t s : ℤ) (probs : ℕ → K) (species out : List ℤ) : List ℤ :=
  (species.zip out).zipIdx.map fun x => if x.1.1 = t ∧ probs x.2 ≤ frac then s else x.1.2

/-- post.py:49-53, the loop over `zip(target, substitute)`; `draws k` is the array drawn for the k-th pair. -/
def substLoop (frac : K) (draws : ℕ → ℕ → K) (species : List ℤ) : ℕ → List (ℤ × ℤ) → List ℤ → List ℤ
  | _, [], out => out
  | k, (t, s) :: ps, out => substLoop frac draws species (k + 1) ps (substPass frac t s (draws k) species out)

/-- post.py:44-55, `_replace_species`; `np.copy` gives the initial `out`. -/
def replaceSpecies (target substitute : List ℤ) (frac : K) (draws : ℕ → ℕ → K) (species : List ℤ) : List ℤ :=
  substLoop frac draws species 0 (target.zip substitute) species

mutual
/-- `apply_function`: post.py:57-58, 65-66, 94-99.  `rng n` is the array of random draws of the n-th random generator
created; the counter is threaded through. -/
def run (rng : ℕ → ℕ → ℕ → K) : Post K → ℕ → List (V3 K) → List ℤ → ℕ × List (V3 K) × List ℤ
  | .subst t s f, n, ps, zs => (n + 1, ps, replaceSpecies t s f (rng n) zs)
  | .arbitrary f, n, ps, zs => (n, f ps zs)
  | .seq ts, n, ps, zs => runList rng ts n ps zs
/-- The loop post.py:96-97. -/
def runList (rng : ℕ → ℕ → ℕ → K) : List (Post K) → ℕ → List (V3 K) → List ℤ → ℕ × List (V3 K) × List ℤ
  | [], n, ps, zs => (n, ps, zs)
  | t :: ts, n, ps, zs =>
    let r := run rng t n ps zs
    runList rng ts r.1 r.2.1 r.2.2
end

end
end Post

/-- What czone reads from a pymatgen Structure: `lattice.matrix` (rows are the lattice vectors), `frac_coords` with
`atomic_numbers` (generator.py:115-142). -/
structure Struct (K : Type) where
  latticeMatrix : M3 K
  sites : List (V3 K × ℤ)

/-- generator.py:87-104, attributes of a crystalline Generator. -/
structure Gen (K : Type) where
  struct : Option (Struct K)
  voxel : Option (Voxel K)
  strain : Option (HStrain K)
  post : Option (Post K)

namespace Gen
section
variable {K : Type} [Field K] [LinearOrder K]

/-- generator.py:115-127, the `structure` setter.  The structure is stored before the voxel is built. -/
def setStructure (g : Gen K) (s : Struct K) : Gen K × Py Unit :=
  let g1 := { g with struct := some s }
  let o : V3 K := match g.voxel with
    | none => 0
    | some v => v.origin
  match Voxel.make s.latticeMatrix (.scalar 1) o with
  | .ok v => ({ g1 with voxel := some v }, .ok ())
  | .error e => (g1, .error e)

/-- generator.py:154-160, the `origin` setter; without a voxel one with the identity bases is created. -/
def setOrigin (g : Gen K) (o : V3 K) : Gen K :=
  match g.voxel with
  | none => { g with voxel := some ⟨1, .scalar 1, o⟩ }
  | some v => { g with voxel := some { v with origin := o } }

/-- generator.py:87-104, `Generator(origin, structure, strain_field)`. -/
def make (origin : Option (V3 K)) (structure_ : Option (Struct K)) (strain : Option (HStrain K)) : Py (Gen K) := do
  let g : Gen K := ⟨none, none, none, none⟩
  let g ← match structure_ with
    | none => pure g
    | some s => match g.setStructure s with
      | (g', .ok ()) => pure g'
      | (_, .error e) => .error e
  let g := match strain with
    | none => g
    | some s => { g with strain := some s }
  return match origin with
    | none => g
    | some o => g.setOrigin o

/-- `range(a, b + 1)`. -/
def irange (a b : ℤ) : List ℤ := (List.range (b + 1 - a).toNat).map fun (k : ℕ) => a + (k : ℤ)

/-- generator.py:206-212, `itertools.product` of the three ranges (the constant fourth factor is dropped). -/
def cells (lo hi : V3 ℤ) : List (V3 ℤ) :=
  (irange lo.x hi.x).flatMap fun i => (irange lo.y hi.y).flatMap fun j => (irange lo.z hi.z).map fun k => ⟨i, j, k⟩

/-- A cell index as a vector. -/
def castV (n : V3 ℤ) : V3 K := ⟨(n.x : K), (n.y : K), (n.z : K)⟩

/-- generator.py:202-226, coordinates and species before post-transform and strain.  The fourth homogeneous
coordinate, which only carries the species, is not spelled out.  Structures have at least one site: for none, numpy
cannot stack the coordinates with the species (ValueError), while the model gives no atoms. -/
def rawAtoms [FloorRing K] (v : Voxel K) (sites : List (V3 K × ℤ)) (bbox : List (V3 K)) : Py (List (Atom K)) := do
  let (lo, hi) ← v.getExtents bbox
  return (cells lo hi).flatMap fun n => sites.map fun f =>
    ⟨v.sbases.mulVec (castV n) + v.sbases.mulVec f.1 + v.origin, f.2⟩

/-- generator.py:200-236, `supply_atoms`.  A missing voxel or structure raises AttributeError.  The first component is
the generator after the call (`scrape_params` writes to the strain field). -/
def supply [FloorRing K] (rng : ℕ → ℕ → ℕ → K) (g : Gen K) (bbox : List (V3 K)) :
    Gen K × Py (List (V3 K) × List ℤ) :=
  match g.voxel with
  | none => (g, .error .attribute)
  | some v =>
    match v.getExtents bbox with
    | .error e => (g, .error e)
    | .ok _ =>
      match g.struct with
      | none => (g, .error .attribute)
      | some s =>
        match rawAtoms v s.sites bbox with
        | .error e => (g, .error e)
        | .ok atoms =>
          let out := match g.post with
            | none => (atoms.map Atom.pos, atoms.map Atom.Z)
            | some t => (t.run rng 0 (atoms.map Atom.pos) (atoms.map Atom.Z)).2
          match g.strain with
          | none => (g, .ok out)
          | some st =>
            let st' := st.scrape v.sbases v.origin
            match st'.apply out.1 with
            | .error e => ({ g with strain := some st' }, .error e)
            | .ok ps => ({ g with strain := some st' }, .ok (ps, out.2))

/-- generator.py:238-252, `transform`; first component is the generator after the call.  The bases setter may raise
before the origin is touched. -/
def transform (g : Gen K) (t : Tr K) : Gen K × Py Unit :=
  match g.voxel with
  | none => (g, .error .attribute)
  | some v =>
    match Voxel.basesSet (t.bases v.bases) with
    | .error e => (g, .error e)
    | .ok b =>
      let v1 := { v with bases := b }
      let v2 := if t.basisOnly then v1 else { v1 with origin := t.apply v1.origin }
      ({ g with voxel := some v2 }, .ok ())

/-- generator.py:46-60, `from_generator(transformation=ts)`: transformations applied one after another to a copy. -/
def fromGenerator (g : Gen K) : List (Tr K) → Py (Gen K)
  | [] => .ok g
  | t :: ts => match g.transform t with
    | (g', .ok ()) => fromGenerator g' ts
    | (_, .error e) => .error e

end
end Gen

end CZ
