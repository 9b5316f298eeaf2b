import Verif.Precedence

/-!
# Scene (czone/scene/scene.py)

A scene as a state machine: the object list, the masks of the last `populate`, the bounds.
-/

namespace CZ

/-- An object held by a scene (czone/volume/volume.py:20-101 or czone/molecule/molecule.py:11-275).

* `supply`: outcome of calling `populate_atoms()` on it: new `atoms` and `species`, or the exception raised.
  Simplification: repeated calls give the same outcome (true for crystals, molecules, and amorphous generators
  with `use_old_result`).
* `cur`: the arrays held now; `none` before the first `populate_atoms()` of a volume.
* `interior`: `checkIfInterior`, one answer per row. -/
structure SceneObj (P S : Type) where
  priority : ℤ
  supply : Py (List P × List S)
  cur : Option (List P × List S)
  interior : P → Bool

/-- What a caller may hand to `Scene.add_object`: a BaseVolume/BaseMolecule or anything else
(czone/scene/scene.py:68). -/
inductive SceneArg (P S : Type)
  | obj (o : SceneObj P S)
  | other

/-- State of a `Scene` (czone/scene/scene.py:24-43): `_objects` and `_checks` start as `None`. The bounds are the
two corner rows of the (2,3) array. -/
structure Scene (P S : Type) where
  objects : Option (List (SceneObj P S))
  checks : Option (List (List Bool))
  bounds : P × P

namespace Scene

variable {P S : Type}

/-- `Scene(bounds=b)` without objects (czone/scene/scene.py:24-43). -/
def empty (b : P × P) : Scene P S := ⟨none, none, b⟩

/-- `add_object` (czone/scene/scene.py:61-72): non-objects are ignored silently; `_checks` is not touched. -/
def addObject (sc : Scene P S) : SceneArg P S → Scene P S
  | .other => sc
  | .obj o =>
    match sc.objects with
    | none => { sc with objects := some [o] }
    | some os => { sc with objects := some (os ++ [o]) }

/-- First loop of `populate` (czone/scene/scene.py:147-148): call `populate_atoms()` on every object in turn; an
exception stops the loop, the objects before it keep their new arrays. -/
def populateObjs : List (SceneObj P S) → List (SceneObj P S) × Py Unit
  | [] => ([], .ok ())
  | o :: os =>
    match o.supply with
    | .error e => (o :: os, .error e)
    | .ok r =>
      let (os', res) := populateObjs os
      ({ o with cur := some r } :: os', res)

/-- View of an object used by the resolution loops. -/
def toObj (o : SceneObj P S) : Obj P S :=
  { priority := o.priority
    atoms := (o.cur.map Prod.fst).getD []
    species := (o.cur.map Prod.snd).getD []
    interior := o.interior }

/-- `self.objects.sort(key=lambda ob: ob.priority)` (czone/scene/scene.py:122), stable and in place. -/
def sortObjects (os : List (SceneObj P S)) : List (SceneObj P S) :=
  stableSort (·.priority) os

/-- `populate` (czone/scene/scene.py:135-164).  `objects is None` makes the first loop raise TypeError. -/
def populate (sc : Scene P S) : Scene P S × Py Unit :=
  match sc.objects with
  | none => (sc, .error .type)
  | some os =>
    match populateObjs os with
    | (os', .error e) => ({ sc with objects := some os' }, .error e)
    | (os', .ok ()) =>
      let s := sortObjects os'
      match Precedence.checks (s.map toObj) with
      | .error e => ({ sc with objects := some s, checks := some [] }, .error e)
      | .ok c => ({ sc with objects := some s, checks := some c }, .ok ())

/-- `ob.atoms[self._checks[i], :]` for one object (czone/scene/scene.py:86-87): missing masks or unpopulated arrays
are `None` and give TypeError, a mask of the wrong length gives IndexError.  Simplification: the exception is of another class
(AttributeError) for an unpopulated MultiVolume and for the `species` of an unpopulated Volume, whose attribute does not exist yet;
`Roster` has the exact classes. -/
def maskedOf {γ : Type} (f : List P × List S → List γ) (checks : Option (List (List Bool)))
    (o : SceneObj P S) (i : ℕ) : Py (List γ) :=
  match checks with
  | none => .error .type
  | some c => do
    let m ← pyGet c i
    match o.cur with
    | none => .error .type
    | some r => npMask m (f r)

/-- Shared shape of `all_atoms` and `all_species`: one masked array per object, concatenated
(czone/scene/scene.py:83-93). -/
def gather {γ : Type} (f : List P × List S → List γ) (sc : Scene P S) : Py (List γ) :=
  match sc.objects with
  | none => .error .type
  | some os => do
    let parts ← os.zipIdx.mapM (fun (o, i) => maskedOf f sc.checks o i)
    pure parts.flatten

/-- `all_atoms` (czone/scene/scene.py:83-87). -/
def allAtoms (sc : Scene P S) : Py (List P) := gather Prod.fst sc

/-- `all_species` (czone/scene/scene.py:89-93). -/
def allSpecies (sc : Scene P S) : Py (List S) := gather Prod.snd sc

/-- `species_from_object(idx)` (czone/scene/scene.py:103-109), for a non-negative index.  Despite its name it
returns positions. -/
def speciesFromObject (sc : Scene P S) (i : ℕ) : Py (List P) :=
  match sc.objects with
  | none => .error .type
  | some os => do
    let o ← pyGet os i
    maskedOf Prod.fst sc.checks o i

/-- Keyword arguments of `to_file` that influence it (czone/scene/scene.py:166-187): `format` and
`debye_waller_factors`; all others are passed on. `D` is the type of a Debye-Waller dictionary. -/
structure FileArgs (D : Type) where
  format : Option String
  dwf : Option D

/-- One call of `ase.io.write`: atoms, species, cell corner rows, format, Debye-Waller argument. -/
structure Write (P S D : Type) where
  atoms : List P
  species : List S
  bounds : P × P
  format : Option String
  dwf : Option D

/-- `to_file` (czone/scene/scene.py:166-187): the list of `ase_write` calls it makes.  `mkDwf` builds the default
dictionary from the species present.  Passing `debye_waller_factors` together with `format="prismatic"` hands the
keyword twice to `ase_write`, which Python rejects with TypeError. -/
def toFile {D : Type} (mkDwf : List S → D) (sc : Scene P S) (kw : FileArgs D) : Py (List (Write P S D)) :=
  match kw.format with
  | some fmt =>
    if fmt = "prismatic" then do
      let sp ← allSpecies sc
      let at' ← allAtoms sc
      match kw.dwf with
      | some _ => .error .type
      | none => pure [⟨at', sp, sc.bounds, some fmt, some (mkDwf sp)⟩]
    else pure []
  | none => do
    let sp ← allSpecies sc
    let at' ← allAtoms sc
    pure [⟨at', sp, sc.bounds, none, kw.dwf⟩]

/-- A Molecule as a scene object (czone/molecule/molecule.py:227-236): `populate_atoms` does nothing and
`checkIfInterior` answers False for every point. -/
def moleculeObj (priority : ℤ) (atoms : List P) (species : List S) : SceneObj P S :=
  { priority, supply := .ok (atoms, species), cur := some (atoms, species), interior := fun _ => false }

/-- Operations on a scene whose histories are considered. -/
inductive Op (P S : Type)
  | add (a : SceneArg P S)
  | populate

/-- One operation; a raising `populate` leaves the state described by `populate`. -/
def step (sc : Scene P S) : Op P S → Scene P S
  | .add a => addObject sc a
  | .populate => (populate sc).1

/-- State after a history of operations. -/
def run (sc : Scene P S) (ops : List (Op P S)) : Scene P S := ops.foldl step sc

end Scene
end CZ
