import Verif.Scene

/-!
# The object list of a scene in the hands of its user

`Scene.objects` (czone/scene/scene.py:56-59) is the list itself, so `scene.objects.remove(ob)` and `scene.objects.clear()` act on the
scene; there is no other way to take an object out of it.  Here objects have names (natural numbers), their priorities are assigned by
the user, and reading follows the order in which Python evaluates the expressions of scene.py, so that the exceptions are exact also
for objects that hold no arrays yet.

Simplification, as in `Scene`: `populate_atoms()` of an object has one fixed outcome.
-/

namespace CZ

/-- What an object holds in `_atoms` and `_species`: a Volume that was never populated has `_atoms = None` and no attribute `_species`
(czone/volume/volume.py:141), such a MultiVolume has neither attribute (czone/volume/volume.py:403-410), every other object has
both arrays (czone/volume/volume.py:352-353, 500-503, czone/molecule/molecule.py:72-83). -/
inductive Held (P S : Type)
  | freshVolume
  | freshMulti
  | arrays (atoms : List P) (species : List S)

namespace Held
variable {P S : Type}

/-- `ob.atoms` (volume.py:43-46, molecule.py:62-65); `none` is Python's None. -/
def atoms : Held P S → Py (Option (List P))
  | .freshVolume => .ok none
  | .freshMulti => .error .attribute
  | .arrays a _ => .ok (some a)

/-- `ob.species` (volume.py:48-51, molecule.py:67-70). -/
def species : Held P S → Py (Option (List S))
  | .freshVolume => .error .attribute
  | .freshMulti => .error .attribute
  | .arrays _ s => .ok (some s)

/-- `ob.ase_atoms`, also evaluated by `ob.to_file` (volume.py:53-56, 93-100, molecule.py:118-121): the two arrays handed to ASE's
`Atoms`, species first. -/
def aseAtoms (h : Held P S) : Py (Option (List S) × Option (List P)) := do
  let s ← h.species
  let a ← h.atoms
  pure (s, a)

end Held

/-- What never changes about an object: the outcome of `populate_atoms()` and `checkIfInterior`. -/
structure Thing (P S : Type) where
  supply : Py (List P × List S)
  interior : P → Bool

/-- State: the objects of the scene by name, the masks, and for every object its arrays and priority. -/
structure Roster (P S : Type) where
  objs : Option (List ℕ)
  checks : Option (List (List Bool))
  held : ℕ → Held P S
  prio : ℕ → ℤ

namespace Roster
variable {P S : Type}

/-- Calls of the user. -/
inductive Op
  /-- `scene.add_object(ob)` (scene.py:61-72) -/
  | add (i : ℕ)
  /-- `scene.objects.remove(ob)`; the classes define no `__eq__`, so objects are compared by identity -/
  | remove (i : ℕ)
  /-- `scene.objects.clear()` -/
  | clear
  /-- `ob.priority = z` with an integer (volume.py:63-68, molecule.py:160-165) -/
  | prio (i : ℕ) (z : ℤ)
  /-- `ob.populate_atoms()` -/
  | own (i : ℕ)
  /-- `scene.populate()` -/
  | populate

/-- `ob.populate_atoms()`: new arrays, or an exception and the old ones (volume.py:347-353, 479-503, molecule.py:227-229). -/
def touch (tbl : ℕ → Thing P S) (held : ℕ → Held P S) (i : ℕ) : (ℕ → Held P S) × Py Unit :=
  match (tbl i).supply with
  | .error e => (held, .error e)
  | .ok r => (Function.update held i (.arrays r.1 r.2), .ok ())

/-- scene.py:147-148. -/
def touchAll (tbl : ℕ → Thing P S) : List ℕ → (ℕ → Held P S) → (ℕ → Held P S) × Py Unit
  | [], held => (held, .ok ())
  | i :: is, held =>
    match touch tbl held i with
    | (h, .error e) => (h, .error e)
    | (h, .ok ()) => touchAll tbl is h

/-- The object as the resolution loops see it. -/
def obj (tbl : ℕ → Thing P S) (held : ℕ → Held P S) (prio : ℕ → ℤ) (i : ℕ) : Obj P S :=
  { priority := prio i
    atoms := match held i with
      | .arrays a _ => a
      | _ => []
    species := match held i with
      | .arrays _ s => s
      | _ => []
    interior := (tbl i).interior }

/-- `populate` (scene.py:135-164). -/
def populate (tbl : ℕ → Thing P S) (r : Roster P S) : Roster P S × Py Unit :=
  match r.objs with
  | none => (r, .error .type)
  | some is =>
    match touchAll tbl is r.held with
    | (h, .error e) => ({ r with held := h }, .error e)
    | (h, .ok ()) =>
      let s := stableSort r.prio is
      match Precedence.checks (s.map (obj tbl h r.prio)) with
      | .error e => ({ r with objs := some s, checks := some [], held := h }, .error e)
      | .ok c => ({ r with objs := some s, checks := some c, held := h }, .ok ())

/-- One call.  `None.remove` and `None.clear` are AttributeError, `remove` of an absent object is ValueError. -/
def step (tbl : ℕ → Thing P S) (r : Roster P S) : Op → Roster P S × Py Unit
  | .add i => ({ r with objs := some (r.objs.getD [] ++ [i]) }, .ok ())
  | .remove i =>
    match r.objs with
    | none => (r, .error .attribute)
    | some is => if i ∈ is then ({ r with objs := some (is.erase i) }, .ok ()) else (r, .error .value)
  | .clear =>
    match r.objs with
    | none => (r, .error .attribute)
    | some _ => ({ r with objs := some [] }, .ok ())
  | .prio i z => ({ r with prio := Function.update r.prio i z }, .ok ())
  | .own i => ({ r with held := (touch tbl r.held i).1 }, (touch tbl r.held i).2)
  | .populate => populate tbl r

/-- A program that goes on after exceptions. -/
def run (tbl : ℕ → Thing P S) (r : Roster P S) (ops : List Op) : Roster P S :=
  ops.foldl (fun r o => (step tbl r o).1) r

/-- `arr[self._checks[i]]` where `arr` was evaluated first (scene.py:86-87, 92-93, 109): no masks at all and `None` as array are
TypeError, too few masks and a mask of another length IndexError. -/
def masked {γ : Type} (checks : Option (List (List Bool))) (arr : Py (Option (List γ))) (i : ℕ) : Py (List γ) := do
  let a ← arr
  match checks with
  | none => .error .type
  | some c => do
    let m ← pyGet c i
    match a with
    | none => .error .type
    | some a => npMask m a

/-- `np.vstack` and `np.hstack` of the rows of the objects (scene.py:86-87, 92-93): ValueError for an empty list of arrays. -/
def gather {γ : Type} (f : Held P S → Py (Option (List γ))) (r : Roster P S) : Py (List γ) :=
  match r.objs with
  | none => .error .type
  | some is => do
    let parts ← is.zipIdx.mapM (fun x => masked r.checks (f (r.held x.1)) x.2)
    if parts = [] then .error .value else pure parts.flatten

/-- `all_atoms` (scene.py:83-87). -/
def allAtoms (r : Roster P S) : Py (List P) := gather Held.atoms r

/-- `all_species` (scene.py:89-93). -/
def allSpecies (r : Roster P S) : Py (List S) := gather Held.species r

/-- `species_from_object(k)` for a non-negative `k` (scene.py:103-109). -/
def fromObject (r : Roster P S) (k : ℕ) : Py (List P) :=
  match r.objs with
  | none => .error .type
  | some is => do
    let i ← pyGet is k
    masked r.checks (r.held i).atoms k

/-- `ase_atoms` (scene.py:95-101), which is also what `to_file` without a format evaluates (scene.py:186-187). -/
def aseAtoms (r : Roster P S) : Py (List S × List P) := do
  let s ← r.allSpecies
  let a ← r.allAtoms
  if s.length ≠ a.length then .error .value else .ok (s, a)

/-- A new scene and objects that were never used by it; `held` and `prio` are what the objects come with. -/
def fresh (held : ℕ → Held P S) (prio : ℕ → ℤ) : Roster P S := ⟨none, none, held, prio⟩

end Roster
end CZ
