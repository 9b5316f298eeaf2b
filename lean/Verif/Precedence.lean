import Verif.Py

/-!
# Conflict resolution between objects

Model of `Scene._get_priorities` / `Scene.populate` (czone/scene/scene.py:111-164) and of the literally identical
`MultiVolume._get_priorities` / `MultiVolume.populate_atoms` (czone/volume/volume.py:433-455, 479-503).
The only differences between the two Python bodies are names and what is done with the masks afterwards.

`P` is the type of positions and `S` the type of species; nothing here depends on what they are.
-/

namespace CZ

/-- What the resolution loops use of an object after `populate_atoms()` was called on it: `priority`, `atoms`,
`species` and `checkIfInterior` (czone/volume/volume.py:43-91, czone/molecule/molecule.py:62-70,154-157,231-236).
`checkIfInterior` of an array is modelled as one answer per row (shown for volumes in `Verif.Volume`). -/
structure Obj (P S : Type) where
  priority : ℤ
  atoms : List P
  species : List S
  interior : P → Bool

namespace Precedence

variable {P S : Type}

/-- `objects.sort(key=lambda ob: ob.priority)` (scene.py:122, volume.py:444): Python's sort is stable. -/
def sortObjs (os : List (Obj P S)) : List (Obj P S) :=
  stableSort (·.priority) os

/-- `rel_plevels[i:] += 1` (scene.py:129, volume.py:451). -/
def bumpFrom (r : List ℕ) (i : ℕ) : List ℕ :=
  r.mapIdx (fun k x => if i ≤ k then x + 1 else x)

/-- The `rel_plevels` loop: zeros, then one bump per first-occurrence index except the first
(scene.py:127-129, volume.py:449-451). -/
def relLevels (n : ℕ) (idx : List ℕ) : List ℕ :=
  idx.tail.foldl bumpFrom (List.replicate n 0)

/-- `_get_priorities` on the already sorted list: relative levels and offsets (scene.py:123-133, volume.py:445-455).
The in-place sort is done by the caller of this function in the model (`sortObjs`). -/
def getPriorities (s : List (Obj P S)) : List ℕ × List ℕ :=
  let idx := npUniqueIdx (s.map (·.priority))
  (relLevels s.length idx, idx ++ [s.length])

/-- Inner loop `for j in range(eidx): if i != j: check = and(check, not interior_j(atoms))`
(scene.py:158-162, volume.py:492-496). -/
def checkAgainst (s : List (Obj P S)) (i : ℕ) (atoms : List P) (eidx : ℕ) : Py (List Bool) :=
  (List.range eidx).foldlM
    (fun check j =>
      if i ≠ j then do
        let o ← pyGet s j
        pure (npAnd check (npNot (atoms.map o.interior)))
      else pure check)
    (List.replicate atoms.length true)

/-- One iteration of the outer loop: the mask of object `i` (scene.py:154-164, volume.py:488-498). -/
def checkOne (s : List (Obj P S)) (rel offsets : List ℕ) (i : ℕ) (ob : Obj P S) : Py (List Bool) := do
  let lvl ← pyGet rel i
  let eidx ← pyGet offsets (lvl + 1)
  checkAgainst s i ob.atoms eidx

/-- The outer loop: masks of all objects of the sorted list (scene.py:152-164, volume.py:486-498). -/
def checks (s : List (Obj P S)) : Py (List (List Bool)) :=
  let (rel, offsets) := getPriorities s
  s.zipIdx.mapM (fun (ob, i) => checkOne s rel offsets i ob)

end Precedence

end CZ
