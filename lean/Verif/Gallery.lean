import Verif.Studio

/-!
# Volumes shared between MultiVolumes and scenes

`MultiVolume.add_volume` (czone/volume/volume.py:415-431) and `Scene.add_object` (czone/scene/scene.py:61-72) store the object they are
given, not a copy, so that a Volume can be in several MultiVolumes, in a MultiVolume and in a scene, and a MultiVolume in several others.
Here all objects have names (natural numbers), and MultiVolumes and scenes hold lists of names.  The first argument of the recursive
methods is what is left of Python's recursion limit; when it is used up, RecursionError (a RuntimeError) is raised.  A Volume owns its
surfaces and its generator (sharing of those: `Heap`, `Sharing`).
-/

namespace CZ

noncomputable section
open Classical

/-- A named object: a Volume (volume.py:103), a MultiVolume (volume.py:381) holding names, or a Molecule (molecule.py:30). -/
inductive Node
  | vol (v : Vol)
  | multi (vs : List ℕ) (priority : ℤ) (held : Option (List (V3 ℝ) × List ℤ))
  | mol (m : Mol ℝ)

/-- `ob.priority` (volume.py:58-61, molecule.py:157-160). -/
def Node.priority : Node → ℤ
  | .vol v => v.priority
  | .multi _ p _ => p
  | .mol m => m.priority

/-- Everything alive: the objects, the scenes, and the number of calls of `supply_atoms` so far. -/
structure Gallery where
  node : ℕ → Node
  scene : ℕ → SceneRec
  calls : ℕ

namespace Gallery

/-- The value of the Volume or MultiVolume `r`, followed through the names to the given depth; a molecule is no volume. -/
def tree (f : ℕ → Node) : ℕ → ℕ → VTree
  | 0, _ => .multi [] 0 none
  | k + 1, r =>
    match f r with
    | .vol v => .vol v
    | .multi vs p h => .multi (vs.map (tree f k)) p h
    | .mol _ => .multi [] 0 none

/-- The value of any object. -/
def item (f : ℕ → Node) (k r : ℕ) : Item :=
  match f r with
  | .mol m => .mol m
  | _ => .vol (tree f k r)

/-- A loop over named objects: an exception ends it. -/
def each (call : ℕ → (ℕ → Node) → ℕ → (ℕ → Node) × ℕ × Py Unit) : List ℕ → (ℕ → Node) → ℕ → (ℕ → Node) × ℕ × Py Unit
  | [], f, n => (f, n, .ok ())
  | r :: rs, f, n =>
    match call r f n with
    | (f', n', .error e) => (f', n', .error e)
    | (f', n', .ok ()) => each call rs f' n'

/-- `ob.populate_atoms()` (volume.py:347-353, 479-503, molecule.py:227-229).  The list of a MultiVolume is sorted in place (volume.py:446);
it is the list the loop went over, since a MultiVolume that would be changed by its own loop contains itself and the loop never ends. -/
def populateNode (env : Env) : ℕ → ℕ → (ℕ → Node) → ℕ → (ℕ → Node) × ℕ × Py Unit
  | 0, _, f, n => (f, n, .error .runtime)
  | k + 1, r, f, n =>
    match f r with
    | .mol _ => (f, n, .ok ())
    | .vol v => (Function.update f r (.vol (v.populate env n).1), n + 1, (v.populate env n).2)
    | .multi vs p h =>
      match each (populateNode env k) vs f n with
      | (f', n', .error e) => (f', n', .error e)
      | (f', n', .ok ()) =>
        let s := stableSort (fun q => (f' q).priority) vs
        match VTree.resolve env (s.map (tree f' k)) with
        | .error e => (Function.update f' r (.multi s p h), n', .error e)
        | .ok x => (Function.update f' r (.multi s p (some x)), n', .ok ())

/-- `ob.transform(t)` (volume.py:276-291, 457-462, molecule.py:166-182). -/
def transformNode (env : Env) (t : Tr ℝ) : ℕ → ℕ → (ℕ → Node) → ℕ → (ℕ → Node) × ℕ × Py Unit
  | 0, _, f, n => (f, n, .error .runtime)
  | k + 1, r, f, n =>
    match f r with
    | .mol m => (Function.update f r (.mol (m.transform t true).1), n, (m.transform t true).2)
    | .vol v => (Function.update f r (.vol (v.transform env t).1), n, (v.transform env t).2)
    | .multi vs _ _ => each (transformNode env t k) vs f n

/-- `scene.add_object(ob)` (scene.py:61-72). -/
def add (s : Gallery) (j r : ℕ) : Gallery :=
  { s with scene := Function.update s.scene j { s.scene j with objects := some ((s.scene j).objects.getD [] ++ [r]) } }

/-- `multi.add_volume(ob)` (volume.py:415-431): AssertionError for an object that is no volume; only MultiVolumes have the method. -/
def addVolume (s : Gallery) (m r : ℕ) : Gallery × Py Unit :=
  match s.node m, s.node r with
  | .multi _ _ _, .mol _ => (s, .error .assertion)
  | .multi vs p h, _ => ({ s with node := Function.update s.node m (.multi (vs ++ [r]) p h) }, .ok ())
  | _, _ => (s, .error .attribute)

/-- `ob.populate_atoms()` called by the user. -/
def touch (env : Env) (k : ℕ) (s : Gallery) (r : ℕ) : Gallery × Py Unit :=
  match populateNode env k r s.node s.calls with
  | (f, n, o) => ({ s with node := f, calls := n }, o)

/-- `ob.transform(t)` called by the user. -/
def transform (env : Env) (k : ℕ) (s : Gallery) (r : ℕ) (t : Tr ℝ) : Gallery × Py Unit :=
  match transformNode env t k r s.node s.calls with
  | (f, n, o) => ({ s with node := f, calls := n }, o)

/-- The scene `j` with the values of its objects. -/
def world (k : ℕ) (s : Gallery) (j : ℕ) : World :=
  ⟨(s.scene j).objects.map (·.map (item s.node k)), (s.scene j).checks, (s.scene j).bounds⟩

/-- `scene.populate()` (scene.py:135-164): every object is populated in the order of the list, the list is sorted in place by priority
(scene.py:125) and the masks are stored. -/
def populate (env : Env) (k : ℕ) (s : Gallery) (j : ℕ) : Gallery × Py Unit :=
  match (s.scene j).objects with
  | none => (s, .error .type)
  | some rs =>
    match each (populateNode env k) rs s.node s.calls with
    | (f, n, .error e) => ({ s with node := f, calls := n }, .error e)
    | (f, n, .ok ()) =>
      let srt := stableSort (fun r => (f r).priority) rs
      match Precedence.checks ((srt.map fun r => Item.view env (item f k r)).map Scene.toObj) with
      | .error e => ({ node := f, scene := Function.update s.scene j { s.scene j with objects := some srt, checks := some [] }, calls := n }, .error e)
      | .ok c => ({ node := f, scene := Function.update s.scene j { s.scene j with objects := some srt, checks := some c }, calls := n }, .ok ())

/-- `all_atoms` of the scene `j` (scene.py:83-87). -/
def allAtoms (env : Env) (k : ℕ) (s : Gallery) (j : ℕ) : Py (List (V3 ℝ)) := (s.world k j).allAtoms env

/-- `all_species` of the scene `j` (scene.py:89-93). -/
def allSpecies (env : Env) (k : ℕ) (s : Gallery) (j : ℕ) : Py (List ℤ) := (s.world k j).allSpecies env

/-- What a program can do; an exception is caught by the caller and leaves what has been written. -/
inductive Op
  | add (j r : ℕ)
  | addVolume (m r : ℕ)
  | populate (j : ℕ)
  | touch (r : ℕ)
  | bounds (j : ℕ) (b : V3 ℝ × V3 ℝ)
  | transform (r : ℕ) (t : Tr ℝ)

/-- One call. -/
def step (env : Env) (k : ℕ) (s : Gallery) : Op → Gallery
  | .add j r => s.add j r
  | .addVolume m r => (s.addVolume m r).1
  | .populate j => (s.populate env k j).1
  | .touch r => (s.touch env k r).1
  | .bounds j b => { s with scene := Function.update s.scene j { s.scene j with bounds := b } }
  | .transform r t => (s.transform env k r t).1

/-- A program. -/
def run (env : Env) (k : ℕ) : Gallery → List Op → Gallery
  | s, [] => s
  | s, o :: os => run env k (s.step env k o) os

end Gallery

end

end CZ
