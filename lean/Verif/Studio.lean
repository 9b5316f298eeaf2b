import Verif.World

/-!
# Scenes that share objects

`add_object` (czone/scene/scene.py:61-72) stores the object it is given, not a copy, so that one Volume or Molecule can be in several
scenes, or twice in one, and `populate` of one scene acts on the objects of the others.  Here objects and scenes have names (natural
numbers) and a scene holds a list of names.  Here every named object owns its tree; a Volume that is
at once in a scene and inside a MultiVolume is the subject of `Gallery`.
-/

namespace CZ

noncomputable section
open Classical

/-- State of one `Scene` (scene.py:24-43) whose objects are names. -/
structure SceneRec where
  objects : Option (List ℕ)
  checks : Option (List (List Bool))
  bounds : V3 ℝ × V3 ℝ

/-- Everything alive: the objects, the scenes, and the number of calls of `supply_atoms` so far. -/
structure Studio where
  item : ℕ → Item
  scene : ℕ → SceneRec
  calls : ℕ

namespace Studio

/-- The loop `for ob in self.objects: ob.populate_atoms()` (scene.py:147-148) on named objects: an exception ends it. -/
def populateRefs (env : Env) : List ℕ → (ℕ → Item) → ℕ → (ℕ → Item) × ℕ × Py Unit
  | [], f, n => (f, n, .ok ())
  | r :: rs, f, n =>
    match (f r).populate env n with
    | (x, n', .error e) => (Function.update f r x, n', .error e)
    | (x, n', .ok ()) => populateRefs env rs (Function.update f r x) n'

/-- `scene.add_object(ob)` (scene.py:61-72). -/
def add (s : Studio) (k r : ℕ) : Studio :=
  { s with scene := Function.update s.scene k { s.scene k with objects := some ((s.scene k).objects.getD [] ++ [r]) } }

/-- `ob.populate_atoms()` called by the user (volume.py:347-353, 479-503, molecule.py:227-229). -/
def touch (env : Env) (s : Studio) (r : ℕ) : Studio × Py Unit :=
  match (s.item r).populate env s.calls with
  | (x, n, o) => ({ s with item := Function.update s.item r x, calls := n }, o)

/-- `scene.populate()` (scene.py:135-164): every object is populated in the order of the list, the list is sorted in place by priority
(scene.py:125) and the masks are stored. -/
def populate (env : Env) (s : Studio) (k : ℕ) : Studio × Py Unit :=
  match (s.scene k).objects with
  | none => (s, .error .type)
  | some rs =>
    match populateRefs env rs s.item s.calls with
    | (f, n, .error e) => ({ s with item := f, calls := n }, .error e)
    | (f, n, .ok ()) =>
      let srt := stableSort (fun r => (f r).priority) rs
      match Precedence.checks ((srt.map fun r => Item.view env (f r)).map Scene.toObj) with
      | .error e => ({ item := f, scene := Function.update s.scene k { s.scene k with objects := some srt, checks := some [] }, calls := n }, .error e)
      | .ok c => ({ item := f, scene := Function.update s.scene k { s.scene k with objects := some srt, checks := some c }, calls := n }, .ok ())

/-- `scene.bounds = b` (scene.py:45-55). -/
def setBounds (s : Studio) (k : ℕ) (b : V3 ℝ × V3 ℝ) : Studio :=
  { s with scene := Function.update s.scene k { s.scene k with bounds := b } }

/-- `ob.transform(t)` called by the user. -/
def transform (env : Env) (s : Studio) (r : ℕ) (t : Tr ℝ) : Studio × Py Unit :=
  match (s.item r).transform env t with
  | (x, o) => ({ s with item := Function.update s.item r x }, o)

/-- The scene `k` with the objects as they are now. -/
def world (s : Studio) (k : ℕ) : World :=
  ⟨(s.scene k).objects.map (·.map s.item), (s.scene k).checks, (s.scene k).bounds⟩

/-- `all_atoms` of the scene `k` (scene.py:83-87). -/
def allAtoms (env : Env) (s : Studio) (k : ℕ) : Py (List (V3 ℝ)) := (s.world k).allAtoms env

/-- `all_species` of the scene `k` (scene.py:89-93). -/
def allSpecies (env : Env) (s : Studio) (k : ℕ) : Py (List ℤ) := (s.world k).allSpecies env

/-- What a program can do; an exception is caught by the caller and leaves what has been written. -/
inductive Op
  | add (k r : ℕ)
  | populate (k : ℕ)
  | touch (r : ℕ)
  | bounds (k : ℕ) (b : V3 ℝ × V3 ℝ)
  | transform (r : ℕ) (t : Tr ℝ)

/-- One call. -/
def step (env : Env) (s : Studio) : Op → Studio
  | .add k r => s.add k r
  | .populate k => (s.populate env k).1
  | .touch r => (s.touch env r).1
  | .bounds k b => s.setBounds k b
  | .transform r t => (s.transform env r t).1

/-- A program. -/
def run (env : Env) : Studio → List Op → Studio
  | s, [] => s
  | s, o :: os => run env (s.step env o) os

end Studio

end

end CZ
