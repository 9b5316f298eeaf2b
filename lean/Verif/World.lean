import Verif.Volume
import Verif.Molecule

/-!
# Scenes of actual objects

`Verif.Scene` describes scene objects abstractly: what they supply and which points are interior.  Here the objects are the
Volumes, MultiVolumes and Molecules of the other modules, with their own state, and `supply_atoms` is called anew by every
`populate` (czone/scene/scene.py).  One object held by a scene twice, or by a scene and a
MultiVolume, is the subject of `Studio` and `Gallery`.
-/

namespace CZ

noncomputable section

/-- What a scene holds (scene.py:68): a BaseVolume or a BaseMolecule. -/
inductive Item
  | vol (t : VTree)
  | mol (m : Mol ℝ)

namespace Item

/-- `ob.priority` (volume.py:58-61, molecule.py:157-160). -/
def priority : Item → ℤ
  | .vol t => t.priority
  | .mol m => m.priority

/-- `ob.atoms` and `ob.species` (volume.py:44-52, molecule.py:55-65); a molecule always has them. -/
def held : Item → Option (List (V3 ℝ) × List ℤ)
  | .vol t => t.held
  | .mol m => some (m.atoms, m.species)

/-- `ob.checkIfInterior` for one point (volume.py:293-312, 464-477, molecule.py:231-236). -/
def interior (env : Env) : Item → V3 ℝ → Bool
  | .vol t, p => t.interior env p
  | .mol m, p => (m.checkIfInterior [p]).headD false

/-- `ob.populate_atoms()` (volume.py:347-353, 479-503, molecule.py:227-229); the counter numbers the calls of
`supply_atoms`. -/
def populate (env : Env) : Item → ℕ → Item × ℕ × Py Unit
  | .vol t, n => let r := t.populate env n; (.vol r.1, r.2)
  | .mol m, n => (.mol m, n, .ok ())

/-- `ob.transform(t)` (volume.py:276-291, 457-462, molecule.py:166-182 with the default `transform_origin=True`). -/
def transform (env : Env) (t : Tr ℝ) : Item → Item × Py Unit
  | .vol v => let r := v.transform env t; (.vol r.1, r.2)
  | .mol m => let r := m.transform t true; (.mol r.1, r.2)

/-- The object as the resolution loop sees it. -/
def view (env : Env) (it : Item) : SceneObj (V3 ℝ) ℤ :=
  { priority := it.priority, supply := .error .notImplemented, cur := it.held, interior := it.interior env }

/-- The loop `for ob in self.objects: ob.populate_atoms()` (scene.py:147-148). -/
def populateList (env : Env) : List Item → ℕ → List Item × ℕ × Py Unit
  | [], n => ([], n, .ok ())
  | x :: xs, n =>
    match x.populate env n with
    | (x', n', .error e) => (x' :: xs, n', .error e)
    | (x', n', .ok ()) => let r := populateList env xs n'; (x' :: r.1, r.2)

/-- A loop of the caller: `for ob in scene.objects: ob.transform(t)`. -/
def transformList (env : Env) (t : Tr ℝ) : List Item → List Item × Py Unit
  | [] => ([], .ok ())
  | x :: xs =>
    match x.transform env t with
    | (x', .error e) => (x' :: xs, .error e)
    | (x', .ok ()) => let r := transformList env t xs; (x' :: r.1, r.2)

end Item

/-- State of a `Scene` (scene.py:24-43) of actual objects. -/
structure World where
  objects : Option (List Item)
  checks : Option (List (List Bool))
  bounds : V3 ℝ × V3 ℝ

namespace World

/-- `add_object` with an accepted object (scene.py:61-72). -/
def add (w : World) (x : Item) : World :=
  { w with objects := some (w.objects.getD [] ++ [x]) }

/-- `populate` (scene.py:135-164). -/
def populate (env : Env) (w : World) (n : ℕ) : World × ℕ × Py Unit :=
  match w.objects with
  | none => (w, n, .error .type)
  | some xs =>
    match Item.populateList env xs n with
    | (xs', n', .error e) => ({ w with objects := some xs' }, n', .error e)
    | (xs', n', .ok ()) =>
      let s := stableSort Item.priority xs'
      match Precedence.checks ((s.map (Item.view env)).map Scene.toObj) with
      | .error e => ({ w with objects := some s, checks := some [] }, n', .error e)
      | .ok c => ({ w with objects := some s, checks := some c }, n', .ok ())

/-- What the queries of the scene read: the arrays the objects hold now and the masks of the last `populate`. -/
def view (env : Env) (w : World) : Scene (V3 ℝ) ℤ :=
  ⟨w.objects.map (·.map (Item.view env)), w.checks, w.bounds⟩

/-- `all_atoms` (scene.py:83-87). -/
def allAtoms (env : Env) (w : World) : Py (List (V3 ℝ)) := (w.view env).allAtoms

/-- `all_species` (scene.py:89-93). -/
def allSpecies (env : Env) (w : World) : Py (List ℤ) := (w.view env).allSpecies

/-- Every object transformed by the caller. -/
def transform (env : Env) (w : World) (t : Tr ℝ) : World × Py Unit :=
  match w.objects with
  | none => (w, .error .type)
  | some xs => let r := Item.transformList env t xs; ({ w with objects := some r.1 }, r.2)

end World

end

end CZ
