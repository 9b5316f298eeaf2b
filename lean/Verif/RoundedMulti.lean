import Verif.RoundedScene

/-!
# MultiVolumes of crystals in rounded arithmetic

A MultiVolume (czone/volume/volume.py:381-503) computes nothing with positions itself: it asks its members and combines their answers.
What is rounded is what the volumes at the leaves supply and answer (`Grain`).
-/

namespace CZ
namespace Fl

noncomputable section

/-- A Volume bounded by surfaces and filled by a crystal, or a MultiVolume of such volumes and MultiVolumes (volume.py:381-412), in the
order in which they were added.  Simplification: the arrays held before are left out, they are overwritten. -/
inductive Tree
  | grain (g : Grain)
  | multi (ts : List Tree) (priority : ℤ)

/-- `priority`, volume.py:58-68. -/
def Tree.priority : Tree → ℤ
  | .grain g => g.priority
  | .multi _ p => p

variable (A : Arith)

mutual
/-- `checkIfInterior`: volume.py:293-312, 464-477. -/
def Tree.interior : Tree → V3 ℝ → Bool
  | .grain g, p => g.interior A p
  | .multi ts _, p => Tree.interiorAny ts p
/-- The loop of volume.py:474-475. -/
def Tree.interiorAny : List Tree → V3 ℝ → Bool
  | [], _ => false
  | t :: ts, p => t.interior p || Tree.interiorAny ts p
end

/-- volume.py:479-503 for members that are already seen as objects: populate every member, sort by priority, mask, concatenate.  The
loops are those of `Scene.populate`, of which they are a copy ("routine is modified form of scene atom population"); `np.vstack` of no
arrays raises ValueError. -/
def merge (os : List (SceneObj (V3 ℝ) ℤ)) : Py (List (V3 ℝ) × List ℤ) :=
  match Scene.populate ⟨some os, none, (0, 0)⟩ with
  | (_, .error e) => .error e
  | (sc, .ok ()) =>
    if os.length = 0 then .error .value
    else do
      let as ← Scene.allAtoms sc
      let ss ← Scene.allSpecies sc
      return (as, ss)

mutual
/-- The object as a scene or MultiVolume sees it: `populate_atoms` (volume.py:347-353, 479-503), `checkIfInterior`, `priority`. -/
def Tree.obj : Tree → SceneObj (V3 ℝ) ℤ
  | .grain g => g.obj A
  | .multi ts p => { priority := p, supply := merge (Tree.objs ts), cur := none, interior := Tree.interior A (.multi ts p) }
/-- The members. -/
def Tree.objs : List Tree → List (SceneObj (V3 ℝ) ℤ)
  | [] => []
  | t :: ts => t.obj :: Tree.objs ts
end

/-- `Scene(bounds, objects)` with these objects, in the order in which they were added (czone/scene/scene.py:24-43, 61-72). -/
def sceneOfTrees (b : V3 ℝ × V3 ℝ) (ts : List Tree) : Scene (V3 ℝ) ℤ := ⟨some (Tree.objs A ts), none, b⟩

end
end Fl
end CZ
