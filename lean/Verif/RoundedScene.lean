import Verif.Rounded
import Verif.Scene

/-!
# Scenes of crystals in rounded arithmetic

`Scene.populate` (czone/scene/scene.py:135-164) only compares priorities, calls `populate_atoms()` and combines the answers of
`checkIfInterior`; the model of `Scene` is used as it is.  What is rounded is what the objects supply and answer.
-/

namespace CZ
namespace Fl

noncomputable section

/-- A Volume bounded by surfaces alone and filled by a crystal (czone/volume/volume.py:110-360), as far as `Scene.populate` sees it:
priority, surfaces, stored bases and origin of the crystal, fractional coordinates and species of its sites, and the fractional
coordinates of the corners of the bounding box as computed by the solver (`e :: es`, voxel.py:112-128). -/
structure Grain where
  priority : ℤ
  algs : List Alg
  B : M3 ℝ
  o : V3 ℝ
  sites : List (V3 ℝ × ℤ)
  e : V3 ℝ
  es : List (V3 ℝ)

variable (A : Arith)

/-- volume.py:308-324, `checkIfInterior` of a Volume without points: all surfaces agree. -/
def Grain.interior (g : Grain) (p : V3 ℝ) : Bool := g.algs.all fun s => Fl.interior A s p

/-- The object handed to the scene: `populate_atoms` (volume.py:347-353) fills it in rounded arithmetic. -/
def Grain.obj (g : Grain) : SceneObj (V3 ℝ) ℤ :=
  let l := fill A g.algs g.B g.o g.sites g.e g.es
  { priority := g.priority, supply := .ok (l.map Prod.fst, l.map Prod.snd), cur := none, interior := g.interior A }

/-- `Scene(bounds, objects)` with these volumes, in the order in which they were added (scene.py:24-43, 61-72). -/
def sceneOf (b : V3 ℝ × V3 ℝ) (gs : List Grain) : Scene (V3 ℝ) ℤ := ⟨some (gs.map (Grain.obj A)), none, b⟩

end
end Fl
end CZ
