import Verif.Scene
import Verif.Geom
import Mathlib.Algebra.Order.Field.Basic

/-!
# Construction, bounds and ASE export of a scene (czone/scene/scene.py)
-/

namespace CZ
namespace Scene

section
variable {K S : Type} [Field K] [LinearOrder K]

/-- What may be given as bounds, after `np.array(bounds)`: an array of shape (2,3) with its rows, or one of another shape. -/
inductive BoundsArg (K : Type)
  | rows (lo hi : V3 K)
  | otherShape

/-- What may be given as `objects`: None, something without `__iter__`, an iterable of things. -/
inductive ObjectsArg (P S : Type)
  | none
  | single (a : SceneArg P S)
  | iter (as : List (SceneArg P S))

/-- The `bounds` setter, scene.py:50-54. -/
def setBounds (sc : Scene (V3 K) S) : BoundsArg K → Scene (V3 K) S × Py Unit
  | .rows lo hi => ({ sc with bounds := (lo, hi) }, .ok ())
  | .otherShape => (sc, .error .assertion)

/-- volume.py:543-547: corners of `makeRectPrism(a, b, c)`. -/
def prism (a b c : K) : List (V3 K) :=
  [⟨0, 0, 0⟩, ⟨1, 0, 0⟩, ⟨0, 1, 0⟩, ⟨0, 0, 1⟩, ⟨1, 1, 0⟩, ⟨1, 0, 1⟩, ⟨0, 1, 1⟩, ⟨1, 1, 1⟩].map
    fun p : V3 K => ⟨p.x * a, p.y * b, p.z * c⟩

/-- `np.min(points, axis=0)` resp. `np.max` of a non-empty array: `op` is `min` or `max`. -/
def columnwise (op : K → K → K) : V3 K → List (V3 K) → V3 K
  | p, [] => p
  | p, q :: qs => columnwise op ⟨op p.x q.x, op p.y q.y, op p.z q.z⟩ qs

/-- scene.py:36-41, the bounds used when none are given. -/
def defaultBounds : V3 K × V3 K :=
  match prism (10 : K) 10 10 with
  | [] => (0, 0)
  | p :: ps => (columnwise min p ps, columnwise max p ps)

/-- `Scene(bounds, objects)`, scene.py:24-43.  The objects are added before the bounds are set. -/
def make (bounds : Option (BoundsArg K)) (objects : ObjectsArg (V3 K) S) : Py (Scene (V3 K) S) :=
  let s0 : Scene (V3 K) S := ⟨none, none, (0, 0)⟩
  let s1 := match objects with
    | .none => s0
    | .single a => s0.addObject a
    | .iter as => as.foldl addObject s0
  match s1.setBounds (match bounds with
    | none => .rows (defaultBounds (K := K)).1 (defaultBounds (K := K)).2
    | some b => b) with
  | (_, .error e) => .error e
  | (s2, .ok ()) => .ok s2

/-- What is handed to ASE's `Atoms`: symbols, positions, edge lengths of a box at the origin. -/
structure AseAtoms (K S : Type) where
  symbols : List S
  positions : List (V3 K)
  cell : V3 K

/-- `ase_atoms`, scene.py:95-101.  ASE raises ValueError if the numbers of symbols and positions differ. -/
def aseAtoms (sc : Scene (V3 K) S) : Py (AseAtoms K S) := do
  let cell := sc.bounds.2 - sc.bounds.1
  let symbols ← sc.allSpecies
  let positions ← sc.allAtoms
  if symbols.length ≠ positions.length then .error .value else .ok ⟨symbols, positions, cell⟩

end
end Scene
end CZ
