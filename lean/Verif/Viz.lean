import Verif.Scene
import Verif.Geom
import Mathlib.Data.Real.Basic

/-!
# Plots (czone/viz/viz.py)

What the plotting functions hand to matplotlib: for every axes object the scatter calls, the viewing angles, the limits and
the title.  Ticks, grid, labels, marker size, figure layout, colours and the drawing itself are left out; the sliders of the
widgets only choose `azim` and `elev`.
-/

namespace CZ

/-- One axes object: title, viewing angles in degrees, one list of points per `scatter` call, limits when set. -/
structure Panel where
  title : String
  azim : ℝ
  elev : ℝ
  groups : List (List (V3 ℝ))
  limits : Option ((ℝ × ℝ) × (ℝ × ℝ) × (ℝ × ℝ))

/-- viz.py:19-22, 83-86, 166-169: the four axes. -/
structure Figure where
  axZ : Panel
  axY : Panel
  axX : Panel
  axR : Panel

/-- First result of `np.unique(species)`: the values present, increasing. -/
def npUnique (zs : List ℤ) : List ℤ := stableSort id zs.dedup

/-- viz.py:88-93 (and 171-176), the arguments of the successive `scatter` calls on one axes object: `data[species == s, :]`
for `s` in `np.unique(species)`.  A mask of the wrong length raises IndexError. -/
def scatterGroups (data : List (V3 ℝ)) (species : List ℤ) : Py (List (List (V3 ℝ))) :=
  (npUnique species).mapM fun s => npMask (species.map fun z => decide (z = s)) data

/-- viz.py:107-121 (and 190-204): limits from the rows of the bounds. -/
def limitsOf (b : V3 ℝ × V3 ℝ) : (ℝ × ℝ) × (ℝ × ℝ) × (ℝ × ℝ) := ((b.1.x, b.2.x), (b.1.y, b.2.y), (b.1.z, b.2.z))

/-- viz.py:95-105, 144-147 (and 29-39, 61-64, 178-188, 227-230): viewing angles and titles. -/
def figureOf (groups : List (List (V3 ℝ))) (limits : Option ((ℝ × ℝ) × (ℝ × ℝ) × (ℝ × ℝ))) (azim elev : ℝ) : Figure where
  axZ := ⟨"XY projection", -90, 90, groups, limits⟩
  axY := ⟨"XZ projection", -90, 0, groups, limits⟩
  axX := ⟨"YZ projection", 0, 0, groups, limits⟩
  axR := ⟨"Rotatable view", azim, elev, groups, limits⟩

/-- viz.py:69-149, `simple_scene_view(scene, azim, elev)`, and viz.py:152-232, `simple_scene_view_with_rotate`, which has the same body;
`none` stands for an argument which is not a Scene. -/
def simpleSceneView (arg : Option (Scene (V3 ℝ) ℤ)) (azim elev : ℝ) : Py Figure :=
  match arg with
  | none => .error .type
  | some sc =>
    match sc.allAtoms with
    | .error e => .error e
    | .ok data =>
      match sc.allSpecies with
      | .error e => .error e
      | .ok species =>
        match scatterGroups data species with
        | .error e => .error e
        | .ok groups => .ok (figureOf groups (some (limitsOf sc.bounds)) azim elev)

/-- viz.py:13-66, `simple_view_with_rotate(data, azim, elev)`: all points in one call per axes object, no limits set. -/
def simpleView (data : List (V3 ℝ)) (azim elev : ℝ) : Figure := figureOf [data] none azim elev

/-- viz.py:235-257, `simple_view_widget(data)` with the sliders at `azim`, `elev` (initially -60 and 30). -/
def simpleViewWidget (data : List (V3 ℝ)) (sliders : Option (ℝ × ℝ)) : Figure :=
  let s := sliders.getD (-60, 30)
  simpleView data s.1 s.2

/-- viz.py:260-282, `simple_scene_widget(scene)`. -/
def simpleSceneWidget (arg : Option (Scene (V3 ℝ) ℤ)) (sliders : Option (ℝ × ℝ)) : Py Figure :=
  let s := sliders.getD (-60, 30)
  simpleSceneView arg s.1 s.2

end CZ
