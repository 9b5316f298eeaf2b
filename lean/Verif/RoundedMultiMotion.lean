import Verif.RoundedMulti
import Verif.RoundedMotion

/-!
# MultiVolumes of crystals moved in rounded arithmetic

`MultiVolume.transform` (czone/volume/volume.py:457-462) hands the transformation to every member.
-/

namespace CZ
namespace Fl

noncomputable section

variable (A : Arith)

/-- `Volume.transform` (volume.py:276-291) with the locked transformations `ms`, one after the other, for a volume bounded by surfaces and
filled by a crystal: surfaces, stored bases and origin of the crystal are moved.  `x` are the fractional coordinates of the corners of the
new bounding box, computed when the volume is filled again. -/
def Grain.move (ms : List Move) (x : V3 ℝ × List (V3 ℝ)) (g : Grain) : Py Grain :=
  match g.algs.mapM (algOf A ms) with
  | .error e => .error e
  | .ok algs => .ok { g with algs, B := basesOf A ms g.B, o := pointOf A ms g.o, e := x.1, es := x.2 }

mutual
/-- volume.py:457-462.  Simplification: every member is moved by all transformations before the next one is; when no call raises, the
order does not matter. -/
def Tree.move (ms : List Move) (x : Grain → V3 ℝ × List (V3 ℝ)) : Tree → Py Tree
  | .grain g => match g.move A ms (x g) with
    | .ok g' => .ok (.grain g')
    | .error e => .error e
  | .multi ts p => match Tree.moveAll ms x ts with
    | .ok ts' => .ok (.multi ts' p)
    | .error e => .error e
/-- The loop of volume.py:461-462, or of a user who moves the objects of a scene. -/
def Tree.moveAll (ms : List Move) (x : Grain → V3 ℝ × List (V3 ℝ)) : List Tree → Py (List Tree)
  | [] => .ok []
  | t :: ts => match t.move ms x with
    | .error e => .error e
    | .ok t' => match Tree.moveAll ms x ts with
      | .error e => .error e
      | .ok ts' => .ok (t' :: ts')
end

end
end Fl
end CZ
