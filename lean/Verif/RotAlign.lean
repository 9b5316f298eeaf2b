import Verif.Transform

/-!
# rot_align (czone/transform/transform.py)
-/

namespace CZ
namespace Tr

/-- transform.py:486-497, `rot_align(v, vt)`.  `alignVectors` stands for scipy's `Rotation.align_vectors(vt, v)`, which raises or
returns a tuple of a rotation and a residual (contract).  A tuple has no attribute `as_matrix`. -/
def rotAlign (alignVectors : List (V3 ℝ) → List (V3 ℝ) → Py (M3 ℝ × ℝ)) (v vt : List (V3 ℝ)) : Py (M3 ℝ) :=
  match alignVectors vt v with
  | .error e => .error e
  | .ok (_, _) => .error .attribute

end Tr
end CZ
