import Verif.RoundedMotion
import Verif.Molecule

/-!
# Molecules moved in rounded arithmetic

`Molecule.transform` as in `Molecule`, with the images of the atoms and of the origin computed in rounded arithmetic, and the matrix of
a `Reflection`.
-/

namespace CZ
namespace Fl

noncomputable section

variable (A : Arith)

/-- molecule.py:166-182, `transform(transformation)` with `transform_origin=True`. -/
def molMove (m : Mol ℝ) (t : Move) : Mol ℝ × Py Unit :=
  match m.setAtoms m.species (flat3 (m.atoms.map (t.point A))) with
  | (m1, .error e) => (m1, .error e)
  | (m1, .ok ()) =>
    if m1.tracking then
      if m1.printWarnings ∧ m1.originIdx = none then (m1, .error .attribute) else (m1, .ok ())
    else match m1.origin with
      | .error e => (m1, .error e)
      | .ok o => let q := t.point A o; m1.setOriginPoint [q.x, q.y, q.z]

/-- Repeated calls of `transform`, or the list given to `from_molecule` (molecule.py:253-267). -/
def molOf : List Move → Mol ℝ → Py (Mol ℝ)
  | [], m => .ok m
  | t :: ts, m => match molMove A m t with
    | (m', .ok ()) => molOf ts m'
    | (_, .error e) => .error e

/-- transform.py:316-319, the matrix of `Reflection`: `np.eye(3) - (2.0 / (n.T @ n)) * (n @ n.T)`. -/
def reflMatrix (n : V3 ℝ) : M3 ℝ :=
  let c := A.rnd (2 / A.dot n n)
  let e (d a b : ℝ) := A.rnd (d - A.rnd (c * A.rnd (a * b)))
  ⟨e 1 n.x n.x, e 0 n.x n.y, e 0 n.x n.z,
   e 0 n.y n.x, e 1 n.y n.y, e 0 n.y n.z,
   e 0 n.z n.x, e 0 n.z n.y, e 1 n.z n.z⟩

end
end Fl
end CZ
