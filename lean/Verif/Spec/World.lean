import Verif.World
import Verif.Spec.Volume
import Verif.Spec.Crystal

/-!
# Specification of scenes of actual objects
-/

namespace CZ.Spec

/-- The points an object keeps free of others: those inside a volume, none for a molecule. -/
def Occupies (env : Env) : Item → V3 ℝ → Prop
  | .vol t, p => Inside env t p
  | .mol _, _ => False

/-- What an object contributes when alone: the contents of a volume (`Fills`), the atoms of a molecule. -/
inductive Holds (env : Env) : Item → List (V3 ℝ × ℤ) → Prop
  | vol (t : VTree) (cs : List (V3 ℝ × ℤ)) (h : Fills env t cs) : Holds env (.vol t) cs
  | mol (m : Mol ℝ) : Holds env (.mol m) (m.atoms.zip m.species)

end CZ.Spec
