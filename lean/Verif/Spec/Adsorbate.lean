import Verif.Adsorbate
import Verif.Spec.Surface
import Verif.Spec.Molecule
import Verif.Spec.Transform

/-!
# Specification vocabulary for adsorbates
-/

namespace CZ.Spec
open Ads

/-- Atom number `i` satisfies the request of a filter.  A mask with a single entry speaks about all atoms. -/
def Passes (atoms : List (V3 ℝ)) (species : List ℤ) (i : ℕ) : Filter → Prop
  | .element zs => ∃ s ∈ zs, species[i]? = some s
  | .mask m => m[i]? = some true ∨ m = [true]
  | .indices is => ∃ r ∈ is, position atoms.length r = i
  | .spatial f => (f atoms)[i]? = some true ∨ f atoms = [true]
  | .other => True

/-- Every filter describes as many atoms as there are (or one value for all). -/
def FilterFits (atoms : List (V3 ℝ)) : Filter → Prop
  | .element zs => zs ≠ []
  | .mask m => m.length = atoms.length ∨ m.length = 1
  | .indices is => ∀ r ∈ is, -(atoms.length : ℤ) ≤ r ∧ r < atoms.length
  | .spatial f => (f atoms).length = atoms.length ∨ (f atoms).length = 1
  | .other => True

/-- The sequence draws every one of `n` points within the first `steps` draws. -/
def VisitsAll (n steps : ℕ) (seq : ℕ → ℕ) : Prop := ∀ i < n, ∃ k < steps, seq k = i

end CZ.Spec
