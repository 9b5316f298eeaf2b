import Verif.Geom
import Mathlib.Analysis.SpecialFunctions.Trigonometric.Basic

/-!
# Specification of unit cells by lengths and angles

What crystallographers mean by a cell with lengths `a, b, c` and angles `α, β, γ` in degrees: the squared length of the
vector with crystal coordinates `d` is the quadratic form below.  No matrix is involved.
-/

namespace CZ.Spec

/-- Squared length of the vector `d.x a + d.y b + d.z c` of the cell. -/
noncomputable def cellNormSq (dims angs d : V3 ℝ) : ℝ :=
  (d.x * dims.x) ^ 2 + (d.y * dims.y) ^ 2 + (d.z * dims.z) ^ 2
    + 2 * (d.y * dims.y) * (d.z * dims.z) * Real.cos (angs.x * Real.pi / 180)
    + 2 * (d.x * dims.x) * (d.z * dims.z) * Real.cos (angs.y * Real.pi / 180)
    + 2 * (d.x * dims.x) * (d.y * dims.y) * Real.cos (angs.z * Real.pi / 180)

/-- The cell exists: positive lengths, angles strictly between 0 and 180 degrees, positive volume. -/
structure ProperCell (dims angs : V3 ℝ) : Prop where
  lengths : 0 < dims.x ∧ 0 < dims.y ∧ 0 < dims.z
  angles : (0 < angs.x ∧ angs.x < 180) ∧ (0 < angs.y ∧ angs.y < 180) ∧ (0 < angs.z ∧ angs.z < 180)
  volume : 0 < 1 + 2 * Real.cos (angs.x * Real.pi / 180) * Real.cos (angs.y * Real.pi / 180)
      * Real.cos (angs.z * Real.pi / 180) - Real.cos (angs.x * Real.pi / 180) ^ 2
      - Real.cos (angs.y * Real.pi / 180) ^ 2 - Real.cos (angs.z * Real.pi / 180) ^ 2

/-- Crystal coordinates of the site `f` of cell `n`. -/
def crystalCoords (n : V3 ℤ) (f : V3 ℝ) : V3 ℝ := ⟨(n.x : ℝ) + f.x, (n.y : ℝ) + f.y, (n.z : ℝ) + f.z⟩

/-- A cluster of atoms which could have been cut from the crystal: there is an assignment of atoms to different sites of
the crystal with the right species such that all interatomic distances are those of the crystal. -/
def CutFromCrystal (dims angs : V3 ℝ) (sites : List (V3 ℝ × ℤ)) (ps : List (V3 ℝ)) (zs : List ℤ) : Prop :=
  ∃ labels : List (V3 ℤ × Fin sites.length), labels.Nodup ∧ labels.length = ps.length ∧
    zs = labels.map (fun l => (sites.get l.2).2) ∧
    ∀ a ∈ ps.zip labels, ∀ b ∈ ps.zip labels,
      (a.1 - b.1).normSq = cellNormSq dims angs
        (crystalCoords a.2.1 (sites.get a.2.2).1 - crystalCoords b.2.1 (sites.get b.2.2).1)

end CZ.Spec
