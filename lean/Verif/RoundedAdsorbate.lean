import Verif.RoundedAlign
import Verif.RoundedMolecule
import Verif.RoundedScene
import Verif.Adsorbate

/-!
# Placing an adsorbate in rounded arithmetic

`Ads.place` (adsorbate.py:181, 265-278) with every operation rounded.  The tests in the constructor of Rotation are exact, as in
`RoundedAlign`.
-/

namespace CZ
namespace Fl

noncomputable section

/-- Two matrices agree up to `η` entry by entry. -/
def Entrywise (η : ℝ) (M R : M3 ℝ) : Prop :=
  |M.m00 - R.m00| ≤ η ∧ |M.m01 - R.m01| ≤ η ∧ |M.m02 - R.m02| ≤ η ∧ |M.m10 - R.m10| ≤ η ∧ |M.m11 - R.m11| ≤ η ∧ |M.m12 - R.m12| ≤ η ∧
    |M.m20 - R.m20| ≤ η ∧ |M.m21 - R.m21| ≤ η ∧ |M.m22 - R.m22| ≤ η

/-- `scipy.spatial.transform.Rotation.from_rotvec(u).as_matrix()`: the rotation about `u` by the angle |u|, up to 2^-43 in every entry. -/
structure RotVec where
  mat : V3 ℝ → M3 ℝ
  zero : Entrywise (1024 * unit) (mat 0) 1
  near : ∀ u R, Tr.rodrigues u (norm3 u) = .ok R → Entrywise (1024 * unit) (mat u) R

variable (A : Arith) (T : Trig) (S : RotVec)

/-- A vector times a number. -/
def scale (v : V3 ℝ) (c : ℝ) : V3 ℝ := ⟨A.rnd (v.x * c), A.rnd (v.y * c), A.rnd (v.z * c)⟩

/-- transform.py:432-445, `rot_v`; a zero norm gives NaN. -/
def rotV (v : V3 ℝ) (theta : ℝ) : Py (M3 ℝ) :=
  if norm A v = 0 then .error .nan else .ok (S.mat (scale A v (A.rnd (theta / norm A v))))

/-- adsorbate.py:181, 265-278, as in `Ads.place`. -/
def place (mol : Mol ℝ) (idx : MolVal ℝ) (molVector : V3 ℝ) (molRotation bond : ℝ) (target normal : V3 ℝ) : Py (Mol ℝ) :=
  match mol.fromMolecule [] with
  | .error e => .error e
  | .ok m0 => match m0.setOriginByIdx idx with
    | (_, .error e) => .error e
    | (m1, .ok ()) => match rotVtv A T (mulVec A m1.orientation molVector) normal with
      | .error _ => .error .assertion
      | .ok R1 => match m1.origin with
        | .error e => .error e
        | .ok o1 => match Tr.mkRotation R1 (some o1) true false with
          | .error e => .error e
          | .ok _ => match molMove A m1 (.matrix R1 (some o1)) with
            | (_, .error e) => .error e
            | (m2, .ok ()) => match rotV A S normal molRotation with
              | .error _ => .error .assertion
              | .ok R2 => match m2.origin with
                | .error e => .error e
                | .ok o2 => match Tr.mkRotation R2 (some o2) true false with
                  | .error e => .error e
                  | .ok _ => match molMove A m2 (.matrix R2 (some o2)) with
                    | (_, .error e) => .error e
                    | (m3, .ok ()) => match m3.origin with
                      | .error e => .error e
                      | .ok o3 => match molMove A m3 (.shift (sub A (add A target (scale A normal bond)) o3)) with
                        | (_, .error e) => .error e
                        | (m4, .ok ()) => .ok m4

/-- adsorbate.py:265-292, without `debug`: the molecule and whether all its atoms are outside the volume with the surfaces `algs`
(volume.py:293-312: a point is inside if every surface accepts it).  The printed messages are left out. -/
def placeOn (algs : List Alg) (mol : Mol ℝ) (idx : MolVal ℝ) (molVector : V3 ℝ) (molRotation bond : ℝ) (target normal : V3 ℝ) : Py (Mol ℝ × Bool) :=
  match place A T S mol idx molVector molRotation bond target normal with
  | .error e => .error e
  | .ok m => .ok (m, m.atoms.all fun p => !(algs.all fun s => interior A s p))

/-- A molecule as an object of a scene: `populate_atoms` keeps the arrays (molecule.py:227-229), `checkIfInterior` is false for every
point (molecule.py:231-236). -/
def molObj (m : Mol ℝ) : SceneObj (V3 ℝ) ℤ :=
  { priority := m.priority, supply := .ok (m.atoms, m.species), cur := some (m.atoms, m.species), interior := fun _ => false }

/-- `Scene(bounds, [volume, adsorbate, ...])` (scene.py:24-43, 61-72). -/
def adsorbedScene (b : V3 ℝ × V3 ℝ) (g : Grain) (ms : List (Mol ℝ)) : Scene (V3 ℝ) ℤ := ⟨some (g.obj A :: ms.map molObj), none, b⟩

end
end Fl
end CZ
