import Verif.Prefab

/-!
# Programs of the documentation

Models of the worked examples of `docs/source/examples`, as compositions of the modelled calls.  Numbers which the examples write down
(radius of the sphere, numbers of the planes, cell) are parameters.
-/

namespace CZ
namespace Recipes

noncomputable section
open Classical

/-- nanoparticle_on_substrate.rst:57-60, `-i*b_111` with `b_111 = sbases @ [1,1,1]` made as long as `d`. -/
def below (x : Voxel ℝ) (d : ℝ) (i : ℤ) : Py (V3 ℝ) := do
  let u ← unitOrNan (x.sbases.mulVec ⟨1, 1, 1⟩)
  return (-(i : ℝ)) • (d • u)

/-- nanoparticle_on_substrate.rst:52-103, the defected nanoparticle: a sphere of radius `R` about the coordinate origin, a twin plane through the
origin, stacking faults at `i` and `j` spacings `d` below it. -/
def particle (env : Env) (g : Gen ℝ) (d R : ℝ) (i j : ℤ) : Py VTree :=
  match g.voxel with
  | none => .error .attribute
  | some x => do
    let s ← Sphere.make R 0 (1 / 10 ^ 5)
    let p0 ← snapPlane s.center g ⟨1, 1, 1⟩ "nearest"
    let qa ← below x d i
    let qb ← below x d j
    let pa ← snapPlane qa g ⟨1, 1, 1⟩ "nearest"
    let pb ← snapPlane qb g ⟨1, 1, 1⟩ "nearest"
    let ba := (1 / 3 : ℝ) • x.sbases.mulVec ⟨1, 1, -2⟩
    let bb := (1 / 3 : ℝ) • x.sbases.mulVec ⟨-1, 2, -1⟩
    let gt ← g.fromGenerator [Tr.mkReflection p0 true false]
    let ga ← g.fromGenerator [.translation ba true false]
    let gb ← g.fromGenerator [.translation bb true false]
    let wm ← Vol.make env none [.sphere s, .plane p0] (some (.crystal g)) 0 (1 / 10 ^ 10) none
    let wa ← Vol.make env none [.sphere s, .plane pa] (some (.crystal ga)) 0 (1 / 10 ^ 10) none
    let wb ← Vol.make env none [.sphere s, .plane pb] (some (.crystal gb)) 0 (1 / 10 ^ 10) none
    let wt ← Vol.make env none [.sphere s] (some (.crystal gt)) 0 (1 / 10 ^ 10) none
    return .multi [.vol { wt with priority := 4 }, .vol { wm with priority := 3 }, .vol { wa with priority := 2 },
      .vol { wb with priority := 1 }] 0 none

/-- nanoparticle_on_substrate.rst:126-131, placing a particle of radius `R` on the substrate: the result of `s2s_alignment`. -/
def placing (R : ℝ) : Py (Tr ℝ) := do
  let moving ← Plane.make ⟨0, 0, -1⟩ ⟨0, 0, -(8 / 10) * R⟩ (1 / 10 ^ 5)
  let target ← Plane.make ⟨0, 0, 1⟩ ⟨0, 0, 50⟩ (1 / 10 ^ 5)
  (Tr.s2sAlignment moving target (.vec 0) (.vec ⟨60, 60, 0⟩)).2

/-- core_shell_nanoparticle.rst:53-56, the planes of the family (100) `m` cells `a` from the origin, for the given directions. -/
def facets (g : Gen ℝ) (a : ℝ) (m : ℤ) : List (V3 ℤ) → Py (List Alg)
  | [] => .ok []
  | h :: hs => do
    let p ← snapPlane (((m : ℝ) * a) • millerV h) g h "nearest"
    let ps ← facets g a m hs
    return .plane p :: ps

/-- core_shell_nanoparticle.rst:51-58, the cube of the core. -/
def core (env : Env) (g : Gen ℝ) (a : ℝ) (m : ℤ) : Py Vol := do
  let ps ← facets g a m [⟨1, 0, 0⟩, ⟨-1, 0, 0⟩, ⟨0, 1, 0⟩, ⟨0, -1, 0⟩, ⟨0, 0, 1⟩, ⟨0, 0, -1⟩]
  Vol.make env none ps (some (.crystal g)) 0 (1 / 10 ^ 10) none

end
end Recipes
end CZ
