import Verif.Wulff

/-!
# The life of a WulffSingle object

Model of the attributes of `WulffSingle` (`czone/prefab/wulff.py` lines 46-86 and 143-195) over histories of calls.  WulffPack is
a parameter.  The dict of surface energies is a value: changes the caller makes inside the dict afterwards are not modelled.
-/

namespace CZ

noncomputable section
open Classical

namespace Wulff

/-- What is read of a WulffPack particle: the facets and `facet_fractions`. -/
structure Particle where
  facets : List Facet
  fractions : List (V3 ℤ × ℝ)

/-- WulffPack: `SingleCrystal(surface_energies, p_atoms, natoms)` and `Winterbottom(surface_energies, interface, interface_energy,
p_atoms, natoms)`.  `p_atoms` is given as the structure of which it is the primitive cell (wulff.py:55-56). -/
structure Pack where
  single : Energies → Struct ℝ → ℤ → Py Particle
  winterbottom : Energies → V3 ℤ → ℝ → Struct ℝ → ℤ → Py Particle

/-- Attributes `_generator`, `_p_atoms`, `_natoms`, `_surface_energies`, `_wulff`. -/
structure Obj where
  gen : Gen ℝ
  pAtoms : Struct ℝ
  natoms : ℤ
  energies : Energies
  cache : Option Particle

namespace Obj

/-- wulff.py:143-150, `WulffSingle(generator, surface_energies, natoms)`. -/
def make (gen : Option GenObj) (e : Energies) (natoms : PyVal) : Py Obj :=
  match gen with
  | some (.crystal g) => match g.struct with
    | none => .error .attribute
    | some s => do
      let n ← natomsSet natoms
      let e ← energiesSet e
      return ⟨g, s, n, e, none⟩
  | _ => .error .assertion

/-- wulff.py:51-56, the `generator` setter: the generator is stored before its structure is read. -/
def setGenerator (o : Obj) : Option GenObj → Obj × Py Unit
  | some (.crystal g) => match g.struct with
    | none => ({ o with gen := g }, .error .attribute)
    | some s => ({ o with gen := g, pAtoms := s }, .ok ())
  | _ => (o, .error .assertion)

/-- wulff.py:68-73, the `natoms` setter. -/
def setNatoms (o : Obj) (x : PyVal) : Obj × Py Unit :=
  match natomsSet x with
  | .error e => (o, .error e)
  | .ok n => ({ o with natoms := n }, .ok ())

/-- wulff.py:80-86, the `surface_energies` setter. -/
def setEnergies (o : Obj) (x : Energies) : Obj × Py Unit :=
  match energiesSet x with
  | .error e => (o, .error e)
  | .ok x => ({ o with energies := x }, .ok ())

/-- wulff.py:161-165, the property `wulff`: computed once and kept. -/
def wulff (pack : Pack) (o : Obj) : Obj × Py Particle :=
  match o.cache with
  | some P => (o, .ok P)
  | none => match pack.single o.energies o.pAtoms o.natoms with
    | .error e => (o, .error e)
    | .ok P => ({ o with cache := some P }, .ok P)

/-- wulff.py:168-172 and 193-195: the Volume of the facets, with the generator of the object. -/
def volumeOf (env : Env) (o : Obj) (fs : List Facet) : Py Vol := do
  let ps ← planesFrom fs
  Vol.make env none (ps.map .plane) (some (.crystal o.gen)) 0 (1 / 10 ^ 10) none

/-- wulff.py:167-172, `get_construction(return_facet_areas=True)`: volume and facet fractions; without the flag the first
component. -/
def construct (env : Env) (pack : Pack) (o : Obj) : Obj × Py (Vol × List (V3 ℤ × ℝ)) :=
  match o.wulff pack with
  | (o', .error e) => (o', .error e)
  | (o', .ok P) => match o'.volumeOf env P.facets with
    | .error e => (o', .error e)
    | .ok v => (o', .ok (v, P.fractions))

/-- wulff.py:174-175, `get_areas`: reads `_wulff`, not `wulff`. -/
def getAreas (o : Obj) : Py (List (V3 ℤ × ℝ)) :=
  match o.cache with
  | none => .error .attribute
  | some P => .ok P.fractions

/-- wulff.py:177-195, `winterbottom(interface, interface_energy)`. -/
def winterbottom (env : Env) (pack : Pack) (o : Obj) (interface : V3 ℤ) (energy : ℝ) : Py Vol := do
  let P ← pack.winterbottom o.energies interface energy o.pAtoms o.natoms
  o.volumeOf env P.facets

/-- What the caller can do.  `touch` is any change made directly to the generator object, which the caller may still hold:
the object then sees the changed generator. -/
inductive Op
  | setGenerator (g : Option GenObj)
  | setNatoms (x : PyVal)
  | setEnergies (x : Energies)
  | touch (g : Gen ℝ)
  | construct
  | getAreas
  | winterbottom (interface : V3 ℤ) (energy : ℝ)

/-- The object after one call, exceptions caught by the caller. -/
def step (env : Env) (pack : Pack) (o : Obj) : Op → Obj
  | .setGenerator g => (o.setGenerator g).1
  | .setNatoms x => (o.setNatoms x).1
  | .setEnergies x => (o.setEnergies x).1
  | .touch g => { o with gen := g }
  | .construct => (o.construct env pack).1
  | .getAreas => o
  | .winterbottom _ _ => o

/-- A history of calls. -/
def run (env : Env) (pack : Pack) (o : Obj) (ops : List Op) : Obj := ops.foldl (step env pack) o

end Obj
end Wulff

end
end CZ
