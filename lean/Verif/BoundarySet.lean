import Verif.Prefab

/-!
# Assignments to a grain boundary builder

Model of the attributes of `SimpleGrainBoundary` as they can be assigned before `build_object` (czone/prefab/prefab.py:473-540).
Arrays of zone axes have at most two axes.
-/

namespace CZ
noncomputable section
open Classical

namespace Prefab

/-- What may be assigned to `z1` or `z2`, as an array: three numbers of shape (3,) or (3,1), three numbers of shape (1,3), None, anything
with another number of entries. -/
inductive ZArg
  | vec (z : V3 ℝ)
  | row (z : V3 ℝ)
  | none
  | other

/-- A stored zone axis; `flat` is False for the shape (1,3). -/
structure Axis where
  z : V3 ℝ
  flat : Bool

/-- prefab.py:501-507, the `z1` setter: the array to store.  `np.array(None)` has one entry. -/
def axisSet : ZArg → Py Axis
  | .vec z => .ok ⟨z, true⟩
  | .row z => .ok ⟨z, false⟩
  | .none => .error .assertion
  | .other => .error .assertion

/-- A SimpleGrainBoundary with its attributes.  `shared` says whether `_z1` and `_z2` are one array object (prefab.py:515-516). -/
structure BState where
  axis1 : Axis
  axis2 : Axis
  shared : Bool
  plane : BoundaryPlane
  vol : Option VTree
  gen : Option GenObj

/-- Assignments and calls: attributes by name; `poke1 k x` is `b.z1.flat[k] = x` and `poke2 k x` the same for `z2`, with an integer `x`
(stored exactly in arrays of integers and of floats); `phase` assigns `r1` or `r2`. -/
inductive BOp
  | setZ1 (a : ZArg)
  | setZ2 (a : ZArg)
  | poke1 (k : Fin 3) (x : ℤ)
  | poke2 (k : Fin 3) (x : ℤ)
  | setPlane (p : BoundaryPlane)
  | setVolume (v : Option VTree)
  | setGenerator (g : Option GenObj)
  | phase
  | build

/-- One entry of the array replaced. -/
def Axis.poke (a : Axis) (k : Fin 3) (x : ℤ) : Axis :=
  match k with
  | 0 => { a with z := { a.z with x := (x : ℝ) } }
  | 1 => { a with z := { a.z with y := (x : ℝ) } }
  | 2 => { a with z := { a.z with z := (x : ℝ) } }

/-- One assignment or call; the object afterwards and the outcome: prefab.py:497-522 for the axes; the other attributes are plain;
`build_object` (524-540) assigns nothing.  `z2 = None` makes `_z2` a reference to the array in `_z1`. -/
def BState.step (b : BState) : BOp → BState × Py Unit
  | .setZ1 a => match axisSet a with
    | .ok z => ({ b with axis1 := z, shared := false }, .ok ())
    | .error e => (b, .error e)
  | .setZ2 .none => ({ b with axis2 := b.axis1, shared := true }, .ok ())
  | .setZ2 a => match axisSet a with
    | .ok z => ({ b with axis2 := z, shared := false }, .ok ())
    | .error e => (b, .error e)
  | .poke1 k x =>
    let z := b.axis1.poke k x
    ({ b with axis1 := z, axis2 := if b.shared then z else b.axis2 }, .ok ())
  | .poke2 k x =>
    let z := b.axis2.poke k x
    ({ b with axis2 := z, axis1 := if b.shared then z else b.axis1 }, .ok ())
  | .setPlane p => ({ b with plane := p }, .ok ())
  | .setVolume v => ({ b with vol := v }, .ok ())
  | .setGenerator g => ({ b with gen := g }, .ok ())
  | .phase => (b, .ok ())
  | .build => (b, .ok ())

/-- A history, exceptions caught by the caller. -/
def BState.run (b : BState) : List BOp → BState
  | [] => b
  | o :: os => BState.run (b.step o).1 os

/-- prefab.py:473-493, `SimpleGrainBoundary(z1, r1, z2, r2, plane, point, volume, generator)`: the setters in the order of the code. -/
def BState.make (z1 z2 : ZArg) (plane : BoundaryPlane) (vol : Option VTree) (gen : Option GenObj) : Py BState := do
  let a ← axisSet z1
  match z2 with
  | .none => return ⟨a, a, true, plane, vol, gen⟩
  | z2 => do
    let c ← axisSet z2
    return ⟨a, c, false, plane, vol, gen⟩

/-- prefab.py:524-540, `build_object` with the shapes of the axes: `sbases @ z` of an array of shape (1,3) raises ValueError.  Both
products are computed before anything else. -/
def BState.build (env : Env) (b : BState) : Py VTree :=
  match b.gen with
  | some (.crystal g) =>
    match g.voxel with
    | none => .error .attribute
    | some _ =>
      if b.axis1.flat ∧ b.axis2.flat then Boundary.build env ⟨b.axis1.z, b.axis2.z, b.plane, b.vol, b.gen⟩
      else .error .value
  | _ => .error .attribute

end Prefab
end
end CZ
