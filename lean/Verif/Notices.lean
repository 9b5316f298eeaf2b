import Verif.World

/-!
# Warnings

`warnings.warn` is called at two places (czone/molecule/molecule.py:180, 235).  The functions below give the calls made, in order; what the
filters of the `warnings` module do with them afterwards is not described.
-/

namespace CZ

/-- The two warnings: molecule.py:235 (interior check of a molecule) and molecule.py:180 (origin tracks the atom with the index in the text). -/
inductive Warning
  | interior
  | tracking (idx : ℤ)

namespace Precedence

/-- The objects whose `checkIfInterior` the resolution loop calls, in order (scene.py:154-162). -/
def asked {P S : Type} (s : List (Obj P S)) : Py (List ℕ) := do
  let parts ← s.zipIdx.mapM (fun x => do
    let lvl ← pyGet (getPriorities s).1 x.2
    let eidx ← pyGet (getPriorities s).2 (lvl + 1)
    pure ((List.range eidx).filter fun j => x.2 ≠ j))
  pure parts.flatten

end Precedence

noncomputable section

/-- Warnings of `ob.checkIfInterior(...)`, one call (molecule.py:235; volume.py:293-312, 464-477 have none: a MultiVolume asks Volumes only). -/
def Item.interiorWarnings : Item → List Warning
  | .vol _ => []
  | .mol _ => [.interior]

/-- Warnings of `Scene.populate()` (scene.py:135-164): `populate_atoms` issues none, then the loop asks the objects. -/
def World.populateWarnings (env : Env) (w : World) (n : ℕ) : List Warning :=
  match w.objects with
  | none => []
  | some xs =>
    match Item.populateList env xs n with
    | (_, _, .error _) => []
    | (xs', _, .ok ()) =>
      let s := stableSort Item.priority xs'
      match Precedence.asked ((s.map (Item.view env)).map Scene.toObj) with
      | .error _ => []
      | .ok js => js.flatMap fun j => (s[j]?.map Item.interiorWarnings).getD []

end

namespace Mol
variable {K : Type} [Field K] [LinearOrder K]

/-- Warnings of `transform` (molecule.py:176-181): issued after the positions were set; the text needs `_origin_idx`. -/
def transformWarnings (m : Mol K) (t : Tr K) (transformOrigin : Bool) : List Warning :=
  match m.setAtoms m.species (flat3 (m.atoms.map t.apply)) with
  | (_, .error _) => []
  | (m1, .ok ()) =>
    if transformOrigin then
      if m1.tracking then
        if m1.printWarnings then
          match m1.originIdx with
          | none => []
          | some i => [.tracking i]
        else []
      else []
    else []

/-- Warnings of one call; only `transform` has any. -/
def stepWarnings (m : Mol K) : Op K → List Warning
  | .transform t b => m.transformWarnings t b
  | _ => []

/-- Warnings of a history of calls on one molecule. -/
def runWarnings (m : Mol K) : List (Op K) → List Warning
  | [] => []
  | o :: ops => m.stepWarnings o ++ runWarnings (m.step o).1 ops

end Mol

end CZ
