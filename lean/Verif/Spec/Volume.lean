import Verif.Volume
import Verif.Spec.Precedence

/-!
# Specification of volumes: region and contents

`Inside` says which points belong to a volume, `Fills` what a (nested) volume contains, both without masks, sorting,
offsets or loops.
-/

namespace CZ.Spec

/-- A point belongs to a Volume iff it is in the hull (when there is one) and on the inner side of every algebraic object;
it belongs to a MultiVolume iff it belongs to one of the owned volumes. -/
inductive Inside (env : Env) : VTree → V3 ℝ → Prop
  | vol (v : Vol) (p : V3 ℝ) (hh : ∀ t, v.tri = some t → env.inHull t v.tol p = true)
      (ha : ∀ a ∈ v.algs, a.interior p = true) : Inside env (.vol v) p
  | multi (vs : List VTree) (pr : ℤ) (h : Option (List (V3 ℝ) × List ℤ)) (v : VTree) (p : V3 ℝ) (hv : v ∈ vs)
      (hi : Inside env v p) : Inside env (.multi vs pr h) p

/-- The generator of the volume can supply the sites `cs` (for some state of the random number source). -/
def Supplied (env : Env) (v : Vol) (cs : List (V3 ℝ × ℤ)) : Prop :=
  ∃ n b g ps zs, v.boundingBox env = .ok b ∧ v.gen = some g ∧ (g.supply env n b).2 = .ok (ps, zs) ∧
    ps.length = zs.length ∧ cs = ps.zip zs

open Classical in
/-- `Fills t cs`: the volume tree `t` contains the sites `cs`.  A Volume contains the supplied sites inside it.  A
MultiVolume contains a site of an owned volume iff the site is not inside another owned volume of smaller or equal
priority number (`Spec.contents`). -/
inductive Fills (env : Env) : VTree → List (V3 ℝ × ℤ) → Prop
  | vol (v : Vol) (cs : List (V3 ℝ × ℤ)) (h : Supplied env v cs) :
      Fills env (.vol v) (cs.filter fun a => decide (Inside env (.vol v) a.1))
  | multi (parts : List (VTree × List (V3 ℝ × ℤ))) (pr : ℤ) (held : Option (List (V3 ℝ) × List ℤ))
      (h : ∀ x ∈ parts, Fills env x.1 x.2) :
      Fills env (.multi (parts.map Prod.fst) pr held)
        (contents (parts.map fun x => ⟨x.1.priority, x.2, Inside env x.1⟩))

/-- The Volumes at the leaves of a tree. -/
inductive Leaf : VTree → Vol → Prop
  | vol (v : Vol) : Leaf (.vol v) v
  | multi (vs : List VTree) (pr : ℤ) (h : Option (List (V3 ℝ) × List ℤ)) (t : VTree) (v : Vol) (ht : t ∈ vs)
      (hl : Leaf t v) : Leaf (.multi vs pr h) v

end CZ.Spec
