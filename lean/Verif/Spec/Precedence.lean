import Mathlib.Data.List.FinRange
import Mathlib.Data.List.Perm.Basic

/-!
# Specification of conflict resolution (independent of the model)

A scene is a list of bodies.  A site of body `i` survives iff it is inside no *other* body whose priority number is
less than or equal to that of body `i`.  Nothing here mentions sorting, offsets, levels or masks.
-/

namespace CZ.Spec

/-- A body: priority number, supplied sites (position with species), and the region it occupies. -/
structure Body (P S : Type) where
  priority : ℤ
  sites : List (P × S)
  inside : P → Prop

variable {P S : Type}

/-- The documented rule: position `x` supplied by body number `i` survives. -/
def Survives (bs : List (Body P S)) (i : Fin bs.length) (x : P) : Prop :=
  ∀ j : Fin bs.length, j ≠ i → bs[j].priority ≤ bs[i].priority → ¬ bs[j].inside x

open Classical in
/-- Sites contributed by body `i`. -/
noncomputable def contributed (bs : List (Body P S)) (i : Fin bs.length) : List (P × S) :=
  bs[i].sites.filter (fun q => decide (Survives bs i q.1))

/-- All sites of the scene, body by body. -/
noncomputable def contents (bs : List (Body P S)) : List (P × S) :=
  (List.finRange bs.length).flatMap (contributed bs)

end CZ.Spec
