import Verif.Molecule

/-!
# Specification vocabulary for molecules
-/

namespace CZ.Spec

/-- Position on an axis of length `n` that the Python index `r` denotes. -/
def position (n : ℕ) (r : ℤ) : ℤ := if r < 0 then r + n else r

/-- Positions that remain when the Python indices `rs` are removed, in increasing order. -/
def remaining (n : ℕ) (rs : List ℤ) : List ℕ :=
  (List.range n).filter fun i => decide (∀ r ∈ rs, position n r ≠ i)

/-- The rows of `xs` at the given positions. -/
def rowsAt {α : Type} (xs : List α) (is : List ℕ) : List α := is.filterMap (xs[·]?)

/-- A matrix that is a rotation up to 1e-6: determinant and total deviation of the scalar products of its rows. -/
def NearRotation {K : Type} [Field K] [LinearOrder K] (M : M3 K) : Prop :=
  let r0 : V3 K := ⟨M.m00, M.m01, M.m02⟩
  let r1 : V3 K := ⟨M.m10, M.m11, M.m12⟩
  let r2 : V3 K := ⟨M.m20, M.m21, M.m22⟩
  |r0.dot (r1.cross r2) - 1| ≤ 1 / 10 ^ 6 ∧
    |r0.dot r0 - 1| + |r1.dot r1 - 1| + |r2.dot r2 - 1| + 2 * (|r0.dot r1| + |r0.dot r2| + |r1.dot r2|) ≤ 1 / 10 ^ 6

/-- The origin a user asks for with the constructor argument `origin=x` of a molecule with atoms `ps`: nothing given: 0; an
index: that atom (the code refuses the index -n); three numbers: that point; anything else is refused. -/
def requestedOrigin {K : Type} [Zero K] (ps : List (V3 K)) : MolVal K → Option (V3 K)
  | .none => some ⟨0, 0, 0⟩
  | .int i => if |i| < (ps.length : ℤ) then ps[(position ps.length i).toNat]? else Option.none
  | .npInt i => if |i| < (ps.length : ℤ) then ps[(position ps.length i).toNat]? else Option.none
  | .arr [x, y, z] => some ⟨x, y, z⟩
  | _ => Option.none

/-- The points `ps` are the numbers `xs` read three at a time. -/
def ReadBy3 {K : Type} (xs : List K) (ps : List (V3 K)) : Prop :=
  xs.length = 3 * ps.length ∧
    ∀ (i : ℕ) q, ps[i]? = some q → xs[3 * i]? = some q.x ∧ xs[3 * i + 1]? = some q.y ∧ xs[3 * i + 2]? = some q.z

/-- `x` is the integer `n`, a Python or a numpy one. -/
def IsInteger {K : Type} (x : MolVal K) (n : ℤ) : Prop := x = .int n ∨ x = .npInt n

/-- When a call on a molecule `m` is to be accepted. -/
def Accepts {K : Type} [Field K] [LinearOrder K] (m : Mol K) : Mol.Op K → Prop
  | .setAtoms s p => p.length = 3 * s.length
  | .updatePositions p => p.length = 3 * m.atoms.length
  | .updateSpecies s => s.length = m.species.length
  | .removeAtoms rs x =>
    (x = .none ∨ ∃ n, IsInteger x n ∧ |n| < (m.atoms.length : ℤ) ∧ n ∉ rs) ∧
    (m.tracking = true → ∃ i, m.originIdx = some i ∧ i ∉ rs) ∧
    ∀ r ∈ rs, -(m.atoms.length : ℤ) ≤ r ∧ r < m.atoms.length
  | .setOriginPoint xs => xs.length = 3
  | .setOriginIdx x => x = .none ∨ ∃ n, IsInteger x n ∧ |n| < (m.atoms.length : ℤ)
  | .setPriority x => ∃ n, IsInteger x n
  | .setOrientation M => NearRotation M
  | .resetOrientation => True
  | .transform _ b =>
    b = true → if m.tracking then (m.printWarnings = true → m.originIdx ≠ none) else m.originPt ≠ none
  | .printWarnings _ => True

/-- What an accepted call makes of the molecule `m`. -/
def Effect {K : Type} [Field K] [LinearOrder K] (m : Mol K) : Mol.Op K → Mol K → Prop
  | .setAtoms s p, m' => ∃ ps, ReadBy3 p ps ∧ m' = { m with atoms := ps, species := s }
  | .updatePositions p, m' => ∃ ps, ReadBy3 p ps ∧ m' = { m with atoms := ps }
  | .updateSpecies s, m' => m' = { m with species := s }
  | .removeAtoms rs _, m' =>
    m' = { m with species := rowsAt m.species (remaining m.atoms.length rs)
                  atoms := rowsAt m.atoms (remaining m.atoms.length rs) }
  | .setOriginPoint xs, m' => ∃ x y z, xs = [x, y, z] ∧ m' = { m with tracking := false, originPt := some ⟨x, y, z⟩ }
  | .setOriginIdx x, m' =>
    (x = .none ∧ m' = m) ∨ ∃ n, IsInteger x n ∧ m' = { m with tracking := true, originIdx := some n }
  | .setPriority x, m' => ∃ n, IsInteger x n ∧ m' = { m with priority := n }
  | .setOrientation M, m' => m' = { m with orientation := M }
  | .resetOrientation, m' => m' = { m with orientation := ⟨1, 0, 0, 0, 1, 0, 0, 0, 1⟩ }
  | .transform t b, m' =>
    m' = { m with atoms := m.atoms.map t.apply
                  originPt := if b = true ∧ m.tracking = false then m.originPt.map t.apply else m.originPt }
  | .printWarnings b, m' => m' = { m with printWarnings := b }

open Classical in
/-- The exception with which a call that does not fit is refused. -/
noncomputable def refusal {K : Type} [Field K] [LinearOrder K] (m : Mol K) : Mol.Op K → PyErr
  | .removeAtoms rs x =>
    if x ≠ .none ∧ ¬ ∃ n, IsInteger x n then .type
    else if ∃ n, IsInteger x n ∧ ((m.atoms.length : ℤ) ≤ |n| ∨ n ∈ rs) then .index
    else if m.tracking = true ∧ m.originIdx = none then .attribute
    else if m.tracking = true ∧ ∃ i ∈ rs, m.originIdx = some i then .notImplemented
    else .index
  | .setOriginPoint _ => .assertion
  | .setOriginIdx x => if ∃ n, IsInteger x n then .index else .type
  | .setPriority _ => .type
  | .transform _ _ => .attribute
  | _ => .value

end CZ.Spec
