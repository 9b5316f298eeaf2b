import Verif.Props.Molecule

/-!
# Properties C85, C86: origins of molecules
-/

set_option linter.unusedSectionVars false

namespace CZ
open Spec
namespace Mol
section
variable {K : Type} [Field K] [LinearOrder K] [IsStrictOrderedRing K]

/-! ## C85 -/

theorem initOrigin_cases (m : Mol K) (x : MolVal K) :
    match requestedOrigin m.atoms x with
    | some o => ∃ m', m.initOrigin x = (m', .ok ()) ∧ m'.origin = .ok o ∧ m'.atoms = m.atoms ∧ m'.species = m.species
    | none => ∃ m' e, m.initOrigin x = (m', .error e) := by
  have hidx : ∀ i : ℤ, |i| < (m.atoms.length : ℤ) → ∃ o, m.atoms[(position m.atoms.length i).toNat]? = some o ∧
      Mol.origin { m with tracking := true, originIdx := some i } = .ok o := by
    intro i hi
    have hi' := abs_lt.mp hi
    have hp : (position m.atoms.length i).toNat < m.atoms.length := by
      unfold position; split_ifs <;> omega
    refine ⟨m.atoms[(position m.atoms.length i).toNat], List.getElem?_eq_getElem hp, ?_⟩
    unfold Mol.origin
    simp only [if_true]
    rw [normIdx_of (by omega) hi'.2]
    simp only [bind, Except.bind, pyGet]
    rw [List.getElem?_eq_getElem hp]
  have hpt : ∀ xs : List K, (∃ x y z, xs = [x, y, z]) ∨ requestedOrigin m.atoms (.arr xs) = none ∧
      m.setOriginPoint xs = (m, .error .assertion) := by
    intro xs
    match xs with
    | [] => exact .inr ⟨rfl, rfl⟩
    | [_] => exact .inr ⟨rfl, rfl⟩
    | [_, _] => exact .inr ⟨rfl, rfl⟩
    | [x, y, z] => exact .inl ⟨x, y, z, rfl⟩
    | _ :: _ :: _ :: _ :: _ => exact .inr ⟨rfl, rfl⟩
  cases x with
  | none => exact ⟨_, rfl, rfl, rfl, rfl⟩
  | int i =>
    simp only [requestedOrigin]
    by_cases hi : |i| < (m.atoms.length : ℤ)
    · obtain ⟨o, ho, h⟩ := hidx i hi
      rw [if_pos hi, ho]
      refine ⟨{ m with tracking := true, originIdx := some i }, ?_, h, rfl, rfl⟩
      simp [initOrigin, setOriginByIdx, setOriginIdx, MolVal.asInt, hi]
    · rw [if_neg hi]
      exact ⟨{ m with tracking := true }, .index, by simp [initOrigin, setOriginByIdx, setOriginIdx, MolVal.asInt, hi]⟩
  | npInt i =>
    simp only [requestedOrigin]
    by_cases hi : |i| < (m.atoms.length : ℤ)
    · obtain ⟨o, ho, h⟩ := hidx i hi
      rw [if_pos hi, ho]
      refine ⟨{ m with tracking := true, originIdx := some i }, ?_, h, rfl, rfl⟩
      simp [initOrigin, setOriginByIdx, setOriginIdx, MolVal.asInt, hi]
    · rw [if_neg hi]
      exact ⟨{ m with tracking := true }, .index, by simp [initOrigin, setOriginByIdx, setOriginIdx, MolVal.asInt, hi]⟩
  | bool b => exact ⟨_, _, rfl⟩
  | float y => exact ⟨_, _, rfl⟩
  | arr xs =>
    rcases hpt xs with ⟨x, y, z, rfl⟩ | ⟨h1, h2⟩
    · exact ⟨_, rfl, rfl, rfl, rfl⟩
    · rw [h1]; exact ⟨m, .assertion, h2⟩

/-- **C85 (constructor).** `Molecule(species, positions, origin=x)` has the origin asked for: 0 by default, the atom of an
index, the given point; any other value is refused. -/
theorem C85_construction (s : List ℤ) (ps : List (V3 K)) (hl : ps.length = s.length) (x : MolVal K) :
    match requestedOrigin ps x with
    | some o => ∃ m, Mol.make s (flat3 ps) x none = .ok m ∧ m.origin = .ok o ∧ m.atoms = ps ∧ m.species = s
    | none => ∃ e, Mol.make s (flat3 ps) x none = .error e := by
  have h1 : Mol.setAtoms (⟨[], [], 0, 1, false, none, none, true⟩ : Mol K) s (flat3 ps) =
      (⟨ps, s, 0, 1, false, none, none, true⟩, .ok ()) := by
    unfold setAtoms; rw [chunk3_flat3]; simp [hl]
  have h := initOrigin_cases (⟨ps, s, 0, 1, false, none, none, true⟩ : Mol K) x
  unfold Mol.make
  rw [h1]
  simp only at h ⊢
  cases hr : requestedOrigin ps x with
  | some o =>
    rw [hr] at h
    obtain ⟨m', hm, ho, ha, hs⟩ := h
    exact ⟨m', by rw [hm], ho, ha, hs⟩
  | none =>
    rw [hr] at h
    obtain ⟨m', e, hm⟩ := h
    exact ⟨e, by rw [hm]⟩

/-- **C85 (set_origin).** `set_origin(point=p)` makes `p` the origin, `set_origin(idx=i)` makes the origin the atom `i` and it
stays with that atom when positions are updated; atoms and species do not change. -/
theorem C85_set_origin (m : Mol K) :
    (∀ x y z, ∃ m', m.setOriginPoint [x, y, z] = (m', .ok ()) ∧ m'.origin = .ok ⟨x, y, z⟩ ∧ m'.atoms = m.atoms ∧
      m'.species = m.species) ∧
    ∀ i : ℤ, |i| < (m.atoms.length : ℤ) → ∃ m', m.setOriginByIdx (.int i) = (m', .ok ()) ∧ m'.atoms = m.atoms ∧
      m'.species = m.species ∧ (∃ o, m.atoms[(position m.atoms.length i).toNat]? = some o ∧ m'.origin = .ok o) ∧
      ∀ ps : List (V3 K), ps.length = m.atoms.length → ∃ m'', m'.updatePositions (flat3 ps) = (m'', .ok ()) ∧
        ∃ o, ps[(position m.atoms.length i).toNat]? = some o ∧ m''.origin = .ok o := by
  refine ⟨fun x y z => ⟨_, rfl, rfl, rfl, rfl⟩, fun i hi => ?_⟩
  have key : ∀ m1 : Mol K, m1.atoms.length = m.atoms.length → m1.tracking = true → m1.originIdx = some i →
      ∃ o, m1.atoms[(position m.atoms.length i).toNat]? = some o ∧ m1.origin = .ok o := by
    intro m1 hl ht hx
    have h := initOrigin_cases m1 (.int i)
    rw [← hl] at hi ⊢
    simp only [requestedOrigin, if_pos hi] at h
    have hi' := abs_lt.mp hi
    have hp : (position m1.atoms.length i).toNat < m1.atoms.length := by
      unfold position; split_ifs <;> omega
    rw [List.getElem?_eq_getElem hp] at h ⊢
    obtain ⟨m', hm, ho, -, -⟩ := h
    refine ⟨_, rfl, ?_⟩
    simp [initOrigin, setOriginByIdx, setOriginIdx, MolVal.asInt, hi] at hm
    rw [← hm] at ho
    rw [← ho]
    unfold Mol.origin
    simp only [ht, hx]
  refine ⟨{ m with tracking := true, originIdx := some i }, ?_, rfl, rfl, key { m with tracking := true, originIdx := some i } rfl rfl rfl, ?_⟩
  · simp [setOriginByIdx, setOriginIdx, MolVal.asInt, hi]
  · intro ps hps
    refine ⟨{ m with tracking := true, originIdx := some i, atoms := ps }, ?_,
      key { m with tracking := true, originIdx := some i, atoms := ps } hps rfl rfl⟩
    unfold updatePositions
    rw [chunk3_flat3]
    simp [flat3_length, hps]

/-! ## C86 -/

/-- **C86 (partial).** `remove_atoms(indices, new_origin_idx=n)` refuses a new origin that is listed among the atoms to
remove or does not exist, and leaves the molecule unchanged.  Missing: that the new origin is set at all
(`C86_ignored`, `C86_refuted`). -/
theorem C86_rejects_removed_partial (m : Mol K) (rs : List ℤ) (n : ℤ) (h : n ∈ rs ∨ (m.atoms.length : ℤ) ≤ |n|) :
    m.removeAtoms rs (.int n) = (m, .error .index) := by
  have : m.checkNewOrigin rs (.int n) = .error .index := by
    unfold checkNewOrigin
    simp only [MolVal.asInt]
    split_ifs with h1 h2
    · rfl
    · rfl
    · rcases h with h | h
      · exact absurd h h2
      · exact absurd h h1
  unfold removeAtoms
  rw [this]

/-- **C86, finding.** An accepted new_origin_idx has no effect: the call does what it does without the argument. -/
theorem C86_ignored (m m' : Mol K) (rs : List ℤ) (x : MolVal K) (h : m.removeAtoms rs x = (m', .ok ())) :
    m.removeAtoms rs .none = (m', .ok ()) := by
  unfold removeAtoms at h ⊢
  cases hc : m.checkNewOrigin rs x with
  | error e => rw [hc] at h; cases h
  | ok u =>
    rw [hc] at h
    simpa only [checkNewOrigin] using h

end

/-- **C86, finding (instance).** Atom 0 is tracked, atom 2 removed, atom 1 requested as new origin: the call succeeds, the
origin is still atom 0. -/
theorem C86_refuted :
    ∃ m m' : Mol ℚ, m.species.length = m.atoms.length ∧ m.removeAtoms [2] (.int 1) = (m', .ok ()) ∧
      m.atoms[1]? = some ⟨2, 0, 0⟩ ∧ m'.atoms[1]? = some ⟨2, 0, 0⟩ ∧ m'.origin = .ok ⟨1, 0, 0⟩ :=
  ⟨⟨[⟨1, 0, 0⟩, ⟨2, 0, 0⟩, ⟨3, 0, 0⟩], [1, 2, 3], 0, 1, true, some 0, none, true⟩,
    ⟨[⟨1, 0, 0⟩, ⟨2, 0, 0⟩], [1, 2], 0, 1, true, some 0, none, true⟩, rfl, rfl, rfl, rfl, by decide +kernel⟩

end Mol

/-- Concrete case: a molecule of three atoms, origin at the last one. -/
example : requestedOrigin ([⟨1, 0, 0⟩, ⟨2, 0, 0⟩, ⟨3, 0, 0⟩] : List (V3 ℚ)) (.int (-1)) = some ⟨3, 0, 0⟩ := by decide +kernel

end CZ
