import Verif.Props.Molecule

/-!
# Property C105: what every call on a molecule does
-/

set_option linter.unusedSectionVars false

namespace CZ
open Spec

theorem readBy3_flat3 {K : Type} (ps : List (V3 K)) : ReadBy3 (flat3 ps) ps := by
  refine ⟨flat3_length ps, ?_⟩
  induction ps with
  | nil => intro i q h; simp at h
  | cons p ps ih =>
    intro i q h
    show (p.x :: p.y :: p.z :: flat3 ps)[3 * i]? = _ ∧ (p.x :: p.y :: p.z :: flat3 ps)[3 * i + 1]? = _ ∧
      (p.x :: p.y :: p.z :: flat3 ps)[3 * i + 2]? = _
    cases i with
    | zero => simp at h; subst h; simp
    | succ j =>
      have := ih j q (by simpa using h)
      rw [show 3 * (j + 1) = 3 * j + 1 + 1 + 1 by ring]
      simpa using this

theorem readBy3_iff {K : Type} (xs : List K) (ps : List (V3 K)) : ReadBy3 xs ps ↔ xs = flat3 ps := by
  constructor
  · induction ps generalizing xs with
    | nil => intro h; have := h.1; simpa [flat3] using this
    | cons p ps ih =>
      rintro ⟨hl, h⟩
      match xs, hl, h with
      | a :: b :: c :: r, hl, h =>
        have h0 := h 0 p (by simp)
        simp at h0
        obtain ⟨rfl, rfl, rfl⟩ := h0
        show _ = p.x :: p.y :: p.z :: flat3 ps
        rw [← ih r ⟨by simp at hl; omega, fun i q hq => ?_⟩]
        have := h (i + 1) q (by simpa using hq)
        rw [show 3 * (i + 1) = 3 * i + 1 + 1 + 1 by ring] at this
        simpa using this
  · rintro rfl
    exact readBy3_flat3 ps

theorem chunk3_of_length {K : Type} : ∀ (l : List K) (n : ℕ), l.length = 3 * n →
    ∃ ps, chunk3 l = .ok ps ∧ l = flat3 ps ∧ ps.length = n
  | [], n, h => ⟨[], rfl, rfl, by simp at h; simp; omega⟩
  | [_], n, h => by simp at h; omega
  | [_, _], n, h => by simp at h; omega
  | x :: y :: z :: r, n, h => by
    obtain ⟨ps, h1, h2, h3⟩ := chunk3_of_length r (n - 1) (by simp at h; omega)
    refine ⟨⟨x, y, z⟩ :: ps, by rw [chunk3, h1]; rfl, ?_, by simp at h ⊢; omega⟩
    rw [h2]; rfl

namespace Mol
section
variable {K : Type} [Field K] [LinearOrder K] [IsStrictOrderedRing K]

theorem setAtoms_of {m : Mol K} {s : List ℤ} {p : List K} (h : p.length = 3 * s.length) :
    ∃ ps, ReadBy3 p ps ∧ m.setAtoms s p = ({ m with atoms := ps, species := s }, .ok ()) := by
  obtain ⟨ps, h1, h2, h3⟩ := chunk3_of_length p _ h
  refine ⟨ps, (readBy3_iff _ _).mpr h2, ?_⟩
  unfold setAtoms
  rw [h1]
  simp [h3]

theorem updatePositions_of {m : Mol K} {p : List K} (h : p.length = 3 * m.atoms.length) :
    ∃ ps, ReadBy3 p ps ∧ m.updatePositions p = ({ m with atoms := ps }, .ok ()) := by
  obtain ⟨ps, h1, h2, h3⟩ := chunk3_of_length p _ h
  refine ⟨ps, (readBy3_iff _ _).mpr h2, ?_⟩
  unfold updatePositions
  rw [if_neg (by simpa using h), h1]

theorem asInt_iff {x : MolVal K} {n : ℤ} : x.asInt = some n ↔ IsInteger x n := by
  cases x <;> simp [MolVal.asInt, IsInteger]

theorem checkNewOrigin_iff (m : Mol K) (rs : List ℤ) (x : MolVal K) :
    m.checkNewOrigin rs x = .ok () ↔ x = .none ∨ ∃ n, IsInteger x n ∧ |n| < (m.atoms.length : ℤ) ∧ n ∉ rs := by
  have key : ∀ n : ℤ, (if (m.atoms.length : ℤ) ≤ |n| then .error .index
      else if n ∈ rs then .error .index else .ok () : Py Unit) = .ok () ↔ |n| < (m.atoms.length : ℤ) ∧ n ∉ rs := by
    intro n
    split_ifs with h1 h2
    · simp; omega
    · simp [h2]
    · simp only [true_iff]; exact ⟨by omega, h2⟩
  cases x <;> simp [checkNewOrigin, MolVal.asInt, IsInteger, key]

theorem blocked_iff (m : Mol K) (rs : List ℤ) :
    (if m.tracking then match m.originIdx with
        | none => .error .attribute
        | some i => .ok (decide (i ∈ rs))
      else .ok false : Py Bool) = .ok false ↔ (m.tracking = true → ∃ i, m.originIdx = some i ∧ i ∉ rs) := by
  cases m.tracking <;> cases m.originIdx <;> simp

theorem removeAtoms_iff (m : Mol K) (hl : m.species.length = m.atoms.length) (rs : List ℤ) (x : MolVal K) :
    (m.removeAtoms rs x).2 = .ok () ↔ Accepts m (.removeAtoms rs x) := by
  simp only [Accepts]
  rw [← checkNewOrigin_iff, ← blocked_iff]
  constructor
  · intro h
    rcases removeAtoms_cases m hl rs x with ⟨e, he⟩ | ⟨hr, -⟩
    · rw [he] at h; cases h
    · unfold removeAtoms at h
      cases hc : m.checkNewOrigin rs x with
      | error e => rw [hc] at h; cases h
      | ok u =>
        refine ⟨rfl, ?_, hr⟩
        rw [hc] at h
        simp only at h
        generalize hb : (if m.tracking = true then _ else _ : Py Bool) = b at h ⊢
        rcases b with e | _ | _
        · cases h
        · rfl
        · cases h
  · rintro ⟨h1, h2, h3⟩
    unfold removeAtoms
    rw [h1]
    simp only
    generalize hb : (if m.tracking = true then _ else _ : Py Bool) = b
    have hf : b = .ok false := hb.symm.trans h2
    rw [hf]
    simp only
    rw [npDelete_succeeds m.species rs (by rw [hl]; exact h3)]
    simp only
    rw [npDelete_succeeds m.atoms rs h3]

theorem setOriginIdx_of (m : Mol K) (x : MolVal K) (hx : x ≠ .none) :
    ((m.setOriginByIdx x).2 = .ok () ↔ ∃ n, IsInteger x n ∧ |n| < (m.atoms.length : ℤ)) ∧
    ∀ m', m.setOriginByIdx x = (m', .ok ()) →
      ∃ n, IsInteger x n ∧ m' = { m with tracking := true, originIdx := some n } := by
  have key : ∀ n : ℤ, IsInteger x n →
      m.setOriginByIdx x = if |n| < (m.atoms.length : ℤ) then ({ m with tracking := true, originIdx := some n }, .ok ())
        else ({ m with tracking := true }, .error .index) := by
    rintro n (rfl | rfl) <;> rfl
  have key2 : (¬ ∃ n, IsInteger x n) → m.setOriginByIdx x = ({ m with tracking := true }, .error .type) := by
    intro h
    cases x with
    | int n => exact absurd ⟨n, Or.inl rfl⟩ h
    | npInt n => exact absurd ⟨n, Or.inr rfl⟩ h
    | none => exact absurd rfl hx
    | _ => rfl
  by_cases h : ∃ n, IsInteger x n
  · obtain ⟨n, hn⟩ := h
    have huniq : ∀ k, IsInteger x k → k = n := by
      intro k hk
      have h1 := asInt_iff.mpr hk
      rw [asInt_iff.mpr hn] at h1
      exact (Option.some.inj h1).symm
    rw [key n hn]
    split_ifs with hlt
    · refine ⟨⟨fun _ => ⟨n, hn, hlt⟩, fun _ => rfl⟩, ?_⟩
      intro m' h; cases h; exact ⟨n, hn, rfl⟩
    · refine ⟨⟨(fun h => by cases h), ?_⟩, ?_⟩
      · rintro ⟨k, hk, hkl⟩; rw [huniq k hk] at hkl; exact absurd hkl hlt
      · intro m' h; cases h
  · rw [key2 h]
    refine ⟨⟨(fun h => by cases h), ?_⟩, ?_⟩
    · rintro ⟨k, hk, -⟩; exact absurd ⟨k, hk⟩ h
    · intro m' h; cases h

theorem transform_iff (m : Mol K) (hl : m.species.length = m.atoms.length) (t : Tr K) (b : Bool) :
    ((m.transform t b).2 = .ok () ↔ Accepts m (.transform t b)) ∧
    ∀ m', m.transform t b = (m', .ok ()) → Effect m (.transform t b) m' := by
  unfold transform Accepts Effect
  rw [transform_setAtoms m hl t]
  cases b with
  | false =>
    refine ⟨by simp, ?_⟩
    intro m' h; simp at h; rw [← h]; simp
  | true =>
    cases ht : m.tracking with
    | true =>
      by_cases hw : m.printWarnings = true ∧ m.originIdx = none
      · simp [hw]
      · simp only [if_true, hw, if_false, ne_eq]
        refine ⟨?_, ?_⟩
        · simp only [true_iff]; intro _ hp hi; exact hw ⟨hp, hi⟩
        · intro m' h; cases h; simp
    | false =>
      cases ho : m.originPt with
      | none => simp [origin]
      | some o =>
        simp only [origin, setOriginPoint]
        refine ⟨by simp, ?_⟩
        intro m' h; simp at h; rw [← h]; simp

/-- **C105 (acceptance).** A call on a molecule succeeds exactly when its arguments fit: counts for the three ways of
setting arrays, indices in range and an origin that is not removed for `remove_atoms`, and so on (`Accepts`). -/
theorem C105_accepted_iff (m : Mol K) (hl : m.species.length = m.atoms.length) (o : Op K) :
    (m.step o).2 = .ok () ↔ Accepts m o := by
  cases o with
  | setAtoms s p =>
    simp only [step, Accepts]
    constructor
    · intro h
      rcases hs : m.setAtoms s p with ⟨m', r⟩
      rw [hs] at h; simp only at h; subst h
      obtain ⟨ps, rfl, h2, -⟩ := setAtoms_ok hs
      rw [flat3_length, h2]
    · intro h
      obtain ⟨ps, -, h2⟩ := setAtoms_of (m := m) h
      rw [h2]
  | updatePositions p =>
    simp only [step, Accepts]
    constructor
    · intro h
      unfold updatePositions at h
      by_contra hne
      rw [if_pos hne] at h; cases h
    · intro h
      obtain ⟨ps, -, h2⟩ := updatePositions_of (m := m) h
      rw [h2]
  | updateSpecies s =>
    simp only [step, Accepts, updateSpecies]
    split_ifs with h
    · simp [h]
    · simp only [true_iff]; exact not_not.mp h
  | removeAtoms rs x => exact removeAtoms_iff m hl rs x
  | setOriginPoint xs =>
    simp only [step, Accepts]
    match xs with
    | [] => simp [setOriginPoint]
    | [_] => simp [setOriginPoint]
    | [_, _] => simp [setOriginPoint]
    | [_, _, _] => simp [setOriginPoint]
    | _ :: _ :: _ :: _ :: _ => simp [setOriginPoint]
  | setOriginIdx x =>
    simp only [step, Accepts]
    by_cases hx : x = .none
    · subst hx; simp [setOriginByIdx]
    · rw [(setOriginIdx_of m x hx).1]; simp [hx]
  | setPriority x =>
    simp only [step, Accepts, setPriority, ← asInt_iff]
    cases x.asInt <;> simp
  | setOrientation M => exact C79_accepts_rotations m M
  | resetOrientation =>
    simp only [step, Accepts, resetOrientation, iff_true]
    exact (C79_accepts_rotations m 1).mpr nearRotation_one
  | transform t b => exact (transform_iff m hl t b).1
  | printWarnings b => simp [step, Accepts]

/-- **C105 (effect).** A call that succeeds does exactly what it says: new arrays are stored in the order given, a transform
maps every atom and a fixed origin, and every attribute the call does not name stays as it was (`Effect`). -/
theorem C105_effect (m m' : Mol K) (hl : m.species.length = m.atoms.length) (o : Op K) (h : m.step o = (m', .ok ())) :
    Effect m o m' := by
  have hok : Accepts m o := (C105_accepted_iff m hl o).mp (by rw [h])
  cases o with
  | setAtoms s p =>
    simp only [step, Accepts] at h hok
    obtain ⟨ps, h1, h2⟩ := setAtoms_of (m := m) hok
    rw [h2] at h; cases h
    exact ⟨ps, h1, rfl⟩
  | updatePositions p =>
    simp only [step, Accepts] at h hok
    obtain ⟨ps, h1, h2⟩ := updatePositions_of (m := m) hok
    rw [h2] at h; cases h
    exact ⟨ps, h1, rfl⟩
  | updateSpecies s =>
    simp only [step, Accepts, updateSpecies] at h hok
    rw [if_neg (by simpa using hok)] at h; cases h
    rfl
  | removeAtoms rs x => exact C77_removes_exactly m m' hl rs x h
  | setOriginPoint xs =>
    simp only [step, Accepts] at h hok
    match xs, hok with
    | [x, y, z], _ =>
      simp only [setOriginPoint] at h
      cases h
      exact ⟨x, y, z, rfl, rfl⟩
  | setOriginIdx x =>
    simp only [step] at h
    by_cases hx : x = .none
    · subst hx; simp only [setOriginByIdx] at h; cases h; exact Or.inl ⟨rfl, rfl⟩
    · exact Or.inr ((setOriginIdx_of m x hx).2 m' h)
  | setPriority x =>
    simp only [step, setPriority] at h
    cases hx : x.asInt with
    | none => rw [hx] at h; cases h
    | some n => rw [hx] at h; cases h; exact ⟨n, asInt_iff.mp hx, rfl⟩
  | setOrientation M =>
    simp only [step, setOrientation] at h
    split_ifs at h
    · cases h
    · cases h
    · cases h; rfl
  | resetOrientation =>
    simp only [step, resetOrientation, setOrientation] at h
    split_ifs at h
    · cases h
    · cases h
    · cases h; rfl
  | transform t b => exact (transform_iff m hl t b).2 m' h
  | printWarnings b => simp only [step] at h; cases h; rfl

/-- **C105 (histories).** The same after any history of calls, failed ones included. -/
theorem C105_history (m : Mol K) (hl : m.species.length = m.atoms.length) (ops : List (Op K)) (o : Op K)
    (h : ((m.run ops).step o).2 = .ok ()) : Effect (m.run ops) o (m.run (ops ++ [o])) := by
  have hlen : (m.run ops).species.length = (m.run ops).atoms.length := by
    unfold run
    induction ops generalizing m with
    | nil => exact hl
    | cons q qs ih => exact ih _ (step_length m hl q) h
  have he : m.run (ops ++ [o]) = ((m.run ops).step o).1 := by simp [run]
  rw [he]
  refine C105_effect _ _ hlen o ?_
  rw [← h]

/-- Concrete case: two atoms, the species exchanged and the positions set anew, then a call that does not fit. -/
example :
    let m : Mol ℚ := ⟨[⟨1, 0, 0⟩, ⟨2, 0, 0⟩], [6, 8], 3, 1, false, none, some 0, true⟩
    let ops : List (Op ℚ) := [.updateSpecies [8, 6], .updatePositions [0, 1, 2, 3, 4, 5], .updateSpecies [1]]
    (m.run ops).species = [8, 6] ∧ (m.run ops).atoms = [⟨0, 1, 2⟩, ⟨3, 4, 5⟩] ∧ (m.run ops).priority = 3 := by
  refine ⟨?_, ?_, ?_⟩ <;> decide +kernel

theorem chunk3_error {K : Type} : ∀ (l : List K) (e : PyErr), chunk3 l = .error e → e = .value
  | [], e, h => by cases h
  | [_], e, h => by cases h; rfl
  | [_, _], e, h => by cases h; rfl
  | x :: y :: z :: r, e, h => by
    rw [chunk3] at h
    cases hr : chunk3 r with
    | error e' => rw [hr] at h; cases h; exact chunk3_error r e hr
    | ok ps => rw [hr] at h; cases h

theorem normIdx_error {n : ℕ} {i : ℤ} {e : PyErr} (h : normIdx n i = .error e) : e = .index := by
  unfold normIdx at h
  split_ifs at h <;> first | (cases h; done) | (cases h; rfl)

theorem npDelete_error {α : Type} {xs : List α} {rs : List ℤ} {e : PyErr} (h : npDelete xs rs = .error e) : e = .index := by
  by_cases hr : ∀ r ∈ rs, -(xs.length : ℤ) ≤ r ∧ r < xs.length
  · rw [npDelete_succeeds xs rs hr] at h; cases h
  · unfold npDelete at h
    cases hm : rs.mapM (normIdx xs.length) with
    | error e' =>
      rw [hm] at h
      cases h
      clear hr
      induction rs with
      | nil => cases hm
      | cons r rs ih =>
        rw [List.mapM_cons] at hm
        cases h1 : normIdx xs.length r with
        | error e1 => rw [h1] at hm; cases hm; exact normIdx_error h1
        | ok j =>
          rw [h1] at hm
          cases h2 : rs.mapM (normIdx xs.length) with
          | error e2 => rw [h2] at hm; cases hm; exact ih h2
          | ok js => rw [h2] at hm; cases hm
    | ok js =>
      exfalso
      apply hr
      clear h hr
      induction rs generalizing js with
      | nil => intro r hr; cases hr
      | cons r rs ih =>
        rw [List.mapM_cons] at hm
        cases h1 : normIdx xs.length r with
        | error e1 => rw [h1] at hm; cases hm
        | ok j =>
          rw [h1] at hm
          cases h2 : rs.mapM (normIdx xs.length) with
          | error e2 => rw [h2] at hm; cases hm
          | ok js' =>
            intro r' hr'
            rcases List.mem_cons.mp hr' with rfl | hr'
            · unfold normIdx at h1
              split_ifs at h1 <;> first | omega | (cases h1; done)
            · exact ih _ h2 r' hr'

theorem removeAtoms_refusal (m : Mol K) (rs : List ℤ) (x : MolVal K) (e : PyErr) (h : (m.removeAtoms rs x).2 = .error e) :
    e = refusal m (.removeAtoms rs x) := by
  classical
  unfold removeAtoms at h
  have huniq : ∀ k n, IsInteger x k → IsInteger x n → k = n := fun k n hk hn => by
    have h1 := asInt_iff.mpr hk
    rw [asInt_iff.mpr hn] at h1
    exact (Option.some.inj h1).symm
  cases hc : m.checkNewOrigin rs x with
  | error e' =>
    rw [hc] at h
    simp only at h
    cases h
    by_cases hi : ∃ n, IsInteger x n
    · obtain ⟨n, hn⟩ := hi
      have hcn : m.checkNewOrigin rs x = if (m.atoms.length : ℤ) ≤ |n| then .error .index else if n ∈ rs then .error .index else .ok () := by
        rcases hn with rfl | rfl <;> rfl
      rw [hcn] at hc
      have : e = .index ∧ ((m.atoms.length : ℤ) ≤ |n| ∨ n ∈ rs) := by
        split_ifs at hc with a b
        · cases hc; exact ⟨rfl, .inl a⟩
        · cases hc; exact ⟨rfl, .inr b⟩
      rw [refusal, if_neg (by rintro ⟨-, hx⟩; exact hx ⟨n, hn⟩), if_pos ⟨n, hn, this.2⟩]
      exact this.1
    · have hx : x ≠ .none := by rintro rfl; cases hc
      rw [refusal, if_pos ⟨hx, hi⟩]
      cases x with
      | none => exact absurd rfl hx
      | int n => exact absurd ⟨n, .inl rfl⟩ hi
      | npInt n => exact absurd ⟨n, .inr rfl⟩ hi
      | _ => cases hc; rfl
  | ok u =>
    have hok := (checkNewOrigin_iff m rs x).mp hc
    rw [hc] at h
    simp only at h
    rw [refusal, if_neg (by
        rintro ⟨h1, h2⟩
        rcases hok with h3 | ⟨n, h3, -⟩
        · exact h1 h3
        · exact h2 ⟨n, h3⟩), if_neg (by
        rintro ⟨n, h1, h2⟩
        rcases hok with h3 | ⟨k, h3, h4, h5⟩
        · subst h3; rcases h1 with h1 | h1 <;> cases h1
        · have := huniq n k h1 h3
          subst this
          rcases h2 with h2 | h2
          · omega
          · exact h5 h2)]
    cases ht : m.tracking with
    | false =>
      rw [ht] at h
      simp only [Bool.false_eq_true, false_and, if_false] at h ⊢
      cases h1 : npDelete m.species rs with
      | error e' => rw [h1] at h; cases h; exact npDelete_error h1
      | ok ss =>
        rw [h1] at h
        cases h2 : npDelete m.atoms rs with
        | error e' => simp only [h2] at h; cases h; exact npDelete_error h2
        | ok as => simp only [h2] at h; cases h
    | true =>
      rw [ht] at h
      simp only [true_and, if_true] at h ⊢
      cases hi : m.originIdx with
      | none => rw [hi] at h; simp only at h; cases h; simp
      | some i =>
        rw [hi] at h
        simp only at h
        by_cases hmem : i ∈ rs
        · simp only [hmem, decide_true] at h
          cases h
          simp [hmem]
        · simp only [hmem, decide_false] at h
          have : ¬ ∃ i' ∈ rs, some i = some i' := by
            rintro ⟨i', h1, h2⟩; cases h2; exact hmem h1
          rw [if_neg (by simp), if_neg this]
          cases h1 : npDelete m.species rs with
          | error e' => rw [h1] at h; cases h; exact npDelete_error h1
          | ok ss =>
            rw [h1] at h
            cases h2 : npDelete m.atoms rs with
            | error e' => simp only [h2] at h; cases h; exact npDelete_error h2
            | ok as => simp only [h2] at h; cases h

/-- **C105 (exceptions).** A call that is refused raises ValueError for arrays of the wrong size and for a matrix that is no rotation, TypeError for
an index or a priority that is no integer, IndexError for an index out of range or among those removed, NotImplementedError for the removal of
the tracked atom, AssertionError for a point without three coordinates, AttributeError when no origin was ever set. -/
theorem C105_exceptions (m : Mol K) (hl : m.species.length = m.atoms.length) (o : Op K) (e : PyErr) (h : (m.step o).2 = .error e) :
    e = refusal m o := by
  cases o with
  | setAtoms s p =>
    simp only [step, setAtoms] at h
    cases hc : chunk3 p with
    | error e' => rw [hc] at h; cases h; exact chunk3_error p e hc
    | ok ps =>
      rw [hc] at h
      simp only at h
      split_ifs at h <;> cases h
      rfl
  | updatePositions p =>
    simp only [step, updatePositions] at h
    split_ifs at h
    · cases h; rfl
    cases hc : chunk3 p with
    | error e' => rw [hc] at h; cases h; exact chunk3_error p e hc
    | ok ps => rw [hc] at h; cases h
  | updateSpecies s =>
    simp only [step, updateSpecies] at h
    split_ifs at h <;> cases h
    rfl
  | removeAtoms rs x => exact removeAtoms_refusal m rs x e h
  | setOriginPoint xs =>
    simp only [step] at h
    match xs with
    | [] => cases h; rfl
    | [_] => cases h; rfl
    | [_, _] => cases h; rfl
    | [_, _, _] => cases h
    | _ :: _ :: _ :: _ :: _ => cases h; rfl
  | setOriginIdx x =>
    have key : ∀ n : ℤ, IsInteger x n → e = .index := by
      rintro n (rfl | rfl) <;>
      · simp only [step, setOriginByIdx, setOriginIdx, MolVal.asInt] at h
        split_ifs at h <;> cases h
        rfl
    simp only [refusal]
    split_ifs with hi
    · obtain ⟨n, hn⟩ := hi; exact key n hn
    · cases x with
      | none => cases h
      | int n => exact absurd ⟨n, .inl rfl⟩ hi
      | npInt n => exact absurd ⟨n, .inr rfl⟩ hi
      | _ => cases h; rfl
  | setPriority x =>
    simp only [step, setPriority] at h
    cases hx : x.asInt with
    | none => rw [hx] at h; cases h; rfl
    | some n => rw [hx] at h; cases h
  | setOrientation M =>
    simp only [step, setOrientation] at h
    split_ifs at h <;> cases h <;> rfl
  | resetOrientation =>
    simp only [step, resetOrientation, setOrientation] at h
    split_ifs at h <;> cases h <;> rfl
  | transform t b =>
    simp only [step, transform] at h
    rw [transform_setAtoms m hl t] at h
    simp only at h
    split_ifs at h with hb ht hw
    · cases h; rfl
    · replace ht := Bool.eq_false_iff.mpr ht
      cases ho : m.originPt with
      | none => simp only [origin, ht, ho] at h; cases h; rfl
      | some o => simp only [origin, ht, ho] at h; cases h
  | printWarnings b => simp only [step] at h; cases h

/-- **C105 (reading the origin).** `origin` is the tracked atom, or the point set; it raises AttributeError when there is none, and IndexError when
the index has become too large. -/
theorem C105_origin (m : Mol K) :
    (m.tracking = false → m.origin = match m.originPt with | some p => .ok p | none => .error .attribute) ∧
    (m.tracking = true → (m.originIdx = none → m.origin = .error .attribute) ∧ ∀ i, m.originIdx = some i →
      (∀ k : ℕ, (i = k ∨ i = k - m.atoms.length) → ∀ p, m.atoms[k]? = some p → m.origin = .ok p) ∧
      (i < -(m.atoms.length : ℤ) ∨ (m.atoms.length : ℤ) ≤ i → m.origin = .error .index)) := by
  constructor
  · intro ht
    unfold origin
    rw [ht]
    cases m.originPt <;> rfl
  · intro ht
    refine ⟨fun hi => by unfold origin; rw [ht, hi]; rfl, fun i hi => ⟨fun k hk p hp => ?_, fun hr => ?_⟩⟩
    · have hlt : k < m.atoms.length := by
        by_contra hge
        rw [List.getElem?_eq_none (by omega)] at hp
        cases hp
      have hn : normIdx m.atoms.length i = .ok k := by
        unfold normIdx
        split_ifs <;> first | omega | (congr 1; omega)
      unfold origin
      rw [ht, hi]
      simp only [if_true]
      rw [hn]
      show pyGet m.atoms k = _
      unfold pyGet
      rw [hp]
    · have hn : normIdx m.atoms.length i = .error .index := by
        unfold normIdx
        split_ifs <;> first | omega | rfl
      unfold origin
      rw [ht, hi]
      simp only [if_true]
      rw [hn]; rfl

/-- Concrete case: removals refused in each way. -/
example :
    let m : Mol ℚ := ⟨[⟨1, 0, 0⟩, ⟨2, 0, 0⟩], [6, 8], 3, 1, true, some 1, none, true⟩
    (m.step (.removeAtoms [0] (.float 1))).2 = .error .type ∧ (m.step (.removeAtoms [0] (.int 0))).2 = .error .index ∧
    (m.step (.removeAtoms [1] .none)).2 = .error .notImplemented ∧ (m.step (.removeAtoms [2] .none)).2 = .error .index ∧
    (m.step (.updateSpecies [1])).2 = .error .value ∧ m.origin = .ok ⟨2, 0, 0⟩ := by
  refine ⟨?_, ?_, ?_, ?_, ?_, ?_⟩ <;> decide +kernel

end
end Mol
end CZ
