import Verif.Spec.Settings
import Mathlib.Tactic.FinCases
import Mathlib.Data.Rat.Floor

/-!
# Property C106: settings of prefabs and amorphous generators
-/

set_option linter.unusedSectionVars false

namespace CZ
open Spec

section
variable {K G V : Type} [Field K] [LinearOrder K] [IsStrictOrderedRing K] [FloorRing K]

theorem assertThen_ok {α : Type} {a a' new : α} {c : Py Bool} : assertThen a c new = (a', .ok ()) ↔ c = .ok true ∧ a' = new := by
  unfold assertThen
  rcases c with e | _ | _
  · simp
  · simp
  · simp [eq_comm]

theorem assertThen_err {α : Type} {a a' new : α} {c : Py Bool} {e : PyErr} (h : assertThen a c new = (a', .error e)) : a' = a := by
  unfold assertThen at h
  rcases c with e | _ | _ <;> simp at h
  · exact h.1.symm
  · exact h.1.symm

namespace SetVal

theorem cut_iff (x : K) (n : ℤ) : (if 0 ≤ x then ⌊x⌋ else ⌈x⌉) = n ↔ (0 ≤ x ∧ (n : K) ≤ x ∧ x < n + 1) ∨ (x < 0 ∧ x ≤ n ∧ (n : K) - 1 < x) := by
    split_ifs with h
    · rw [Int.floor_eq_iff]
      constructor
      · exact fun hh => Or.inl ⟨h, hh⟩
      · rintro (hh | hh)
        · exact hh.2
        · exact absurd h (not_le.mpr hh.1)
    · rw [Int.ceil_eq_iff]
      constructor
      · exact fun hh => Or.inr ⟨not_le.mp h, hh.2, hh.1⟩
      · rintro (hh | hh)
        · exact absurd hh.1 h
        · exact ⟨hh.2.2, hh.2.1⟩

theorem toInt_iff (x : SetVal K G V) (n : ℤ) : x.toInt = .ok n ↔ IsInt x n := by
  cases x with
  | float x => simp only [toInt, IsInt, Except.ok.injEq]; exact cut_iff x n
  | array xs =>
    match xs with
    | [] => simp [toInt, IsInt]
    | [x] => simp only [toInt, IsInt, Except.ok.injEq]; exact cut_iff x n
    | _ :: _ :: _ => simp [toInt, IsInt]
  | str o => cases o <;> simp [toInt, IsInt, eq_comm]
  | _ => simp [toInt, IsInt, eq_comm]

theorem compare_iff (x : SetVal K G V) (p : K → Bool) : x.compare p = .ok true ↔ ∃ r, IsNumber x r ∧ p r = true := by
  cases x with
  | array xs =>
    match xs with
    | [] => simp [compare, IsNumber]
    | [x] => simp [compare, IsNumber]
    | _ :: _ :: _ => simp [compare, IsNumber]
  | _ => simp [compare, IsNumber]

theorem isInt_iff (x : SetVal K G V) : x.isInt = true ↔ (∃ n, x = .int n) ∨ ∃ b, x = .bool b := by
  cases x <;> simp [isInt]

theorem isGenerator_iff (x : SetVal K G V) : x.isGenerator = true ↔ ∃ g, x = .generator g := by
  cases x <;> simp [isGenerator]

theorem isVolume_iff (x : SetVal K G V) : x.isVolume = true ↔ ∃ v, x = .volume v := by
  cases x <;> simp [isVolume]

theorem size_iff (x : SetVal K G V) : x.size = 3 ↔ ∃ a b c, x = .array [a, b, c] := by
  cases x with
  | array xs => simp [size, List.length_eq_three]
  | _ => simp [size]

end SetVal

namespace PrefabSet

/-- **C106 (accepted assignments).** An assignment to a setting of a defect prefab is accepted exactly when the value makes
sense, and then changes exactly that setting. -/
theorem C106_assignment (s s' : PrefabSet K G V) (a : Assign K G V) : s.assign a = (s', .ok ()) ↔ Assigned s a s' := by
  cases a with
  | N x =>
    simp only [assign, Assigned, ← SetVal.toInt_iff]
    cases x.toInt <;> simp [eq_comm]
  | minSep x => simp only [assign, assertThen_ok, Except.ok.injEq, SetVal.isInt_iff, Assigned]
  | plane x =>
    simp only [assign, Assigned]
    rcases hk : s.kind <;> simp [eq_comm]
  | ratio x =>
    simp only [assign, Assigned]
    rcases hk : s.kind
    · simp [assertThen_ok, SetVal.compare_iff]
    all_goals simp [eq_comm]
  | generator x => simp only [assign, assertThen_ok, Except.ok.injEq, SetVal.isGenerator_iff, Assigned]
  | volume x => simp only [assign, assertThen_ok, Except.ok.injEq, SetVal.isVolume_iff, Assigned]

/-- **C106 (refused assignments).** They leave the prefab as it was. -/
theorem C106_refused (s s' : PrefabSet K G V) (a : Assign K G V) (e : PyErr) (h : s.assign a = (s', .error e)) : s' = s := by
  cases a with
  | N x =>
    simp only [assign] at h
    cases hx : x.toInt <;> rw [hx] at h <;> simp at h
    exact h.1.symm
  | minSep x => exact assertThen_err h
  | plane x =>
    simp only [assign] at h
    rcases hk : s.kind <;> rw [hk] at h <;> simp at h
    exact h.1.symm
  | ratio x =>
    simp only [assign] at h
    rcases hk : s.kind <;> rw [hk] at h
    · exact assertThen_err h
    all_goals simp at h
  | generator x => exact assertThen_err h
  | volume x => exact assertThen_err h

theorem assign_kind (s : PrefabSet K G V) (a : Assign K G V) : (s.assign a).1.kind = s.kind := by
  rcases h : s.assign a with ⟨s', e | u⟩
  · rw [C106_refused s s' a e h]
  · have := (C106_assignment s s' a).mp h
    cases a <;> simp only [Assigned] at this
    · obtain ⟨n, -, rfl⟩ := this; rfl
    · rw [this.2]
    · rw [this.2]
    · rcases this with h | h
      · rw [h.2.2]
      · rw [h.2]
    · rw [this.2]
    · rw [this.2]

theorem assign_valid (s : PrefabSet K G V) (hv : SettingsValid s) (a : Assign K G V) : SettingsValid (s.assign a).1 := by
  rcases h : s.assign a with ⟨s', e | u⟩
  · rw [C106_refused s s' a e h]; exact hv
  · have h1 := (C106_assignment s s' a).mp h
    obtain ⟨v1, v2, v3, v4, v5, v6, v7⟩ := hv
    cases a <;> simp only [Assigned] at h1
    · obtain ⟨n, -, rfl⟩ := h1; exact ⟨⟨n, rfl⟩, v2, v3, v4, v5, v6, v7⟩
    · obtain ⟨h1, rfl⟩ := h1; exact ⟨v1, h1, v3, v4, v5, v6, v7⟩
    · obtain ⟨h1, rfl⟩ := h1; exact ⟨v1, v2, v3, v4, v5, v6, v7⟩
    · rcases h1 with ⟨hk, hr, rfl⟩ | ⟨hk, rfl⟩
      · refine ⟨v1, v2, fun _ => ?_, ?_, ?_, v6, v7⟩
        · simpa [getRatio, hk] using hr
        · intro h; simp [hk] at h
        · intro h; simp [hk] at h
      · exact ⟨v1, v2, v3, v4, v5, v6, v7⟩
    · obtain ⟨h1, rfl⟩ := h1; exact ⟨v1, v2, v3, v4, v5, Or.inr h1, v7⟩
    · obtain ⟨h1, rfl⟩ := h1; exact ⟨v1, v2, v3, v4, v5, v6, Or.inr h1⟩

theorem run_valid (s : PrefabSet K G V) (hv : SettingsValid s) (as : List (Assign K G V)) : SettingsValid (s.run as) := by
  unfold run
  induction as generalizing s with
  | nil => exact hv
  | cons a as ih => exact ih _ (assign_valid s hv a)

theorem assignAll_cons {s s' : PrefabSet K G V} {a : Assign K G V} {as : List (Assign K G V)}
    (h : s.assignAll (a :: as) = .ok s') : ∃ t, Assigned s a t ∧ t.assignAll as = .ok s' := by
  rw [assignAll] at h
  rcases hs : s.assign a with ⟨t, e | u⟩
  · rw [hs] at h; cases h
  · rw [hs] at h; exact ⟨t, (C106_assignment s t a).mp hs, h⟩

theorem assignAll_valid (s s' : PrefabSet K G V) (hv : SettingsValid s) (as : List (Assign K G V)) (h : s.assignAll as = .ok s') :
    SettingsValid s' := by
  induction as generalizing s with
  | nil => cases h; exact hv
  | cons a as ih =>
    obtain ⟨t, h1, h2⟩ := assignAll_cons h
    have : (s.assign a).1 = t := by rw [(C106_assignment s t a).mpr h1]
    exact ih t (this ▸ assign_valid s hv a) h2

/-- **C106 (always valid).** The settings of a defect prefab make sense after construction and after every history of
assignments, whether they were accepted or raised. -/
theorem C106_always_valid (kind : PrefabKind) (generator volume ratio N minSep plane : SetVal K G V) (s : PrefabSet K G V)
    (h : make kind generator volume ratio N minSep plane = .ok s) (as : List (Assign K G V)) : SettingsValid (s.run as) := by
  refine run_valid s ?_ as
  unfold make at h
  cases kind with
  | mixed =>
    obtain ⟨t1, ⟨n, -, rfl⟩, h⟩ := assignAll_cons h
    obtain ⟨t2, ⟨-, rfl⟩, h⟩ := assignAll_cons h
    obtain ⟨t3, h3, h⟩ := assignAll_cons h
    rcases h3 with ⟨-, hr, rfl⟩ | ⟨hk, -⟩
    · obtain ⟨t4, ⟨hm, rfl⟩, h⟩ := assignAll_cons h
      refine assignAll_valid _ _ ⟨⟨n, rfl⟩, hm, fun _ => ?_, ?_, ?_, Or.inl rfl, Or.inl rfl⟩ _ h
      · simpa [getRatio] using hr
      · intro h; cases h
      · intro h; cases h
    · simp at hk
  | wurtzite =>
    obtain ⟨t1, ⟨n, -, rfl⟩, h⟩ := assignAll_cons h
    obtain ⟨t4, ⟨hm, rfl⟩, h⟩ := assignAll_cons h
    refine assignAll_valid _ _ ⟨⟨n, rfl⟩, hm, fun h => absurd rfl h, ?_, ?_, Or.inl rfl, Or.inl rfl⟩ _ h
    · intro h; cases h
    · intro h; cases h
  | stackingFault =>
    obtain ⟨t1, ⟨n, -, rfl⟩, h⟩ := assignAll_cons h
    obtain ⟨t2, ⟨-, rfl⟩, h⟩ := assignAll_cons h
    obtain ⟨t3, h3, h⟩ := assignAll_cons h
    rcases h3 with ⟨hk, -⟩ | ⟨-, rfl⟩
    · cases hk
    · obtain ⟨t4, ⟨hm, rfl⟩, h⟩ := assignAll_cons h
      refine assignAll_valid _ _ ⟨⟨n, rfl⟩, hm, fun _ => ⟨1, by simp [getRatio, IsNumber]⟩, ?_, ?_, Or.inl rfl, Or.inl rfl⟩ _ h
      · intro h; cases h
      · intro _; simp [getRatio, IsNumber]
  | twin =>
    obtain ⟨t1, ⟨n, -, rfl⟩, h⟩ := assignAll_cons h
    obtain ⟨t2, ⟨-, rfl⟩, h⟩ := assignAll_cons h
    obtain ⟨t3, h3, h⟩ := assignAll_cons h
    rcases h3 with ⟨hk, -⟩ | ⟨-, rfl⟩
    · cases hk
    · obtain ⟨t4, ⟨hm, rfl⟩, h⟩ := assignAll_cons h
      refine assignAll_valid _ _ ⟨⟨n, rfl⟩, hm, fun _ => ⟨0, by simp [getRatio, IsNumber]⟩, ?_, ?_, Or.inl rfl, Or.inl rfl⟩ _ h
      · intro _; simp [getRatio, IsNumber]
      · intro h; cases h

/-- **C106 (constructor).** It accepts every combination of values that make sense and stores them (the wurtzite prefab has
no plane; only the mixed prefab stores a ratio). -/
theorem C106_constructor (kind : PrefabKind) (generator volume ratio N minSep plane : SetVal K G V) (n : ℤ) (hN : IsInt N n)
    (hm : (∃ k, minSep = .int k) ∨ ∃ b, minSep = .bool b) (hr : kind = .mixed → ∃ r, IsNumber ratio r ∧ 0 ≤ r ∧ r ≤ 1)
    (hg : generator = .none ∨ ∃ g, generator = .generator g) (hv : volume = .none ∨ ∃ v, volume = .volume v) :
    make kind generator volume ratio N minSep plane = .ok ⟨kind, some n, minSep, if kind = .wurtzite then .none else plane,
      if kind = .mixed then ratio else .none, generator, volume⟩ := by
  have hc : kind = .mixed → ratio.compare (fun r => decide (0 ≤ r) && decide (r ≤ 1)) = .ok true := by
    intro h; rw [SetVal.compare_iff]; simpa using hr h
  have hi : minSep.isInt = true := (SetVal.isInt_iff minSep).mpr hm
  have ht : N.toInt = .ok n := (SetVal.toInt_iff N n).mpr hN
  rcases hg with rfl | ⟨g, rfl⟩ <;> rcases hv with rfl | ⟨v, rfl⟩ <;> cases kind <;>
    simp [make, assignAll, assign, ht, hc, hi, assertThen, unlessNone, SetVal.isGenerator, SetVal.isVolume]

/-- Python compares these with numbers only by raising TypeError. -/
def NotComparable : SetVal K G V → Prop
  | .str _ | .none | .generator _ | .amorphous | .volume _ | .other => True
  | _ => False

/-- **C106 (which exception).** A refused `N` raises ValueError for NaN and for strings that spell no integer, otherwise TypeError; a refused
ratio raises AssertionError for numbers out of range, NaN and the empty array, ValueError for arrays of several numbers, TypeError for everything that cannot be
compared; a refused separation, generator or volume raises AssertionError; the plane of a wurtzite prefab AttributeError. -/
theorem C106_exceptions (s : PrefabSet K G V) (x : SetVal K G V) (e : PyErr) :
    ((s.assign (.N x)).2 = .error e → ((x = .nan ∨ x = .str Option.none) ∧ e = .value) ∨ (¬ (x = .nan ∨ x = .str Option.none) ∧ e = .type)) ∧
    ((s.assign (.ratio x)).2 = .error e → ((∃ xs, x = .array xs ∧ 1 < xs.length) ∧ e = .value) ∨ (NotComparable x ∧ e = .type) ∨
      ((x = .nan ∨ x = .array [] ∨ ∃ r, IsNumber x r ∧ (r < 0 ∨ 1 < r)) ∧ e = .assertion)) ∧
    ((s.assign (.minSep x)).2 = .error e → e = .assertion) ∧ ((s.assign (.generator x)).2 = .error e → e = .assertion) ∧
    ((s.assign (.volume x)).2 = .error e → e = .assertion) ∧ ((s.assign (.plane x)).2 = .error e → e = .attribute) := by
  refine ⟨?_, ?_, ?_, ?_, ?_, ?_⟩
  · cases x with
    | str o => cases o <;> simp [assign, SetVal.toInt, eq_comm]
    | array xs =>
      match xs with
      | [] => simp [assign, SetVal.toInt, eq_comm]
      | [y] => simp [assign, SetVal.toInt]
      | _ :: _ :: _ => simp [assign, SetVal.toInt, eq_comm]
    | _ => simp [assign, SetVal.toInt, eq_comm]
  · simp only [assign]
    rcases hk : s.kind
    · simp only
      have hnum : ∀ r, IsNumber x r → x.compare (fun r => decide (0 ≤ r) && decide (r ≤ 1)) = .ok (decide (0 ≤ r) && decide (r ≤ 1)) := by
        intro r hr
        cases x with
        | array xs =>
          match xs, hr with
          | [_], hr => simp only [IsNumber] at hr; subst hr; rfl
        | bool b => cases b <;> simp [IsNumber] at hr <;> subst hr <;> simp [SetVal.compare]
        | _ => first | (simp only [IsNumber] at hr; subst hr; rfl) | exact absurd hr (by simp [IsNumber])
      by_cases h : ∃ r, IsNumber x r
      · obtain ⟨r, hr⟩ := h
        rw [hnum r hr]
        by_cases h1 : 0 ≤ r <;> by_cases h2 : r ≤ 1 <;> simp [h1, h2, assertThen]
        all_goals
          rintro rfl
          right; right
          exact ⟨.inr <| .inr ⟨r, hr, by first | exact .inl (not_le.mp h1) | exact .inr (not_le.mp h2)⟩, rfl⟩
      · cases x with
        | array xs =>
          match xs with
          | [] => intro he; exact .inr (.inr ⟨.inr (.inl rfl), (Except.error.inj he).symm⟩)
          | [y] => exact absurd ⟨y, rfl⟩ h
          | _ :: _ :: _ => intro he; exact .inl ⟨⟨_, rfl, by simp⟩, (Except.error.inj he).symm⟩
        | int n => exact absurd ⟨_, rfl⟩ h
        | npInt n => exact absurd ⟨_, rfl⟩ h
        | bool b => exact absurd ⟨_, rfl⟩ h
        | float y => exact absurd ⟨_, rfl⟩ h
        | nan => intro he; exact .inr (.inr ⟨.inl rfl, (Except.error.inj he).symm⟩)
        | _ => intro he; exact .inr (.inl ⟨trivial, (Except.error.inj he).symm⟩)
    all_goals simp
  · simp only [assign, assertThen]
    cases x.isInt <;> simp [eq_comm]
  · simp only [assign, assertThen]
    cases x.isGenerator <;> simp [eq_comm]
  · simp only [assign, assertThen]
    cases x.isVolume <;> simp [eq_comm]
  · simp only [assign]
    cases s.kind <;> simp [eq_comm]

/-- **C106, finding.** Negative numbers of defects and negative separations are accepted. -/
theorem C106_negative_refuted : ¬ ∀ (N minSep : ℤ) (s : PrefabSet ℚ Unit Unit),
    make .mixed .none .none (.float (1 / 2)) (.int N) (.int minSep) (.array [1, 1, 1]) = .ok s → 0 ≤ N ∧ 0 ≤ minSep := by
  intro h
  have := h (-1) (-3) _ (C106_constructor (K := ℚ) (G := Unit) (V := Unit) .mixed .none .none (.float (1 / 2)) (.int (-1)) (.int (-3))
    (.array [1, 1, 1]) (-1) rfl (Or.inl ⟨_, rfl⟩) (fun _ => ⟨1 / 2, rfl, by norm_num, by norm_num⟩) (Or.inl rfl) (Or.inl rfl))
  omega

/-- Concrete case: a refused and an accepted ratio, a refused separation, N as a float. -/
example :
    let s : PrefabSet ℚ Unit Unit := ⟨.mixed, some 1, .int 3, .none, .float (1 / 2), .none, .none⟩
    let s' := s.run [.ratio (.float (3 / 2)), .ratio (.int 1), .minSep (.float 4), .N (.float (-7 / 2)), .generator .amorphous]
    s' = ⟨.mixed, some (-3), .int 3, .none, .int 1, .none, .none⟩ := by
  simp only [run, List.foldl, assign, assertThen, SetVal.compare, SetVal.isInt, SetVal.toInt, SetVal.isGenerator]
  norm_num

end PrefabSet

namespace AmorphousSet

/-- **C106 (amorphous generators, accepted assignments).** -/
theorem C106_amorphous_assignment (s s' : AmorphousSet K G V) (a : Assign K G V) :
    s.assign a = (s', .ok ()) ↔ AssignedA s a s' := by
  cases a with
  | origin x => simp only [assign, assertThen_ok, Except.ok.injEq, decide_eq_true_eq, SetVal.size_iff, AssignedA]
  | species x => simp [assign, AssignedA, eq_comm]
  | density x => simp only [assign, assertThen_ok, SetVal.compare_iff, decide_eq_true_eq, AssignedA]
  | minDist x => simp only [assign, assertThen_ok, SetVal.compare_iff, decide_eq_true_eq, AssignedA]

theorem refused (s s' : AmorphousSet K G V) (a : Assign K G V) (e : PyErr) (h : s.assign a = (s', .error e)) : s' = s := by
  cases a with
  | origin x => exact assertThen_err h
  | species x => simp [assign] at h
  | density x => exact assertThen_err h
  | minDist x => exact assertThen_err h

/-- **C106 (amorphous generators).** Density and minimum distance of an AmorphousGenerator are positive numbers and its origin
is unset or a point, after construction and any history of assignments; refused assignments change nothing. -/
theorem C106_amorphous (origin minDist density species : SetVal K G V) (s : AmorphousSet K G V)
    (h : make origin minDist density species = .ok s) (as : List (Assign K G V)) :
    (∃ r, IsNumber (s.run as).density r ∧ 0 < r) ∧ (∃ r, IsNumber (s.run as).minDist r ∧ 0 < r) ∧
    ((s.run as).origin = .none ∨ ∃ a b c, (s.run as).origin = .array [a, b, c]) ∧
    ∀ a e s', (s.run as).assign a = (s', .error e) → s' = s.run as := by
  have hinv : ∀ (as : List (Assign K G V)) (s : AmorphousSet K G V),
      ((∃ r, IsNumber s.density r ∧ 0 < r) ∧ (∃ r, IsNumber s.minDist r ∧ 0 < r) ∧
        (s.origin = .none ∨ ∃ a b c, s.origin = .array [a, b, c])) →
      ((∃ r, IsNumber (s.run as).density r ∧ 0 < r) ∧ (∃ r, IsNumber (s.run as).minDist r ∧ 0 < r) ∧
        ((s.run as).origin = .none ∨ ∃ a b c, (s.run as).origin = .array [a, b, c])) := by
    intro as
    induction as with
    | nil => exact fun s hs => hs
    | cons a as ih =>
      intro s hs
      show _ ∧ _ ∧ _
      refine ih (s.assign a).1 ?_
      rcases ha : s.assign a with ⟨s', e | u⟩
      · rw [refused s s' a e ha]; exact hs
      · have h1 := (C106_amorphous_assignment s s' a).mp ha
        cases a <;> simp only [AssignedA] at h1
        · rw [h1.2]; exact ⟨hs.1, hs.2.1, Or.inr h1.1⟩
        · rw [h1]; exact hs
        · rw [h1.2]; exact ⟨h1.1, hs.2.1, hs.2.2⟩
        · rw [h1.2]; exact ⟨hs.1, h1.1, hs.2.2⟩
  have hcons : ∀ {s s' : AmorphousSet K G V} {a : Assign K G V} {as : List (Assign K G V)},
      s.assignAll (a :: as) = .ok s' → ∃ t, AssignedA s a t ∧ t.assignAll as = .ok s' := by
    intro s s' a as h
    rw [assignAll] at h
    rcases hs : s.assign a with ⟨t, e | u⟩
    · rw [hs] at h; cases h
    · rw [hs] at h; exact ⟨t, (C106_amorphous_assignment s t a).mp hs, h⟩
  have hbase : (∃ r, IsNumber s.density r ∧ 0 < r) ∧ (∃ r, IsNumber s.minDist r ∧ 0 < r) ∧
      (s.origin = .none ∨ ∃ a b c, s.origin = .array [a, b, c]) := by
    have tail : ∀ t : AmorphousSet K G V, (t.origin = .none ∨ ∃ a b c, t.origin = .array [a, b, c]) →
        t.assignAll [.species species, .minDist minDist, .density density] = .ok s →
        (∃ r, IsNumber s.density r ∧ 0 < r) ∧ (∃ r, IsNumber s.minDist r ∧ 0 < r) ∧
          (s.origin = .none ∨ ∃ a b c, s.origin = .array [a, b, c]) := by
      intro t ht h
      obtain ⟨t1, rfl, h⟩ := hcons h
      obtain ⟨t2, ⟨h2, rfl⟩, h⟩ := hcons h
      obtain ⟨t3, ⟨h3, rfl⟩, h⟩ := hcons h
      cases h
      exact ⟨h3, h2, ht⟩
    unfold make at h
    by_cases ho : origin = .none
    · subst ho
      exact tail _ (Or.inl rfl) h
    · simp only at h
      obtain ⟨t1, ⟨h1, rfl⟩, h⟩ := hcons h
      exact tail _ (Or.inr h1) h
  obtain ⟨h1, h2, h3⟩ := hinv as s hbase
  exact ⟨h1, h2, h3, fun a e s' => refused _ s' a e⟩

/-- **C106 (amorphous generators, constructor).** Values that make sense are accepted and stored. -/
theorem C106_amorphous_constructor (origin minDist density species : SetVal K G V)
    (ho : origin = .none ∨ ∃ a b c, origin = .array [a, b, c]) (hm : ∃ r, IsNumber minDist r ∧ 0 < r)
    (hd : ∃ r, IsNumber density r ∧ 0 < r) :
    make origin minDist density species = .ok ⟨origin, species, density, minDist⟩ := by
  have h1 : minDist.compare (fun r => decide (0 < r)) = .ok true := by rw [SetVal.compare_iff]; simpa using hm
  have h2 : density.compare (fun r => decide (0 < r)) = .ok true := by rw [SetVal.compare_iff]; simpa using hd
  rcases ho with rfl | ⟨a, b, c, rfl⟩ <;> simp [make, assignAll, assign, assertThen, h1, h2, SetVal.size]

/-- Concrete case: the default generator; a zero density is refused. -/
example : ∃ s : AmorphousSet ℚ Unit Unit, make .none (.float (7 / 5)) (.float (1 / 9)) (.int 6) = .ok s ∧
    (s.run [.density (.int 0), .minDist (.int 2)]) = ⟨.none, .int 6, .float (1 / 9), .int 2⟩ := by
  refine ⟨⟨.none, .int 6, .float (1 / 9), .float (7 / 5)⟩, ?_, ?_⟩
  · simp [make, assignAll, assign, assertThen, SetVal.compare]
  · simp [run, assign, assertThen, SetVal.compare]

end AmorphousSet
end
end CZ
