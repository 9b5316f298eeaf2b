import Verif.Precedence
import Mathlib.Data.List.Sort

/-! # Lemmas about the resolution loops -/

namespace CZ
namespace Precedence

variable {P S : Type}

theorem bumpFrom_length (r : List ℕ) (i : ℕ) : (bumpFrom r i).length = r.length := by
  simp [bumpFrom]

theorem foldl_bump_length (idx : List ℕ) (r : List ℕ) : (idx.foldl bumpFrom r).length = r.length := by
  induction idx generalizing r with
  | nil => rfl
  | cons i idx ih => simp [ih, bumpFrom_length]

theorem foldl_bump_getElem? (idx : List ℕ) (r : List ℕ) (k : ℕ) :
    (idx.foldl bumpFrom r)[k]? = r[k]?.map (· + idx.countP (fun i => decide (i ≤ k))) := by
  induction idx generalizing r with
  | nil => simp
  | cons i idx ih =>
    rw [List.foldl_cons, ih]
    simp only [bumpFrom, List.getElem?_mapIdx, Option.map_map, List.countP_cons]
    congr 1
    funext x
    by_cases h : i ≤ k
    · simp [h]; omega
    · simp [h]

theorem relLevels_length (n : ℕ) (idx : List ℕ) : (relLevels n idx).length = n := by
  simp [relLevels, foldl_bump_length]

theorem relLevels_getElem? (n : ℕ) (idx : List ℕ) (k : ℕ) (hk : k < n) :
    (relLevels n idx)[k]? = some (idx.tail.countP (fun i => decide (i ≤ k))) := by
  simp [relLevels, foldl_bump_getElem?, hk]

/-- In a strictly increasing list exactly `m+1` entries are at most the `m`-th one. -/
theorem countP_le_getElem (l : List ℤ) (h : l.Pairwise (· < ·)) (m : ℕ) (hm : m < l.length) :
    l.countP (fun v => decide (v ≤ l[m])) = m + 1 := by
  induction l generalizing m with
  | nil => simp at hm
  | cons a l ih =>
    rw [List.pairwise_cons] at h
    cases m with
    | zero =>
      simp only [List.getElem_cons_zero, List.countP_cons, le_refl, decide_true, if_true]
      have : l.countP (fun v => decide (v ≤ a)) = 0 := by
        rw [List.countP_eq_zero]
        intro v hv
        have := h.1 v hv
        simp; omega
      omega
    | succ m =>
      simp only [List.getElem_cons_succ, List.countP_cons]
      have hm' : m < l.length := by simpa using hm
      rw [ih h.2 m hm']
      have := h.1 l[m] (List.getElem_mem hm')
      have : decide (a ≤ l[m]) = true := by simp; omega
      simp [this]

/-- Distinct priorities in increasing order. -/
def levels (pl : List ℤ) : List ℤ := stableSort id pl.dedup

theorem mem_levels {pl : List ℤ} {v : ℤ} : v ∈ levels pl ↔ v ∈ pl := by
  simp [levels]

theorem levels_pairwise (pl : List ℤ) : (levels pl).Pairwise (· < ·) := by
  have h1 : (levels pl).Pairwise (fun a b => a ≤ b) := stableSort_sorted id pl.dedup
  have h2 : (levels pl).Nodup := (stableSort_perm id pl.dedup).nodup_iff.mpr (List.nodup_dedup pl)
  refine (h1.and h2).imp ?_
  intro a b hab
  exact lt_of_le_of_ne hab.1 hab.2

/-- In a sorted list the first occurrence of `v` is at or before `i` iff `v` is at most the `i`-th entry. -/
theorem idxOf_le_iff {pl : List ℤ} (hs : pl.Pairwise (· ≤ ·)) {v : ℤ} (hv : v ∈ pl) {i : ℕ}
    (hi : i < pl.length) : pl.idxOf v ≤ i ↔ v ≤ pl[i] := by
  have hlt : pl.idxOf v < pl.length := List.idxOf_lt_length_iff.mpr hv
  have hget : pl[pl.idxOf v] = v := List.getElem_idxOf hlt
  have mono : ∀ a b (ha : a < pl.length) (hb : b < pl.length), a ≤ b → pl[a] ≤ pl[b] := by
    intro a b ha hb hab
    rcases Nat.lt_or_ge a b with h | h
    · exact List.pairwise_iff_getElem.mp hs a b ha hb h
    · have : a = b := le_antisymm hab h
      subst this; exact le_refl _
  constructor
  · intro h
    have := mono _ _ hlt hi h
    rwa [hget] at this
  · intro h
    by_contra hc
    have hc' : i < pl.idxOf v := not_le.mp hc
    have h2 := mono _ _ hi hlt (le_of_lt hc')
    rw [hget] at h2
    have heq : pl[i] = v := le_antisymm h2 h
    have : pl.idxOf v ≤ i := by
      by_contra hcc
      have := List.not_of_lt_findIdx (xs := pl) (p := fun x => x == v) (i := i)
        (by simpa [List.idxOf] using hc')
      simp [heq] at this
    exact hc this

/-- The characterisation of `offsets[rel_plevels[i]+1]` on a sorted list: it exists, and an index is below it
iff the priority at that index is at most the priority at `i`. -/
theorem eidx_spec (pl : List ℤ) (hs : pl.Pairwise (· ≤ ·)) (i : ℕ) (hi : i < pl.length) :
    ∃ lvl e, (relLevels pl.length (npUniqueIdx pl))[i]? = some lvl ∧
      (npUniqueIdx pl ++ [pl.length])[lvl + 1]? = some e ∧ e ≤ pl.length ∧
      ∀ j (hj : j < pl.length), j < e ↔ pl[j] ≤ pl[i] := by
  have hidx : npUniqueIdx pl = (levels pl).map (fun v => pl.idxOf v) := rfl
  have hpw := levels_pairwise pl
  have hmem : pl[i] ∈ levels pl := mem_levels.mpr (List.getElem_mem hi)
  obtain ⟨m, hm, hmv⟩ := List.getElem_of_mem hmem
  have hrel : (npUniqueIdx pl).tail.countP (fun k => decide (k ≤ i)) = m := by
    have h1 : (levels pl).countP (fun v => decide (v ≤ (levels pl)[m])) = m + 1 :=
      countP_le_getElem _ hpw m hm
    have h2 : (levels pl).countP (fun v => decide (pl.idxOf v ≤ i)) = m + 1 := by
      rw [← h1]
      apply List.countP_congr
      intro v hv
      have := idxOf_le_iff hs (mem_levels.mp hv) hi
      simp [hmv, this]
    rw [hidx]
    cases hl : levels pl with
    | nil => rw [hl] at hm; simp at hm
    | cons a t =>
      rw [hl] at h2
      simp only [List.map_cons, List.tail_cons, List.countP_map]
      have ha : a ≤ pl[i] := by
        have : (levels pl)[0]'(by omega) = a := by simp [hl]
        rw [← this, ← hmv]
        rcases Nat.eq_zero_or_pos m with h0 | h0
        · subst h0; exact le_refl _
        · exact le_of_lt (List.pairwise_iff_getElem.mp hpw 0 m (by omega) hm h0)
      have ha' : decide (pl.idxOf a ≤ i) = true := by
        have hma : a ∈ pl := mem_levels.mp (by rw [hl]; simp)
        simpa using (idxOf_le_iff hs hma hi).mpr ha
      rw [List.countP_cons, ha'] at h2
      simp only [Function.comp_def]
      simpa using h2
  refine ⟨m, ?_⟩
  have hr := relLevels_getElem? pl.length (npUniqueIdx pl) i hi
  rw [hrel] at hr
  have hlen : (npUniqueIdx pl).length = (levels pl).length := by rw [hidx]; simp
  by_cases hlast : m + 1 < (levels pl).length
  · refine ⟨pl.idxOf (levels pl)[m+1], hr, ?_, ?_, ?_⟩
    · rw [List.getElem?_append_left (by omega), hidx]
      simp [hlast]
    · have : (levels pl)[m+1] ∈ pl := mem_levels.mp (List.getElem_mem hlast)
      exact le_of_lt (List.idxOf_lt_length_iff.mpr this)
    · intro j hj
      have hmem1 : (levels pl)[m+1] ∈ pl := mem_levels.mp (List.getElem_mem hlast)
      have h1 := idxOf_le_iff hs hmem1 hj
      rw [← not_le, h1, not_le]
      constructor
      · intro hlt
        obtain ⟨q, hq, hqv⟩ := List.getElem_of_mem (mem_levels.mpr (List.getElem_mem hj))
        rw [← hqv] at hlt ⊢
        rw [← hmv]
        have hqm : q < m + 1 := by
          by_contra hc
          rcases Nat.eq_or_lt_of_le (not_lt.mp hc) with h | h
          · subst h; exact lt_irrefl _ hlt
          · have := List.pairwise_iff_getElem.mp hpw (m+1) q hlast hq h
            omega
        rcases Nat.eq_or_lt_of_le (Nat.lt_succ_iff.mp hqm) with h | h
        · subst h; exact le_refl _
        · exact le_of_lt (List.pairwise_iff_getElem.mp hpw q m hq hm h)
      · intro hle
        have := List.pairwise_iff_getElem.mp hpw m (m+1) hm hlast (Nat.lt_succ_self m)
        rw [hmv] at this
        omega
  · have hml : m + 1 = (levels pl).length := by omega
    refine ⟨pl.length, hr, ?_, le_refl _, ?_⟩
    · rw [List.getElem?_append_right (by omega)]
      simp [hlen, hml]
    · intro j hj
      constructor
      · intro _
        obtain ⟨q, hq, hqv⟩ := List.getElem_of_mem (mem_levels.mpr (List.getElem_mem hj))
        rw [← hqv, ← hmv]
        rcases Nat.lt_or_ge q m with h | h
        · exact le_of_lt (List.pairwise_iff_getElem.mp hpw q m hq hm h)
        · have : q = m := by omega
          subst this; exact le_refl _
      · intro _; exact hj

/-- The inner loop computes, per atom, "not interior to any listed object other than `i`". -/
theorem checkAgainst_spec (s : List (Obj P S)) (i : ℕ) (atoms : List P) (e : ℕ) (he : e ≤ s.length) :
    checkAgainst s i atoms e = .ok (atoms.map (fun p =>
      (List.range e).all (fun j => j == i || !((s[j]?.map (fun o => o.interior p)).getD false)))) := by
  unfold checkAgainst
  have key : ∀ (l : List ℕ) (f : P → Bool), (∀ j ∈ l, j < s.length) →
      List.foldlM (m := Py) (fun check j =>
        if i ≠ j then do
          let o ← pyGet s j
          pure (npAnd check (npNot (atoms.map o.interior)))
        else pure check) (atoms.map f) l
      = .ok (atoms.map (fun p => f p && l.all (fun j => j == i ||
          !((s[j]?.map (fun o => o.interior p)).getD false)))) := by
    intro l
    induction l with
    | nil => intro f _; simp [pure, Except.pure]
    | cons j l ih =>
      intro f hl
      have hj : j < s.length := hl j (by simp)
      rw [List.foldlM_cons]
      by_cases hij : i = j
      · subst hij
        simp only [ne_eq, not_true_eq_false, if_false]
        have := ih f (fun k hk => hl k (by simp [hk]))
        simp only [pure_bind, this]
        congr 1
        simp
      · simp only [ne_eq, hij, not_false_eq_true, if_true]
        rw [pyGet_ok hj]
        have := ih (fun p => f p && !(s[j].interior p)) (fun k hk => hl k (by simp [hk]))
        simp only [bind, Except.bind, pure, Except.pure] at this ⊢
        rw [npNot_map, npAnd_map, this]
        congr 1
        apply List.map_congr_left
        intro p _
        have hji : (j == i) = false := by simp; omega
        simp [hj, hji, Bool.and_assoc]
  have h := key (List.range e) (fun _ => true) (by intro j hj; simp at hj; omega)
  have hrep : List.replicate atoms.length true = atoms.map (fun _ => true) := by simp
  rw [hrep, h]
  simp

theorem sortObjs_perm (os : List (Obj P S)) : (sortObjs os).Perm os := stableSort_perm _ _

theorem sortObjs_sorted (os : List (Obj P S)) :
    ((sortObjs os).map (·.priority)).Pairwise (· ≤ ·) := by
  rw [List.pairwise_map]
  exact stableSort_sorted _ os

/-- Mask entry of one atom position: no object at another index with priority at most `pr` contains it. -/
def keepAt (s : List (Obj P S)) (i : ℕ) (pr : ℤ) (p : P) : Bool :=
  (List.range s.length).all (fun j =>
    j == i || !((s[j]?.map (fun o => decide (o.priority ≤ pr) && o.interior p)).getD false))

theorem checkOne_spec (s : List (Obj P S)) (hs : (s.map (·.priority)).Pairwise (· ≤ ·)) (i : ℕ)
    (hi : i < s.length) :
    checkOne s (getPriorities s).1 (getPriorities s).2 i s[i] =
      .ok (s[i].atoms.map (keepAt s i s[i].priority)) := by
  have hi' : i < (s.map (·.priority)).length := by simpa using hi
  obtain ⟨lvl, e, h1, h2, h3, h4⟩ := eidx_spec (s.map (·.priority)) hs i hi'
  simp only [List.length_map] at h1 h2 h3 h4
  simp only [checkOne, getPriorities, pyGet, h1, h2, bind, Except.bind]
  rw [checkAgainst_spec s i s[i].atoms e h3]
  congr 1
  apply List.map_congr_left
  intro p _
  rw [keepAt, Bool.eq_iff_iff, List.all_eq_true, List.all_eq_true]
  simp only [List.mem_range]
  constructor
  · intro h j hj
    by_cases hje : j < e
    · have := h j hje
      have hle := (h4 j hj).mp hje
      simp only [List.getElem_map] at hle
      simpa [hj, hle] using this
    · have hle : ¬ s[j].priority ≤ s[i].priority := by
        intro hc
        exact hje ((h4 j hj).mpr (by simpa using hc))
      have : decide (s[j].priority ≤ s[i].priority) = false := by simpa using hle
      simp [hj, this]
  · intro h j hje
    have hj : j < s.length := by omega
    have := h j hj
    have hle := (h4 j hj).mp hje
    simp only [List.getElem_map] at hle
    simpa [hj, hle] using this

theorem mapM_ok {α β : Type} (f : α → Py β) (g : α → β) (l : List α) (h : ∀ x ∈ l, f x = .ok (g x)) :
    l.mapM f = .ok (l.map g) := by
  induction l with
  | nil => simp [pure, Except.pure]
  | cons x l ih =>
    rw [List.mapM_cons, h x (by simp), ih (fun y hy => h y (by simp [hy]))]
    rfl

/-- On a sorted list the masks are exactly `keepAt`; no index error occurs. -/
theorem checks_spec (s : List (Obj P S)) (hs : (s.map (·.priority)).Pairwise (· ≤ ·)) :
    checks s = .ok (s.zipIdx.map (fun x => x.1.atoms.map (keepAt s x.2 x.1.priority))) := by
  unfold checks
  apply mapM_ok
  rintro ⟨o, i⟩ hx
  have hx' := List.mem_zipIdx' hx
  obtain ⟨hi, ho⟩ := hx'
  have ho' : o = s[i]'hi := ho
  clear ho hx
  subst ho'
  exact checkOne_spec s hs i hi

end Precedence
end CZ
