import Verif.Containers
import Verif.Props.Strain

/-!
# C100, C101, C102: adding members to sequences, and what sequences of post transforms do
-/

namespace CZ

/-! ## C100 -/

section
variable {M : Type}

/-- The objects handed over. -/
def AddArg.objects : AddArg M → List (Elem M)
  | .single e => [e]
  | .container es => es
  | .iterator es => es

/-- What a caller means to add: the objects handed over, nothing when one of them is of the wrong class. -/
def AddArg.meant (a : AddArg M) : List M :=
  if ∃ e ∈ a.objects, e.get? = none then [] else a.objects.filterMap Elem.get?

/-- The argument is not an iterator which can be run through only once. -/
def AddArg.Reiterable : AddArg M → Prop
  | .iterator _ => False
  | _ => True

theorem Elem.all_isMember (es : List (Elem M)) : es.all Elem.isMember = true ↔ ¬ ∃ e ∈ es, e.get? = none := by
  simp only [List.all_eq_true, not_exists, not_and]
  refine forall₂_congr fun e _ => ?_
  cases e <;> simp [Elem.isMember, Elem.get?]

/-- **C100 (partial).** After any history of calls with single objects, lists, tuples or arrays, exceptions caught, the
members are those the caller meant to add, in order.  Missing: iterators (`C100_iterator_dropped`, `C100_refuted`). -/
theorem C100_history_partial (ms : List M) (args : List (AddArg M)) (h : ∀ a ∈ args, a.Reiterable) :
    addAll ms args = ms ++ args.flatMap AddArg.meant := by
  induction args generalizing ms with
  | nil => simp [addAll]
  | cons a as ih =>
    have ha : (addMembers ms a).1 = ms ++ a.meant := by
      cases a with
      | single e => cases e <;> simp [addMembers, AddArg.meant, AddArg.objects, Elem.get?]
      | container es =>
        by_cases he : ∃ e ∈ es, e.get? = none
        · have : ¬ es.all Elem.isMember = true := fun h => (Elem.all_isMember es).mp h he
          have hm : (AddArg.container es).meant = [] := if_pos he
          rw [hm]
          simp only [addMembers, if_neg this, List.append_nil]
        · have := (Elem.all_isMember es).mpr he
          have hm : (AddArg.container es).meant = es.filterMap Elem.get? := if_neg he
          rw [hm]
          simp only [addMembers, if_pos this]
      | iterator es => exact absurd (h _ List.mem_cons_self) id
    have := ih (ms ++ a.meant) fun b hb => h b (List.mem_cons_of_mem _ hb)
    simp only [addAll, List.foldl_cons, ha] at this ⊢
    rw [this, List.flatMap_cons, List.append_assoc]

/-- **C100 (errors).** A call succeeds exactly when all objects handed over are of the right class; otherwise it raises
AssertionError and adds nothing. -/
theorem C100_wrong_class (ms : List M) (a : AddArg M) :
    ((addMembers ms a).2 = .ok () ↔ ∀ e ∈ a.objects, e.get? ≠ none) ∧
    ((addMembers ms a).2 ≠ .ok () → addMembers ms a = (ms, .error .assertion)) := by
  cases a with
  | single e => cases e <;> simp [addMembers, AddArg.objects, Elem.get?]
  | container es | iterator es =>
    by_cases he : ∃ e ∈ es, e.get? = none
    · have : ¬ es.all Elem.isMember = true := fun h => (Elem.all_isMember es).mp h he
      simp only [addMembers, if_neg this, AddArg.objects]
      simpa using he
    · have := (Elem.all_isMember es).mpr he
      simp only [addMembers, if_pos this, AddArg.objects]
      simpa using he

/-- **C100 (what happens instead).** An iterator over objects of the right class is accepted without an error and nothing
is added. -/
theorem C100_iterator_dropped (ms xs : List M) :
    addMembers ms (.iterator (xs.map .member)) = (ms, .ok ()) := by
  have : (xs.map Elem.member).all Elem.isMember = true := by simp [Elem.isMember]
  simp only [addMembers, if_pos this, List.append_nil]

end

/-- **C100, consequences of a dropped iterator.** `MultiTransform(t for t in ts)` is the identity on points, bases and is
neither locked nor basis_only; `PostSequence(t for t in ts)` leaves all atoms alone. -/
theorem C100_iterator_identity {K : Type} [CommRing K] [LE K] [DecidableLE K] (ts : List (Tr K)) (qs : List (Post K))
    (p : V3 K) (B : M3 K) (rng : ℕ → ℕ → ℕ → K) (ps : List (V3 K)) (zs : List ℤ) :
    (∃ ms, membersOf (some (.iterator (ts.map .member))) = .ok ms ∧ (Tr.multi ms).apply p = p ∧
      (Tr.multi ms).bases B = B ∧ (Tr.multi ms).locked = false ∧ (Tr.multi ms).basisOnly = false) ∧
    (∃ ms, membersOf (some (.iterator (qs.map .member))) = .ok ms ∧
      ((Post.seq ms).run rng 0 ps zs).2 = (ps, zs)) := by
  refine ⟨⟨[], ?_, rfl, rfl, rfl, rfl⟩, ⟨[], ?_, ?_⟩⟩
  · simp only [membersOf, C100_iterator_dropped]
  · simp only [membersOf, C100_iterator_dropped]
  · rw [Post.run, Post.runList]

/-- **C100, finding.** A MultiTransform made from a generator expression with one translation leaves every point where it
is, without an error; made from a list it moves them. -/
theorem C100_refuted :
    ∃ ms ms' : List (Tr ℚ),
      membersOf (some (.iterator [.member (.translation ⟨1, 0, 0⟩ true false)])) = .ok ms ∧
      membersOf (some (.container [.member (.translation ⟨1, 0, 0⟩ true false)])) = .ok ms' ∧
      (Tr.multi ms).apply 0 = 0 ∧ (Tr.multi ms').apply 0 = ⟨1, 0, 0⟩ := by
  refine ⟨[], [.translation ⟨1, 0, 0⟩ true false], rfl, rfl, rfl, ?_⟩
  decide +kernel

/-- Non-vacuity of C100: a single object, a list with a wrong object in it (refused), a list of two. -/
example : addAll ([] : List ℕ) [.single (.member 1), .container [.member 2, .other], .container [.member 3, .member 4]] =
    [1, 3, 4] := by decide +kernel

/-! ## C101 -/

section
variable {K : Type} [LE K] [DecidableLE K]

theorem Post.runList_append (rng : ℕ → ℕ → ℕ → K) (ts us : List (Post K)) (n : ℕ) (ps : List (V3 K)) (zs : List ℤ) :
    Post.runList rng (ts ++ us) n ps zs =
      Post.runList rng us (Post.runList rng ts n ps zs).1 (Post.runList rng ts n ps zs).2.1
        (Post.runList rng ts n ps zs).2.2 := by
  induction ts generalizing n ps zs with
  | nil => rw [List.nil_append, Post.runList.eq_1]
  | cons t ts ih => rw [List.cons_append, Post.runList, ih, Post.runList]

/-- **C101 (composition).** A sequence made of two parts does the first part and then the second on its results. -/
theorem C101_composition (rng : ℕ → ℕ → ℕ → K) (ts us : List (Post K)) (n : ℕ) (ps : List (V3 K)) (zs : List ℤ) :
    (Post.seq (ts ++ us)).run rng n ps zs =
      (Post.seq us).run rng ((Post.seq ts).run rng n ps zs).1 ((Post.seq ts).run rng n ps zs).2.1
        ((Post.seq ts).run rng n ps zs).2.2 := by
  rw [Post.run, Post.run, Post.run, Post.runList_append]

/-- **C101 (functions).** A sequence of user functions applies them from left to right, each to the result of the one
before. -/
theorem C101_functions (rng : ℕ → ℕ → ℕ → K) (fs : List (List (V3 K) → List ℤ → List (V3 K) × List ℤ)) (n : ℕ)
    (ps : List (V3 K)) (zs : List ℤ) :
    (Post.seq (fs.map .arbitrary)).run rng n ps zs = (n, fs.foldl (fun s f => f s.1 s.2) (ps, zs)) := by
  rw [Post.run]
  induction fs generalizing ps zs with
  | nil => rw [List.map_nil, Post.runList]; rfl
  | cons f fs ih => rw [List.map_cons, Post.runList, Post.run, ih]; rfl

mutual
/-- The members of nested sequences, from left to right. -/
def flatPost : Post K → List (Post K)
  | .subst t s f => [.subst t s f]
  | .arbitrary f => [.arbitrary f]
  | .seq ts => flatPosts ts
/-- Same for a list. -/
def flatPosts : List (Post K) → List (Post K)
  | [] => []
  | t :: ts => flatPost t ++ flatPosts ts
end

mutual
theorem flatPost_run (rng : ℕ → ℕ → ℕ → K) : ∀ (t : Post K) (n : ℕ) (ps : List (V3 K)) (zs : List ℤ),
    Post.runList rng (flatPost t) n ps zs = t.run rng n ps zs
  | .subst t s f, n, ps, zs => by rw [flatPost, Post.runList, Post.runList]
  | .arbitrary f, n, ps, zs => by rw [flatPost, Post.runList, Post.runList]
  | .seq ts, n, ps, zs => by rw [flatPost, Post.run, flatPosts_run rng ts]
theorem flatPosts_run (rng : ℕ → ℕ → ℕ → K) : ∀ (ts : List (Post K)) (n : ℕ) (ps : List (V3 K)) (zs : List ℤ),
    Post.runList rng (flatPosts ts) n ps zs = Post.runList rng ts n ps zs
  | [], n, ps, zs => by rw [flatPosts]
  | t :: ts, n, ps, zs => by
    rw [flatPosts, Post.runList_append, flatPost_run rng t, flatPosts_run rng ts, Post.runList]
end

/-- **C101 (nesting).** How sequences are nested does not matter: a sequence acts like the sequence of its innermost
members from left to right. -/
theorem C101_nesting (rng : ℕ → ℕ → ℕ → K) (t : Post K) (n : ℕ) (ps : List (V3 K)) (zs : List ℤ) :
    (Post.seq (flatPost t)).run rng n ps zs = t.run rng n ps zs := by
  rw [Post.run, flatPost_run]

/-! ## C102 -/

mutual
/-- Number of substitutions in a post transform. -/
def substCount : Post K → ℕ
  | .subst _ _ _ => 1
  | .arbitrary _ => 0
  | .seq ts => substCounts ts
/-- Same for a list. -/
def substCounts : List (Post K) → ℕ
  | [] => 0
  | t :: ts => substCount t + substCounts ts
end

mutual
theorem run_local (r1 r2 : ℕ → ℕ → ℕ → K) : ∀ (t : Post K) (n : ℕ) (ps : List (V3 K)) (zs : List ℤ),
    (∀ k, n ≤ k → k < n + substCount t → r1 k = r2 k) →
    t.run r1 n ps zs = t.run r2 n ps zs ∧ (t.run r1 n ps zs).1 = n + substCount t
  | .subst t s f, n, ps, zs, h => by
    rw [Post.run, Post.run, h n le_rfl (by rw [substCount]; omega)]
    exact ⟨rfl, by rw [substCount]⟩
  | .arbitrary f, n, ps, zs, h => by
    rw [Post.run, Post.run]
    exact ⟨rfl, by rw [substCount]; rfl⟩
  | .seq ts, n, ps, zs, h => by
    rw [Post.run, Post.run, substCount]
    rw [substCount] at h
    exact runList_local r1 r2 ts n ps zs h
theorem runList_local (r1 r2 : ℕ → ℕ → ℕ → K) : ∀ (ts : List (Post K)) (n : ℕ) (ps : List (V3 K)) (zs : List ℤ),
    (∀ k, n ≤ k → k < n + substCounts ts → r1 k = r2 k) →
    Post.runList r1 ts n ps zs = Post.runList r2 ts n ps zs ∧ (Post.runList r1 ts n ps zs).1 = n + substCounts ts
  | [], n, ps, zs, h => by
    rw [Post.runList, Post.runList]
    exact ⟨rfl, by rw [substCounts]; rfl⟩
  | t :: ts, n, ps, zs, h => by
    rw [substCounts] at h
    obtain ⟨e1, e2⟩ := run_local r1 r2 t n ps zs fun k h1 h2 => h k h1 (by omega)
    rw [Post.runList, Post.runList, ← e1, e2]
    obtain ⟨e3, e4⟩ := runList_local r1 r2 ts (n + substCount t) (t.run r1 n ps zs).2.1 (t.run r1 n ps zs).2.2
      fun k h1 h2 => h k (by omega) (by omega)
    exact ⟨e3, by rw [e4, substCounts]; omega⟩
end

/-- **C102 (partial).** With at most one substitution in it, a post transform called with a seed has the same possible
results as without one.  Missing: two or more substitutions, where some results become impossible
(`C102_seeded_chain_refuted`). -/
theorem C102_one_substitution_partial (t : Post K) (h : substCount t ≤ 1) (ps : List (V3 K)) (zs : List ℤ)
    (out : List (V3 K) × List ℤ) :
    (∃ rng, (t.run rng 0 ps zs).2 = out) ↔ ∃ draws, t.runSeeded draws ps zs = out := by
  constructor
  · rintro ⟨rng, rfl⟩
    refine ⟨rng 0, ?_⟩
    unfold Post.runSeeded
    rw [(run_local (fun _ => rng 0) rng t 0 ps zs fun k h1 h2 => by rw [show k = 0 by omega]).1]
  · rintro ⟨draws, rfl⟩
    exact ⟨fun _ => draws, rfl⟩

theorem replaceSpecies_one (a b : ℤ) (frac : K) (draws : ℕ → ℕ → K) (zs : List ℤ) :
    Post.replaceSpecies [a] [b] frac draws zs =
      zs.zipIdx.map fun x => if x.1 = a ∧ draws 0 x.2 ≤ frac then b else x.1 := by
  have : zs.zip zs = zs.map fun z => (z, z) := by
    induction zs with
    | nil => rfl
    | cons z zs ih => rw [List.zip_cons_cons, ih]; rfl
  simp only [Post.replaceSpecies, List.zip_cons_cons, List.zip_nil_right, Post.substLoop, Post.substPass, this,
    List.zipIdx_map, List.map_map]
  rfl

/-- **C102, finding.** `PostSequence([A→B, B→C])` with one fraction, called with a seed, never leaves a B where an A was,
whatever the seed: every member sees the same random numbers.  Without a seed B is a possible result. -/
theorem C102_seeded_chain_refuted (a b c : ℤ) (hab : a ≠ b) (hbc : c ≠ b) (frac lo hi : K) (hlo : lo ≤ frac)
    (hhi : ¬ hi ≤ frac) :
    (∀ (draws : ℕ → ℕ → K) (ps : List (V3 K)) (zs : List ℤ) (i : ℕ), zs[i]? = some a →
      ((Post.seq [.subst [a] [b] frac, .subst [b] [c] frac]).runSeeded draws ps zs).2[i]? ≠ some b) ∧
    (∀ ps, ∃ rng, ((Post.seq [.subst [a] [b] frac, .subst [b] [c] frac]).run rng 0 ps [a]).2 = (ps, [b])) := by
  constructor
  · intro draws ps zs i hi
    simp only [Post.runSeeded, Post.run, Post.runList]
    rw [replaceSpecies_one, replaceSpecies_one]
    simp only [List.getElem?_map, List.getElem?_zipIdx, hi, Option.map_some, Nat.zero_add, true_and, ne_eq,
      Option.some.injEq]
    by_cases hd : draws 0 i ≤ frac
    · simp [hd, hbc]
    · simp [hd, hab]
  · intro ps
    refine ⟨fun n _ _ => if n = 0 then lo else hi, ?_⟩
    simp only [Post.run, Post.runList]
    rw [replaceSpecies_one, replaceSpecies_one]
    simp [hlo, hhi]

end

/-- Non-vacuity of C101 and C102: silicon to germanium to tin with fraction 1/2; a nested sequence. -/
example : ((Post.seq [.subst [14] [32] (1/2 : ℚ), .seq [.subst [32] [50] (1/2), .arbitrary fun ps zs => (ps, zs.reverse)]]).runSeeded
    (fun _ i => if i = 0 then 1/4 else 3/4) [0, 0] [14, 14]) = ([0, 0], [14, 50]) ∧
    ((14 : ℤ) ≠ 32 ∧ (50 : ℤ) ≠ 32 ∧ (0 : ℚ) ≤ 1/2 ∧ ¬ (1 : ℚ) ≤ 1/2) := by
  refine ⟨by decide +kernel, by norm_num⟩

end CZ
