import Verif.Spec.Volume
import Verif.SceneLemmas
import Verif.GeneratorLemmas
import Verif.TransformLemmas

/-! # Lemmas about the volume model -/

namespace CZ

open Spec

/-- Induction over volume trees. -/
theorem VTree.induct {P : VTree → Prop} (hv : ∀ v, P (.vol v))
    (hm : ∀ vs p h, (∀ t ∈ vs, P t) → P (.multi vs p h)) : ∀ t, P t
  | .vol v => hv v
  | .multi vs p h => hm vs p h (fun t ht => aux vs t ht)
where
  aux : ∀ (vs : List VTree) (t : VTree), t ∈ vs → P t
    | [], _, h => absurd h List.not_mem_nil
    | v :: vs, t, h => by
      rcases List.mem_cons.mp h with h | h
      · rw [h]; exact VTree.induct hv hm v
      · exact aux vs t h

theorem replicate_eq_map {α β : Type} (b : β) (ps : List α) : List.replicate ps.length b = ps.map fun _ => b := by
  simp

theorem Vol.check_eq (env : Env) (v : Vol) (ps : List (V3 ℝ)) : v.check env ps = ps.map (v.interior env) := by
  have loop : ∀ (as : List Alg) (f : V3 ℝ → Bool),
      as.foldl (fun c a => npAnd c (ps.map a.interior)) (ps.map f) = ps.map fun p => f p && as.all (·.interior p) := by
    intro as
    induction as with
    | nil => intro f; simp
    | cons a as ih =>
      intro f
      rw [List.foldl_cons, npAnd_map, ih]
      simp [Bool.and_assoc]
  unfold Vol.check
  rw [replicate_eq_map]
  cases h : v.tri with
  | none => simp only; rw [loop]; simp [Vol.interior, h]
  | some t => simp only; rw [npAnd_map, loop]; simp [Vol.interior, h]

theorem Vol.interior_iff (env : Env) (v : Vol) (p : V3 ℝ) :
    v.interior env p = true ↔ Inside env (.vol v) p := by
  constructor
  · intro h
    unfold Vol.interior at h
    rw [Bool.and_eq_true, List.all_eq_true] at h
    refine Inside.vol v p (fun t ht => ?_) h.2
    have := h.1
    rw [ht] at this
    exact this
  · intro h
    cases h with
    | vol _ _ hh ha =>
      unfold Vol.interior
      rw [Bool.and_eq_true, List.all_eq_true]
      refine ⟨?_, ha⟩
      cases ht : v.tri with
      | none => rfl
      | some t => exact hh t ht

theorem VTree.check_spec (env : Env) (t : VTree) :
    ∃ f : V3 ℝ → Bool, (∀ p, f p = true ↔ Inside env t p) ∧ ∀ ps, t.check env ps = ps.map f := by
  classical
  induction t using VTree.induct with
  | hv v =>
    refine ⟨v.interior env, v.interior_iff env, fun ps => ?_⟩
    rw [VTree.check, Vol.check_eq]
  | hm vs pr h ih =>
    have loop : ∀ (ws : List VTree), (∀ t ∈ ws, ∃ f : V3 ℝ → Bool, (∀ p, f p = true ↔ Inside env t p) ∧
        ∀ ps, t.check env ps = ps.map f) → ∀ (ps : List (V3 ℝ)) (g : V3 ℝ → Bool),
        VTree.checkList env ws ps (ps.map g) = ps.map fun p => g p || decide (∃ t ∈ ws, Inside env t p) := by
      intro ws hws ps
      induction ws with
      | nil => intro g; simp [VTree.checkList]
      | cons w ws ihw =>
        intro g
        obtain ⟨f, hf, hc⟩ := hws w List.mem_cons_self
        rw [VTree.checkList, hc, npOr_map, ihw (fun t ht => hws t (List.mem_cons_of_mem _ ht))]
        apply List.map_congr_left
        intro p _
        rw [Bool.eq_iff_iff]
        simp only [Bool.or_eq_true, hf, decide_eq_true_eq, List.mem_cons, exists_eq_or_imp, or_assoc]
    refine ⟨fun p => decide (∃ t ∈ vs, Inside env t p), fun p => ?_, fun ps => ?_⟩
    · rw [decide_eq_true_eq]
      constructor
      · rintro ⟨t, ht, hi⟩; exact Inside.multi vs pr h t p ht hi
      · intro hi
        cases hi with
        | multi _ _ _ t _ ht hi => exact ⟨t, ht, hi⟩
    · rw [VTree.check, replicate_eq_map, loop vs ih]
      simp

theorem VTree.interior_iff (env : Env) (t : VTree) (p : V3 ℝ) : t.interior env p = true ↔ Inside env t p := by
  obtain ⟨f, hf, hc⟩ := VTree.check_spec env t
  rw [VTree.interior, hc]
  simpa using hf p

theorem VTree.check_eq (env : Env) (t : VTree) (ps : List (V3 ℝ)) : t.check env ps = ps.map (t.interior env) := by
  obtain ⟨f, hf, hc⟩ := VTree.check_spec env t
  rw [hc]
  apply List.map_congr_left
  intro p _
  rw [Bool.eq_iff_iff, hf, VTree.interior_iff]

/-! ## populate -/

theorem maskSel_filter_zip {α β : Type} (f : α → Bool) (as : List α) (ss : List β) (h : as.length = ss.length) :
    (maskSel (as.map f) as).zip (maskSel (as.map f) ss) = (as.zip ss).filter (fun q => f q.1) :=
  Scene.maskSel_zip_filter f as ss h

/-- A successful `populate_atoms` of a Volume. -/
theorem Vol.populate_inv {env : Env} {n : ℕ} {v v' : Vol} (h : v.populate env n = (v', .ok ())) :
    ∃ b g g' cs zs, v.boundingBox env = .ok b ∧ v.gen = some g ∧ g.supply env n b = (g', .ok (cs, zs)) ∧
      cs.length = zs.length ∧
      v' = { v with
        gen := (some g' : Option GenObj)
        atoms := some (maskSel (cs.map (v.interior env)) cs)
        species := some (maskSel (cs.map (v.interior env)) zs) } := by
  unfold Vol.populate at h
  cases hb : v.boundingBox env with
  | error e => rw [hb] at h; simp at h
  | ok b =>
    rw [hb] at h
    cases hg : v.gen with
    | none => rw [hg] at h; simp at h
    | some g =>
      rw [hg] at h
      simp only at h
      rcases hs : g.supply env n b with ⟨g', r⟩
      rw [hs] at h
      cases r with
      | error e => simp at h
      | ok r =>
        obtain ⟨cs, zs⟩ := r
        simp only [Vol.check_eq] at h
        have hi : Vol.interior env { v with gen := (some g' : Option GenObj) } = v.interior env := rfl
        rw [hi] at h
        simp only [npMask, List.length_map, if_true] at h
        by_cases hl : cs.length = zs.length
        · rw [if_pos hl] at h
          simp only [Prod.mk.injEq, and_true] at h
          exact ⟨b, g, g', cs, zs, rfl, rfl, hs, hl, h.symm⟩
        · rw [if_neg hl] at h; simp at h

theorem contents_congr {P S : Type} {α : Type} (l : List α) (f g : α → Body P S)
    (hp : ∀ a ∈ l, (f a).priority = (g a).priority) (hi : ∀ a ∈ l, ∀ x, (f a).inside x ↔ (g a).inside x)
    (hs : ∀ a ∈ l, ((f a).sites).Perm (g a).sites) : (contents (l.map f)).Perm (contents (l.map g)) := by
  classical
  rw [contents_eq, contents_eq, List.flatMap_map, List.flatMap_map]
  have hk : ∀ a ∈ l, ∀ x, keepCount (l.map f) (f a) x = keepCount (l.map g) (g a) x := by
    intro a ha x
    unfold keepCount
    rw [List.countP_map, List.countP_map]
    have e1 : l.countP ((fun c : Body P S => decide (c.priority ≤ (f a).priority ∧ c.inside x)) ∘ f) =
        l.countP ((fun c : Body P S => decide (c.priority ≤ (g a).priority ∧ c.inside x)) ∘ g) := by
      apply List.countP_congr
      intro b hb
      simp only [Function.comp, decide_eq_true_eq, hp a ha, hp b hb, hi b hb]
    rw [e1]
    simp only [hi a ha]
  apply List.Perm.flatMap_left
  intro a ha
  have : (fun q : P × S => keepCount (l.map f) (f a) q.1) = fun q => keepCount (l.map g) (g a) q.1 := by
    funext q; exact hk a ha q.1
  rw [this]
  exact (hs a ha).filter _

/-- What `populate_atoms` achieves on a tree. -/
structure Populated (env : Env) (t t' : VTree) (cs : List (V3 ℝ × ℤ)) : Prop where
  fills : Fills env t cs
  held : ∃ as ss, t'.held = some (as, ss) ∧ as.length = ss.length ∧ (as.zip ss).Perm cs
  prio : t'.priority = t.priority
  inside : ∀ p, Inside env t' p ↔ Inside env t p

/-- The resolution step on a list of populated volumes. -/
theorem VTree.resolve_spec (env : Env) (ws : List VTree) (hne : ws ≠ [])
    (hh : ∀ w ∈ ws, ∃ as ss, w.held = some (as, ss) ∧ as.length = ss.length) :
    ∃ as ss, VTree.resolve env (stableSort VTree.priority ws) = .ok (as, ss) ∧ as.length = ss.length ∧
      as.zip ss = contents ((stableSort VTree.priority ws).map fun w =>
        ⟨w.priority, (w.held.getD ([], [])).1.zip (w.held.getD ([], [])).2, Inside env w⟩) := by
  have hmap : (stableSort VTree.priority ws).map (toSceneObj env) = Scene.sortObjects (ws.map (toSceneObj env)) := by
    unfold Scene.sortObjects
    apply stableSort_map
    intro x y; rfl
  unfold VTree.resolve
  simp only [hmap, Scene.checks_sorted]
  have hlen : (stableSort VTree.priority ws).length ≠ 0 := by
    rw [(stableSort_perm _ _).length_eq]
    simpa using hne
  have hcur : ∀ o ∈ Scene.sortObjects (ws.map (toSceneObj env)), ∃ as ss, o.cur = some (as, ss) ∧ as.length = ss.length := by
    intro o ho
    rw [← hmap] at ho
    obtain ⟨w, hw, rfl⟩ := List.mem_map.mp ho
    exact hh w ((stableSort_perm _ _).mem_iff.mp hw)
  obtain ⟨as, ss, h1, h2, h3, h4⟩ := Scene.gather_contents
    (⟨some (Scene.sortObjects (ws.map (toSceneObj env))), some (Scene.masks (Scene.sortObjects (ws.map (toSceneObj env)))),
      (0, 0)⟩ : Scene (V3 ℝ) ℤ) _ rfl rfl hcur
  refine ⟨as, ss, ?_, h3, ?_⟩
  · simp only [bind, Except.bind, hlen, if_false, h1, h2, pure, Except.pure]
  · rw [h4, ← hmap, List.map_map]
    congr 1
    apply List.map_congr_left
    intro w hw
    obtain ⟨as, ss, ha, hl⟩ := hh w ((stableSort_perm _ _).mem_iff.mp hw)
    simp only [Function.comp, Scene.bodyOf, Scene.toObj, toSceneObj, ha, Option.map_some, Option.getD_some]
    congr 1
    funext p
    rw [VTree.interior_iff]

theorem VTree.populate_spec (env : Env) (t : VTree) : ∀ (n : ℕ) (t' : VTree) (n' : ℕ),
    t.populate env n = (t', n', .ok ()) → ∃ cs, Populated env t t' cs := by
  classical
  induction t using VTree.induct with
  | hv v =>
    intro n t' n' h
    rw [VTree.populate] at h
    rcases hp : v.populate env n with ⟨w, r⟩
    rw [hp] at h
    simp only [Prod.mk.injEq] at h
    obtain ⟨rfl, -, rfl⟩ := h
    obtain ⟨b, g, g', cs, zs, hb, hg, hs, hl, hv'⟩ := Vol.populate_inv hp
    have hin : ∀ p, Inside env (.vol w) p ↔ Inside env (.vol v) p := by
      intro p; rw [← Vol.interior_iff, ← Vol.interior_iff, hv']; rfl
    refine ⟨_, Fills.vol v (cs.zip zs) ⟨n, b, g, cs, zs, hb, hg, by rw [hs], hl, rfl⟩, ?_, by rw [hv']; rfl, hin⟩
    refine ⟨_, _, by rw [hv']; rfl, maskSel_length_eq _ _ _ hl, ?_⟩
    rw [maskSel_filter_zip _ _ _ hl]
    have : (fun q : V3 ℝ × ℤ => v.interior env q.1) = fun a => decide (Inside env (.vol v) a.1) := by
      funext q; rw [Bool.eq_iff_iff, Vol.interior_iff, decide_eq_true_eq]
    rw [this]
  | hm vs pr hd ih =>
    have loop : ∀ (ws : List VTree), (∀ t ∈ ws, ∀ (n : ℕ) (t' : VTree) (n' : ℕ),
        t.populate env n = (t', n', .ok ()) → ∃ cs, Populated env t t' cs) → ∀ n ws' n',
        VTree.populateList env ws n = (ws', n', .ok ()) →
        ∃ parts : List (VTree × VTree × List (V3 ℝ × ℤ)), parts.map (fun x => x.1) = ws ∧
          parts.map (fun x => x.2.1) = ws' ∧ ∀ x ∈ parts, Populated env x.1 x.2.1 x.2.2 := by
      intro ws hws
      induction ws with
      | nil =>
        intro n ws' n' h
        rw [VTree.populateList] at h
        simp only [Prod.mk.injEq] at h
        exact ⟨[], rfl, by simpa using h.1, by simp⟩
      | cons w ws ihw =>
        intro n ws' n' h
        rw [VTree.populateList] at h
        rcases hp : w.populate env n with ⟨w', m, r⟩
        rw [hp] at h
        cases r with
        | error e => simp at h
        | ok u =>
          simp only [Prod.mk.injEq] at h
          obtain ⟨rfl, h2⟩ := h
          obtain ⟨cs, hcs⟩ := hws w List.mem_cons_self n w' m hp
          obtain ⟨parts, h3, h4, h5⟩ := ihw (fun t ht => hws t (List.mem_cons_of_mem _ ht)) m
            (VTree.populateList env ws m).1 n' (Prod.ext rfl h2)
          refine ⟨(w, w', cs) :: parts, by simp [h3], by simp [h4], ?_⟩
          intro x hx
          rcases List.mem_cons.mp hx with rfl | hx
          · exact hcs
          · exact h5 x hx
    intro n t' n' h
    rw [VTree.populate] at h
    rcases hl : VTree.populateList env vs n with ⟨vs', m, r⟩
    rw [hl] at h
    cases r with
    | error e => simp at h
    | ok u =>
      simp only at h
      obtain ⟨parts, hp1, hp2, hp3⟩ := loop vs ih n vs' m hl
      have hne : vs' ≠ [] := by
        rintro rfl
        have : VTree.resolve env (stableSort VTree.priority []) = .error .value := by
          simp [VTree.resolve, stableSort, Precedence.checks, bind, Except.bind, pure, Except.pure,
            throw, throwThe, MonadExceptOf.throw]
        rw [this] at h
        simp at h
      have hheld : ∀ w ∈ vs', ∃ as ss, w.held = some (as, ss) ∧ as.length = ss.length := by
        intro w hw
        rw [← hp2] at hw
        obtain ⟨x, hx, rfl⟩ := List.mem_map.mp hw
        obtain ⟨as, ss, h1, h2, -⟩ := (hp3 x hx).held
        exact ⟨as, ss, h1, h2⟩
      obtain ⟨as, ss, hr, hlen, hz⟩ := VTree.resolve_spec env vs' hne hheld
      rw [hr] at h
      simp only [Prod.mk.injEq, and_true] at h
      obtain ⟨rfl, -⟩ := h
      refine ⟨contents ((parts.map fun x => (x.1, x.2.2)).map fun x => ⟨x.1.priority, x.2, Inside env x.1⟩), ?_, ?_, rfl, ?_⟩
      · have := Fills.multi (env := env) (parts.map fun x => (x.1, x.2.2)) pr hd (by
          intro x hx
          obtain ⟨y, hy, rfl⟩ := List.mem_map.mp hx
          exact (hp3 y hy).fills)
        rwa [List.map_map, show (Prod.fst ∘ fun x : VTree × VTree × List (V3 ℝ × ℤ) => (x.1, x.2.2)) = fun x => x.1 from rfl,
          hp1] at this
      · refine ⟨as, ss, rfl, hlen, ?_⟩
        rw [hz]
        refine (contents_perm ((stableSort_perm VTree.priority vs').map _)).trans ?_
        rw [← hp2, List.map_map, List.map_map]
        apply contents_congr
        · intro x hx; exact (hp3 x hx).prio
        · intro x hx p; exact (hp3 x hx).inside p
        · intro x hx
          obtain ⟨as, ss, h1, h2, h3⟩ := (hp3 x hx).held
          simp only [Function.comp, h1, Option.getD_some]
          exact h3
      · intro p
        have key : (∃ w ∈ vs', Inside env w p) ↔ ∃ w ∈ vs, Inside env w p := by
          rw [← hp1, ← hp2]
          simp only [List.mem_map]
          constructor
          · rintro ⟨_, ⟨x, hx, rfl⟩, hi⟩; exact ⟨_, ⟨x, hx, rfl⟩, ((hp3 x hx).inside p).mp hi⟩
          · rintro ⟨_, ⟨x, hx, rfl⟩, hi⟩; exact ⟨_, ⟨x, hx, rfl⟩, ((hp3 x hx).inside p).mpr hi⟩
        constructor
        · intro hi
          cases hi with
          | multi _ _ _ w _ hw hi =>
            obtain ⟨u, hu, hui⟩ := key.mp ⟨w, (stableSort_perm _ _).mem_iff.mp hw, hi⟩
            exact Inside.multi vs pr hd u p hu hui
        · intro hi
          cases hi with
          | multi _ _ _ w _ hw hi =>
            obtain ⟨u, hu, hui⟩ := key.mpr ⟨w, hw, hi⟩
            exact Inside.multi _ _ _ u p ((stableSort_perm _ _).mem_iff.mpr hu) hui

end CZ
