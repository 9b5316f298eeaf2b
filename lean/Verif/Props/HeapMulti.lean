import Verif.Props.Heap

/-!
# Property C25: what MultiVolume.transform does to the owned volumes
-/

namespace CZ
open Spec

noncomputable section
open Classical

/-- The two stores have the same MultiVolumes, and Volumes at the same addresses. -/
def Frozen (h h' : Heap) : Prop := ∀ q, match h.vol q with
  | .vol _ => ∃ c, h'.vol q = .vol c
  | .multi vs p hd => h'.vol q = .multi vs p hd

theorem Frozen.refl (h : Heap) : Frozen h h := by
  intro q
  cases hq : h.vol q with
  | vol c => exact ⟨c, rfl⟩
  | multi a b d => rfl

theorem Frozen.trans {h h1 h2 : Heap} (a : Frozen h h1) (b : Frozen h1 h2) : Frozen h h2 := by
  intro q
  have ha := a q
  have hb := b q
  cases hq : h.vol q with
  | vol c =>
    simp only [hq] at ha
    obtain ⟨c1, hc1⟩ := ha
    simpa only [hc1] using hb
  | multi x y z =>
    simp only [hq] at ha
    simpa only [ha] using hb

theorem owned_congr {h h' : Heap} (f : Frozen h h') (n : ℕ) : ∀ r, owned h' n r = owned h n r := by
  induction n with
  | zero => exact fun _ => rfl
  | succ n ih =>
    intro r
    have := f r
    unfold owned
    cases hq : h.vol r with
    | vol c =>
      simp only [hq] at this
      obtain ⟨c', hc'⟩ := this
      simp only [hc']
    | multi vs p hd =>
      simp only [hq] at this
      simp only [this]
      congr 1
      exact funext ih

theorem endsWithin_congr {h h' : Heap} (f : Frozen h h') (n : ℕ) : ∀ r, EndsWithin h n r → EndsWithin h' n r := by
  induction n with
  | zero => exact fun _ hf => hf
  | succ n ih =>
    intro r
    have := f r
    unfold EndsWithin
    cases hq : h.vol r with
    | vol c =>
      simp only [hq] at this
      obtain ⟨c', hc'⟩ := this
      simp only [hc', implies_true]
    | multi vs p hd =>
      simp only [hq] at this
      simp only [this]
      exact fun hv v hm => ih v (hv v hm)

theorem transformRest_vol (t : Tr ℝ) (h : Heap) (c : VolFields) : (h.transformRest c t).1.vol = h.vol := by
  have ha : ∀ (as : List Ref) (h : Heap), (Heap.transformAlgs t h as).1.vol = h.vol := by
    intro as
    induction as with
    | nil => exact fun _ => rfl
    | cons a as ih =>
      intro h
      unfold Heap.transformAlgs
      have hv : (h.transformAlg a t).1.vol = h.vol := rfl
      generalize h.transformAlg a t = k at *
      obtain ⟨h1, _ | _⟩ := k
      · exact hv
      · simp only; rw [ih, hv]
  have hg : ∀ (h : Heap) (g : Ref), (h.transformGen g t).1.vol = h.vol := by
    intro h g
    unfold Heap.transformGen Heap.putGen
    simp only
    split <;> rfl
  unfold Heap.transformRest
  have := ha c.algs h
  generalize Heap.transformAlgs t h c.algs = k at *
  obtain ⟨h1, _ | _⟩ := k
  · exact this
  · simp only at this ⊢
    split
    · split
      · exact this
      · rw [hg, this]
    · exact this

theorem transformVol_frozen (env : Env) (h : Heap) (r : Ref) (c : VolFields) (hc : h.vol r = .vol c) (t : Tr ℝ) :
    Frozen h (h.transformVol env r c t).1 := by
  have hput : ∀ v, Frozen h (h.putVol r c v) := by
    intro v q
    by_cases hq : q = r
    · subst hq
      simp only [hc]
      exact ⟨_, Function.update_self _ _ _⟩
    · have e : (h.putVol r c v).vol q = h.vol q := Function.update_of_ne hq _ _
      cases hv : h.vol q with
      | vol c' => exact ⟨c', by rw [e, hv]⟩
      | multi a b d => simp only; rw [e, hv]
  have hrest : ∀ h1 : Heap, Frozen h1 (h1.transformRest c t).1 := by
    intro h1 q
    rw [transformRest_vol]
    exact Frozen.refl h1 q
  unfold Heap.transformVol
  split
  · exact hrest h
  · exact Frozen.refl h
  · simp only
    split
    · exact hput _
    · split
      · exact hput _
      · exact (hput _).trans (hrest _)

/-- The call on one Volume as a step. -/
theorem transform_step (env : Env) (t : Tr ℝ) (h : Heap) (r : Ref) (c : VolFields) (hc : h.vol r = .vol c) (vs : List Ref) (hr : r ∈ vs)
    (hs : Separate h vs) :
    Separate (h.transformVol env r c t).1 vs ∧ Writes h (h.transformVol env r c t).1 (parts h (.vol r)) ∧
      (∀ x, Proper h x → (∀ v ∈ vs, NoCommon h x (.vol v)) → ∀ v ∈ vs, NoCommon (h.transformVol env r c t).1 x (.vol v)) ∧
      value (h.transformVol env r c t).1 (.vol r) = .vol ((h.fieldsVal c).transform env t).1 := by
  obtain ⟨s, -⟩ := transformVol_spec env h r c hc (hs.1 r hr) t
  have other : ∀ x, Proper h x → NoCommon h x (.vol r) → parts (h.transformVol env r c t).1 x = parts h x := fun x hx hd =>
    (value_frame s.writes hx.2 hd).2
  have new : ∀ x, Proper h x → NoCommon h x (.vol r) → NoCommon (h.transformVol env r c t).1 x (.vol r) := by
    intro x hx hd q hq hq'
    rw [other x hx hd] at hq
    rcases s.grow q hq' with h3 | h3
    · exact hd q hq h3
    · exact absurd (hx.2 q hq) (not_lt.mpr h3)
  refine ⟨⟨fun v hv => ?_, fun v hv w hw hne => ?_⟩, s.writes, fun x hx hd v hv => ?_, s.val⟩
  · by_cases h1 : v = r
    · rw [h1]; exact s.proper
    · exact Proper.frame s.writes (hs.1 v hv) (hs.2 v hv r hr h1)
  · by_cases h1 : v = r
    · subst h1
      have := new (.vol w) (hs.1 w hw) (hs.2 w hw v hr (Ne.symm hne))
      exact fun q hq hq' => this q hq' hq
    · by_cases h2 : w = r
      · subst h2
        exact new (.vol v) (hs.1 v hv) (hs.2 v hv w hr h1)
      · intro q hq hq'
        rw [other _ (hs.1 v hv) (hs.2 v hv r hr h1)] at hq
        rw [other _ (hs.1 w hw) (hs.2 w hw r hr h2)] at hq'
        exact hs.2 v hv w hw hne q hq hq'
  · by_cases h2 : v = r
    · subst h2
      exact new x hx (hd v hv)
    · intro q hq hq'
      rw [other x hx (hd r hr)] at hq
      rw [other _ (hs.1 v hv) (hs.2 v hv r hr h2)] at hq'
      exact hd v hv q hq hq'

/-- One transformation of a value. -/
def stepV (env : Env) (t : Tr ℝ) (v : Value) : Value := ((Act.transform t).onValue env v).1

/-- What is proved about a loop that transforms the Volumes `as`, all of them in `vs`. -/
structure Loop (env : Env) (t : Tr ℝ) (vs as : List Ref) (h h' : Heap) : Prop where
  sep : Separate h' vs
  frozen : Frozen h h'
  val : ∀ v ∈ vs, value h' (.vol v) = (stepV env t)^[as.count v] (value h (.vol v))
  mono : h.next ≤ h'.next
  others : ∀ x, Proper h x → (∀ v ∈ vs, NoCommon h x (.vol v)) → value h' x = value h x ∧ Proper h' x ∧ ∀ v ∈ vs, NoCommon h' x (.vol v)

theorem Loop.nil {env : Env} {t : Tr ℝ} {vs : List Ref} {h : Heap} (hs : Separate h vs) : Loop env t vs [] h h :=
  ⟨hs, Frozen.refl h, fun _ _ => rfl, le_rfl, fun _ hx hd => ⟨rfl, hx, hd⟩⟩

theorem Loop.append {env : Env} {t : Tr ℝ} {vs as bs : List Ref} {h h1 h2 : Heap} (a : Loop env t vs as h h1) (b : Loop env t vs bs h1 h2) :
    Loop env t vs (as ++ bs) h h2 := by
  refine ⟨b.sep, a.frozen.trans b.frozen, fun v hv => ?_, a.mono.trans b.mono, fun x hx hd => ?_⟩
  · rw [b.val v hv, a.val v hv, List.count_append, Nat.add_comm, Function.iterate_add_apply]
  · obtain ⟨e1, e2, e3⟩ := a.others x hx hd
    obtain ⟨f1, f2, f3⟩ := b.others x e2 e3
    exact ⟨f1.trans e1, f2, f3⟩

theorem Loop.one {env : Env} {t : Tr ℝ} {vs : List Ref} {h : Heap} {r : Ref} {c : VolFields} (hc : h.vol r = .vol c) (hr : r ∈ vs)
    (hs : Separate h vs) : Loop env t vs [r] h (h.transformVol env r c t).1 := by
  obtain ⟨s1, s2, s3, s4⟩ := transform_step env t h r c hc vs hr hs
  refine ⟨s1, transformVol_frozen env h r c hc t, fun v hv => ?_, s2.mono, fun x hx hd => ?_⟩
  · by_cases hv' : v = r
    · subst hv'
      rw [s4, value_vol hc, List.count_singleton_self]
      rfl
    · rw [List.count_eq_zero_of_not_mem (by simpa using hv'), (value_frame s2 (hs.1 v hv).2 (hs.2 v hv r hr hv')).1]
      rfl
  · exact ⟨(value_frame s2 hx.2 (hd r hr)).1, Proper.frame s2 hx (hd r hr), s3 x hx hd⟩

theorem transformV_loop (env : Env) (t : Tr ℝ) (ws : List Ref) (n : ℕ) : ∀ (h h' : Heap) (r : Ref), EndsWithin h n r →
    (∀ v ∈ owned h n r, v ∈ ws) → Separate h ws → Heap.transformV env t n h r = (h', .ok ()) →
    Loop env t ws (owned h n r) h h' := by
  induction n with
  | zero => exact fun h h' r hf => absurd hf (by simp [EndsWithin])
  | succ n ih =>
    intro h h' r hf ho hs he
    unfold Heap.transformV at he
    unfold owned at ho ⊢
    unfold EndsWithin at hf
    cases hc : h.vol r with
    | vol c =>
      simp only [hc] at he ho ⊢
      have := Loop.one (env := env) (t := t) hc (ho r (by simp)) hs
      rw [he] at this
      exact this
    | multi vs p hd =>
      simp only [hc] at he ho hf ⊢
      -- the loop
      have hl : ∀ (vs : List Ref) (h1 : Heap), (∀ v ∈ vs, EndsWithin h1 n v) → (∀ v ∈ vs.flatMap (owned h1 n), v ∈ ws) → Separate h1 ws →
          Heap.transformVs env t n h1 vs = (h', .ok ()) → Loop env t ws (vs.flatMap (owned h1 n)) h1 h' := by
        intro vs
        induction vs with
        | nil =>
          intro h1 _ _ hs1 he1
          unfold Heap.transformVs at he1
          simp only [Prod.mk.injEq, and_true] at he1
          subst he1
          exact Loop.nil hs1
        | cons v vs ihl =>
          intro h1 hf1 ho1 hs1 he1
          unfold Heap.transformVs at he1
          cases hk : Heap.transformV env t n h1 v with
          | mk h2 out =>
            rw [hk] at he1
            cases out with
            | error e => simp at he1
            | ok u =>
              simp only at he1
              have l1 := ih h1 h2 v (hf1 v (by simp)) (fun w hw => ho1 w (by simp [hw])) hs1 hk
              have e : vs.flatMap (owned h2 n) = vs.flatMap (owned h1 n) := by
                congr 1
                exact funext (owned_congr l1.frozen n)
              have l2 := ihl h2 (fun w hw => endsWithin_congr l1.frozen n w (hf1 w (by simp [hw])))
                (fun w hw => by rw [e] at hw; exact ho1 w (by simp only [List.flatMap_cons, List.mem_append]; exact .inr hw)) l1.sep he1
              rw [e] at l2
              exact l1.append l2
      exact hl vs h hf ho hs he

/-- **C25, what holds for every way of sharing.** When `m.transform(T)` returns, every owned Volume has been transformed as many
times as there are ways in which `m` owns it, and every object that has no parts in common with them is as before. -/
theorem C25_transform_counts (env : Env) (t : Tr ℝ) (n : ℕ) (h h' : Heap) (m : Ref) (hn : EndsWithin h n m) (hs : Separate h (owned h n m))
    (he : Heap.transformV env t n h m = (h', .ok ())) :
    (∀ v ∈ owned h n m, value h' (.vol v) = (fun x => ((Act.transform t).onValue env x).1)^[(owned h n m).count v] (value h (.vol v))) ∧
    ∀ x, Proper h x → (∀ v ∈ owned h n m, NoCommon h x (.vol v)) → value h' x = value h x := by
  have l := transformV_loop env t (owned h n m) n h h' m hn (fun _ hv => hv) hs he
  exact ⟨l.val, fun x hx hd => (l.others x hx hd).1⟩

/-- **C25, partial.** When no Volume is owned twice, every owned Volume is transformed exactly once.  Missing: Volumes owned more
than once, for which the property is false (`C25_transform_once_refuted`). -/
theorem C25_transform_once_partial (env : Env) (t : Tr ℝ) (n : ℕ) (h h' : Heap) (m : Ref) (hn : EndsWithin h n m)
    (hs : Separate h (owned h n m)) (hd : (owned h n m).Nodup) (he : Heap.transformV env t n h m = (h', .ok ())) :
    ∀ v ∈ owned h n m, ∀ c, h.vol v = .vol c → value h' (.vol v) = .vol ((h.fieldsVal c).transform env t).1 := by
  intro v hv c hc
  rw [(C25_transform_counts env t n h h' m hn hs he).1 v hv, List.count_eq_one_of_mem hd hv, value_vol hc]
  rfl

/-- The Volume of `demoHeap`, owned `k` times by a MultiVolume at address 5. -/
def demoMulti (k : ℕ) : Heap := (demoHeap.newMulti (List.replicate k 0) 0).1

theorem demoMulti_hyps (k : ℕ) : EndsWithin (demoMulti k) 2 5 ∧ owned (demoMulti k) 2 5 = List.replicate k 0 ∧
    Separate (demoMulti k) (owned (demoMulti k) 2 5) := by
  have ho : owned (demoMulti k) 2 5 = List.replicate k 0 := by
    show (List.replicate k 0).flatMap (owned (demoMulti k) 1) = _
    have h1 : owned (demoMulti k) 1 0 = [0] := rfl
    induction k with
    | zero => rfl
    | succ n ih =>
      have : ∀ j, owned (demoMulti j) 1 0 = [0] := fun _ => rfl
      rw [List.flatMap_congr (g := fun x => [x])]
      · simp
      · intro a ha
        rw [List.eq_of_mem_replicate ha]
        rfl
  refine ⟨?_, ho, ?_⟩
  · show ∀ v ∈ List.replicate k 0, EndsWithin (demoMulti k) 1 v
    intro v hv
    rw [List.eq_of_mem_replicate hv]
    exact trivial
  · rw [ho]
    refine ⟨fun v hv => ?_, fun v hv w hw hne => ?_⟩
    · rw [List.eq_of_mem_replicate hv]
      refine ⟨?_, ?_⟩
      · show ([0, 1, 2, 3] : List ℕ).Nodup
        decide
      · show ∀ r ∈ ([0, 1, 2, 3] : List ℕ), r < 6
        decide
    · exact absurd ((List.eq_of_mem_replicate hv).trans (List.eq_of_mem_replicate hw).symm) hne

theorem demoMulti_ok (env : Env) (k : ℕ) :
    ∃ h', Heap.transformV env (.translation ⟨1, 0, 0⟩ false false) 2 (demoMulti k) 5 = (h', .ok ()) := by
  have hl : ∀ (k : ℕ) (h : Heap), (∃ c, h.vol 0 = .vol c ∧ c.points = none ∧ c.algs = [1]) → (∃ s, h.alg 1 = .sphere s) →
      ∃ h', Heap.transformVs env (.translation ⟨1, 0, 0⟩ false false) 1 h (List.replicate k 0) = (h', .ok ()) := by
    intro k
    induction k with
    | zero => exact fun h _ _ => ⟨h, by simp [Heap.transformVs]⟩
    | succ k ih =>
      rintro h ⟨c, hc, hp, ha⟩ ⟨s, hs⟩
      rw [List.replicate_succ]
      have hal : (Tr.translation (⟨1, 0, 0⟩ : V3 ℝ) false false).alg (.sphere s) =
          (.sphere { s with center := s.center + ⟨1, 0, 0⟩ }, .ok ()) := by rw [Tr.alg]
      have hta : h.transformAlg 1 (.translation ⟨1, 0, 0⟩ false false) =
          ({ h with alg := Function.update h.alg 1 (.sphere { s with center := s.center + ⟨1, 0, 0⟩ }) }, .ok ()) := by
        unfold Heap.transformAlg
        rw [hs, hal]
      have hlk : (Tr.translation (⟨1, 0, 0⟩ : V3 ℝ) false false).locked = false := by rw [Tr.locked]
      unfold Heap.transformVs Heap.transformV
      simp only [hc, Heap.transformVol, hp, Heap.transformRest, ha, Heap.transformAlgs, hta, hlk, Bool.false_eq_true, if_false]
      refine ih _ ⟨c, hc, hp, ha⟩ ⟨{ s with center := s.center + ⟨1, 0, 0⟩ }, ?_⟩
      simp
  have h5 : (demoMulti k).vol 5 = .multi (List.replicate k 0) 0 none := rfl
  unfold Heap.transformV
  simp only [h5]
  exact hl k (demoMulti k) ⟨_, rfl, rfl, rfl⟩ ⟨_, rfl⟩

/-- The hypotheses of `C25_transform_once_partial` are met by a MultiVolume that owns one Volume. -/
example (env : Env) : EndsWithin (demoMulti 1) 2 5 ∧ Separate (demoMulti 1) (owned (demoMulti 1) 2 5) ∧ (owned (demoMulti 1) 2 5).Nodup ∧
    ∃ h', Heap.transformV env (.translation ⟨1, 0, 0⟩ false false) 2 (demoMulti 1) 5 = (h', .ok ()) :=
  ⟨(demoMulti_hyps 1).1, (demoMulti_hyps 1).2.2, by rw [(demoMulti_hyps 1).2.1]; simp, demoMulti_ok env 1⟩

/-- **C25 is false when a Volume is owned twice**: `m = MultiVolume([v, v]); m.transform(T)` transforms `v` twice.  `add_volume`
(volume.py:426-444) accepts the same object again. -/
theorem C25_transform_once_refuted (env : Env) : ¬ ∀ (t : Tr ℝ) (n : ℕ) (h h' : Heap) (m : Ref), EndsWithin h n m →
    Separate h (owned h n m) → Heap.transformV env t n h m = (h', .ok ()) →
    ∀ v ∈ owned h n m, ∀ c, h.vol v = .vol c → value h' (.vol v) = .vol ((h.fieldsVal c).transform env t).1 := by
  intro hf
  obtain ⟨h', he⟩ := demoMulti_ok env 2
  obtain ⟨h1, h2, h3⟩ := demoMulti_hyps 2
  have hm : 0 ∈ owned (demoMulti 2) 2 5 := by rw [h2]; simp
  have once := hf _ 2 _ h' 5 h1 h3 he 0 hm _ rfl
  have twice := (C25_transform_counts env _ 2 _ h' 5 h1 h3 he).1 0 hm
  rw [h2] at twice
  have hcount : (List.replicate 2 0).count 0 = 2 := by decide
  rw [hcount] at twice
  have hv : value (demoMulti 2) (.vol 0) = .vol ((demoMulti 2).fieldsVal ⟨none, none, none, [1], some 2, 0, 0, none, none⟩) := rfl
  rw [once, hv] at twice
  simp only [Function.iterate_succ, Function.iterate_zero, Function.comp_apply, id, Act.onValue] at twice
  injection twice with twice
  have := congrArg Vol.algs twice
  simp [Vol.transform, Heap.fieldsVal, Vol.transformRest, Vol.transformAlgs, Tr.alg, Tr.locked, demoMulti, Heap.newMulti, demoHeap] at this
  exact one_ne_zero (congrArg V3.x this)

end
end CZ
