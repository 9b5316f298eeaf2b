import Verif.HeapSteps

/-!
# Property C24: copies are isolated from their originals
-/

namespace CZ
open Spec

noncomputable section
open Classical

/-- Everything reached from the object was made after the store `h`. -/
def NewSince (h h' : Heap) (x : Handle) : Prop := ∀ r ∈ parts h' x, h.next ≤ r

theorem NewSince.apart {h h' : Heap} {x y : Handle} (w : Writes h h' []) (hp : Proper h x) (hn : NewSince h h' y) : NoCommon h' x y := by
  intro r hr hr'
  rw [(value_frame w hp.2 (fun _ _ => List.not_mem_nil)).2] at hr
  exact absurd (hp.2 r hr) (not_lt.mpr (hn r hr'))

/-- `w` is a copy: it has the value `v`, the value of every object that existed before is as it was, and whatever program
calls methods of the copy and of an earlier object in whatever order, each of the two behaves like a plain value of its own. -/
def Isolated (env : Env) (h h' : Heap) (w : Handle) (v : Value) : Prop :=
  value h' w = v ∧ ∀ x, Proper h x → value h' x = value h x ∧
    ∀ as, value (interleave env x w h' as) x = script env (value h x) (callsOf true as) ∧
      value (interleave env x w h' as) w = script env v (callsOf false as)

theorem isolated_of {env : Env} {h h' : Heap} {w : Handle} {v : Value} (hw : Writes h h' []) (hv : value h' w = v) (hp : Proper h' w)
    (hn : NewSince h h' w) : Isolated env h h' w v := by
  refine ⟨hv, fun x hx => ?_⟩
  obtain ⟨e1, -⟩ := value_frame hw hx.2 (fun _ _ => List.not_mem_nil)
  refine ⟨e1, fun as => ?_⟩
  have := interleave_spec env x w as h' (Proper.frame hw hx (fun _ _ => List.not_mem_nil)) hp (hn.apart hw hx)
  rwa [e1, hv] at this

/-- The loop of transformations on a new object. -/
theorem NewSince.steps {h h1 h2 : Heap} {x : Handle} {v : Value} (hw : Writes h h1 []) (hn : NewSince h h1 x) (s : Steps h1 h2 x v) :
    NewSince h h2 x ∧ Writes h h2 [] := by
  refine ⟨fun r hr => ?_, hw.trans s.writes fun r hr => .inr (hn r hr)⟩
  rcases s.grow r hr with h3 | h3
  · exact hn r h3
  · exact hw.mono.trans h3

/-! ## from_alg_object and from_generator -/

theorem transformAlgAll_ok (env : Env) (r : Ref) (ts : List (Tr ℝ)) : ∀ h : Heap, Proper h (.alg r) →
    ∃ v, Steps h (h.transformAlgAll r ts).1 (.alg r) v ∧
      ((h.transformAlgAll r ts).2 = .ok () → v = script env (value h (.alg r)) (ts.map Act.transform)) := by
  induction ts with
  | nil => exact fun h hp => ⟨_, Steps.refl hp, fun _ => rfl⟩
  | cons t ts ih =>
    intro h hp
    obtain ⟨s, -⟩ := act_spec env h (.alg r) hp (.transform t)
    have e : Act.onHeap env h (.alg r) (.transform t) = h.transformAlg r t := rfl
    rw [e] at s
    unfold Heap.transformAlgAll
    generalize h.transformAlg r t = k at s
    obtain ⟨h1, out⟩ := k
    cases out with
    | error e => exact ⟨_, s, fun he => by simp at he⟩
    | ok u =>
      obtain ⟨v, s2, hv⟩ := ih h1 s.proper
      refine ⟨v, s.trans s2, fun ho => ?_⟩
      rw [hv ho, s.val]
      rfl

theorem transformGenAll_ok (env : Env) (r : Ref) (ts : List (Tr ℝ)) : ∀ h : Heap, Proper h (.gen r) →
    ∃ v, Steps h (h.transformGenAll r ts).1 (.gen r) v ∧
      ((h.transformGenAll r ts).2 = .ok () → v = script env (value h (.gen r)) (ts.map Act.transform)) := by
  induction ts with
  | nil => exact fun h hp => ⟨_, Steps.refl hp, fun _ => rfl⟩
  | cons t ts ih =>
    intro h hp
    obtain ⟨s, -⟩ := act_spec env h (.gen r) hp (.transform t)
    have e : Act.onHeap env h (.gen r) (.transform t) = h.transformGen r t := rfl
    rw [e] at s
    unfold Heap.transformGenAll
    generalize h.transformGen r t = k at s
    obtain ⟨h1, out⟩ := k
    cases out with
    | error e => exact ⟨_, s, fun he => by simp at he⟩
    | ok u =>
      obtain ⟨v, s2, hv⟩ := ih h1 s.proper
      refine ⟨v, s.trans s2, fun ho => ?_⟩
      rw [hv ho, s.val]
      rfl

/-- **C24 (surfaces).** `a2 = a.from_alg_object(transformation=ts)` is the original's value with the transformations applied in
turn, and is isolated from every object that existed before: the original and also the surfaces and volumes built from it. -/
theorem C24_from_alg_object (env : Env) (h h' : Heap) (a a2 : Ref) (ts : List (Tr ℝ)) (he : h.fromAlgObject a ts = (h', .ok a2)) :
    Isolated env h h' (.alg a2) (script env (value h (.alg a)) (ts.map Act.transform)) := by
  obtain ⟨n1, n2, n3, n4, -⟩ := newAlg_spec h (h.alg a)
  unfold Heap.fromAlgObject Heap.copyAlg at he
  generalize h.newAlg (h.alg a) = k at *
  obtain ⟨h1, r⟩ := k
  simp only at n1 n2 n3 n4 he
  subst n1
  have hp : Proper h1 (.alg h.next) := ⟨by simp [parts], fun q hq => by simp only [parts, List.mem_singleton] at hq; omega⟩
  obtain ⟨v, s, hv⟩ := transformAlgAll_ok env h.next ts h1 hp
  generalize h1.transformAlgAll h.next ts = k at *
  obtain ⟨h2, out⟩ := k
  cases out with
  | error e => simp at he
  | ok u =>
    simp only [Prod.mk.injEq, Except.ok.injEq] at he
    obtain ⟨rfl, rfl⟩ := he
    have hn : NewSince h h1 (.alg h.next) := fun q hq => by simp only [parts, List.mem_singleton] at hq; omega
    obtain ⟨m1, m2⟩ := hn.steps n3 s
    refine isolated_of m2 ?_ s.proper m1
    rw [s.val, hv rfl]
    congr 1
    exact congrArg Value.alg n2

/-- **C24 (generators).** The same for `g2 = g.from_generator(transformation=ts)`. -/
theorem C24_from_generator (env : Env) (h h' : Heap) (g g2 : Ref) (ts : List (Tr ℝ)) (he : h.fromGenerator g ts = (h', .ok g2)) :
    Isolated env h h' (.gen g2) (script env (value h (.gen g)) (ts.map Act.transform)) := by
  obtain ⟨n1, n2, n3, n4, -, n6, n7⟩ := newGen_spec h (h.genVal g)
  unfold Heap.fromGenerator Heap.copyGen at he
  generalize h.newGen (h.genVal g) = k at *
  obtain ⟨h1, r⟩ := k
  simp only at n1 n2 n3 n4 n6 n7 he
  subst n1
  have hp : Proper h1 (.gen h.next) := ⟨n6, fun q hq => by rw [n4]; exact (n7 q hq).2⟩
  obtain ⟨v, s, hv⟩ := transformGenAll_ok env h.next ts h1 hp
  generalize h1.transformGenAll h.next ts = k at *
  obtain ⟨h2, out⟩ := k
  cases out with
  | error e => simp at he
  | ok u =>
    simp only [Prod.mk.injEq, Except.ok.injEq] at he
    obtain ⟨rfl, rfl⟩ := he
    have hn : NewSince h h1 (.gen h.next) := fun q hq => (n7 q hq).1
    obtain ⟨m1, m2⟩ := hn.steps n3 s
    refine isolated_of m2 ?_ s.proper m1
    rw [s.val, hv rfl]
    congr 1
    exact congrArg Value.gen n2

/-! ## add_alg_object and add_generator -/

/-- **C24 (adding a surface).** After `v.add_alg_object(a)` with a surface `a` that is not a part of `v`, the volume has the
surface's value, nothing else has changed, and later calls on `a` and `v` in any order do not disturb each other. -/
theorem C24_add_alg_object (env : Env) (h : Heap) (v a : Ref) (c : VolFields) (hc : h.vol v = .vol c) (hv : Proper h (.vol v)) :
    value (h.addAlg v c a) (.vol v) = .vol ((h.fieldsVal c).addAlg (h.alg a)) ∧
    ∀ x, Proper h x → NoCommon h x (.vol v) → value (h.addAlg v c a) x = value h x ∧
      ∀ as, value (interleave env x (.vol v) (h.addAlg v c a) as) x = script env (value h x) (callsOf true as) ∧
        value (interleave env x (.vol v) (h.addAlg v c a) as) (.vol v) =
          script env (.vol ((h.fieldsVal c).addAlg (h.alg a))) (callsOf false as) := by
  obtain ⟨s, -, -, -⟩ := addAlg_spec h v c hc hv a
  refine ⟨s.val, fun x hx hd => ?_⟩
  obtain ⟨e1, e2⟩ := value_frame s.writes hx.2 hd
  refine ⟨e1, fun as => ?_⟩
  have hd' : NoCommon (h.addAlg v c a) x (.vol v) := by
    intro r hr hr'
    rw [e2] at hr
    rcases s.grow r hr' with h3 | h3
    · exact hd r hr h3
    · exact absurd (hx.2 r hr) (not_lt.mpr h3)
  have := interleave_spec env x (.vol v) as _ (Proper.frame s.writes hx hd) s.proper hd'
  rwa [e1, s.val] at this

/-- **C24 (adding a generator).** The same for `v.add_generator(g, origin)`, whether it succeeds or raises. -/
theorem C24_add_generator (env : Env) (h : Heap) (v : Ref) (g : Option Ref) (o : Option (V3 ℝ)) (c : VolFields) (hc : h.vol v = .vol c)
    (hv : Proper h (.vol v)) :
    (h.addGenerator v c g o).2 = ((h.fieldsVal c).addGenerator (g.map h.genVal) o).2 ∧
    value (h.addGenerator v c g o).1 (.vol v) = .vol ((h.fieldsVal c).addGenerator (g.map h.genVal) o).1 ∧
    ∀ x, Proper h x → NoCommon h x (.vol v) → value (h.addGenerator v c g o).1 x = value h x ∧
      ∀ as, value (interleave env x (.vol v) (h.addGenerator v c g o).1 as) x = script env (value h x) (callsOf true as) ∧
        value (interleave env x (.vol v) (h.addGenerator v c g o).1 as) (.vol v) =
          script env (.vol ((h.fieldsVal c).addGenerator (g.map h.genVal) o).1) (callsOf false as) := by
  obtain ⟨s, ho, -⟩ := addGenerator_spec h v c hc hv g o
  refine ⟨ho, s.val, fun x hx hd => ?_⟩
  obtain ⟨e1, e2⟩ := value_frame s.writes hx.2 hd
  refine ⟨e1, fun as => ?_⟩
  have hd' : NoCommon (h.addGenerator v c g o).1 x (.vol v) := by
    intro r hr hr'
    rw [e2] at hr
    rcases s.grow r hr' with h3 | h3
    · exact hd r hr h3
    · exact absurd (hx.2 r hr) (not_lt.mpr h3)
  have := interleave_spec env x (.vol v) as _ (Proper.frame s.writes hx hd) s.proper hd'
  rwa [e1, s.val] at this

/-! ## from_volume -/

theorem addAlgs_spec (r : Ref) (as : List Ref) : ∀ (h : Heap) (c : VolFields), h.vol r = .vol c → Proper h (.vol r) →
    (∀ a ∈ as, a < h.next) →
    Steps h (h.addAlgs r c as).1 (.vol r) (.vol ((as.map h.alg).foldl Vol.addAlg (h.fieldsVal c))) ∧
      (h.addAlgs r c as).1.vol r = .vol (h.addAlgs r c as).2 ∧ Writes h (h.addAlgs r c as).1 [r] := by
  induction as with
  | nil =>
    intro h c hc hp _
    refine ⟨?_, hc, Writes.refl _ _⟩
    have := Steps.refl hp
    rwa [value_vol hc] at this
  | cons a as ih =>
    intro h c hc hp hlt
    obtain ⟨s, hv, w, hn⟩ := addAlg_spec h r c hc hp a
    obtain ⟨s2, hv2, w2⟩ := ih (h.addAlg r c a) _ hv s.proper fun b hb => (hlt b (List.mem_cons_of_mem _ hb)).trans_le w.mono
    have hval := s.val
    rw [value_vol hv] at hval
    injection hval with hval
    have halg : as.map (h.addAlg r c a).alg = as.map h.alg := List.map_congr_left fun b hb =>
      Function.update_of_ne (Nat.ne_of_lt (hlt b (List.mem_cons_of_mem _ hb))) _ _
    rw [halg, hval] at s2
    refine ⟨s.trans s2, hv2, ?_⟩
    exact w.trans w2 fun q hq => .inl hq

theorem transformVolAll_spec (env : Env) (r : Ref) (ts : List (Tr ℝ)) : ∀ (h : Heap) (c : VolFields), h.vol r = .vol c → Proper h (.vol r) →
    Steps h (h.transformVolAll env r ts).1 (.vol r) (.vol ((h.fieldsVal c).transformAll env ts).1) ∧
      (h.transformVolAll env r ts).2 = ((h.fieldsVal c).transformAll env ts).2 := by
  induction ts with
  | nil =>
    intro h c hc hp
    have := Steps.refl hp
    rw [value_vol hc] at this
    exact ⟨this, rfl⟩
  | cons t ts ih =>
    intro h c hc hp
    obtain ⟨s, o⟩ := transformVol_spec env h r c hc hp t
    unfold Heap.transformVolAll Vol.transformAll
    simp only [hc]
    generalize h.transformVol env r c t = k at *
    generalize (h.fieldsVal c).transform env t = k2 at *
    obtain ⟨h1, out⟩ := k
    obtain ⟨v1, out2⟩ := k2
    simp only at s o
    subst o
    cases out with
    | error e => exact ⟨s, rfl⟩
    | ok u =>
      have hval := s.val
      cases hc1 : h1.vol r with
      | multi a b d => unfold value at hval; simp [hc1] at hval
      | vol c1 =>
        rw [value_vol hc1] at hval
        injection hval with hval
        obtain ⟨s2, o2⟩ := ih h1 c1 hc1 s.proper
        rw [hval] at s2 o2
        exact ⟨s.trans s2, o2⟩

theorem make_withalgs (env : Env) (pts : Option (List (V3 ℝ))) (algs : List Alg) (p : ℤ) (tol : ℝ) :
    Vol.make env pts algs none p tol none = (Vol.make env pts [] none p tol none).map fun v => algs.foldl Vol.addAlg v := by
  unfold Vol.make
  cases pts with
  | none => rfl
  | some ps =>
    simp only
    rcases (Vol.blank tol).addPoints env (.rows ps) with ⟨v', _ | _⟩ <;> rfl

theorem addPoints_plain (env : Env) (v : Vol) (a : PtArg) : (v.addPoints env a).1.algs = v.algs ∧ (v.addPoints env a).1.gen = v.gen := by
  unfold Vol.addPoints Vol.updateHull
  split
  · split
    · exact ⟨rfl, rfl⟩
    · split
      · exact ⟨rfl, rfl⟩
      · exact createHull_plain env _
  · split
    · exact ⟨rfl, rfl⟩
    · exact createHull_plain env _
  all_goals exact ⟨rfl, rfl⟩

theorem make_noalg (env : Env) (pts : Option (List (V3 ℝ))) (p : ℤ) (tol : ℝ) (w : Vol) (h : Vol.make env pts [] none p tol none = .ok w) :
    w.algs = [] ∧ w.gen = none := by
  unfold Vol.make at h
  cases pts with
  | none =>
    simp only [pure_bind, List.foldl_nil] at h
    cases h
    exact ⟨rfl, rfl⟩
  | some ps =>
    simp only [List.foldl_nil] at h
    obtain ⟨a1, a2⟩ := addPoints_plain env (Vol.blank tol) (.rows ps)
    generalize (Vol.blank tol).addPoints env (.rows ps) = k at *
    obtain ⟨v', o⟩ := k
    cases o with
    | error e => cases h
    | ok u =>
      cases h
      exact ⟨a1, a2⟩

/-- **C24 (volumes).** `w = v.from_volume(generator=..., transformation=ts)` raises exactly when the call on a plain value does;
otherwise `w` has the value the call has on a plain value and is isolated from every object that existed before: the original,
its surfaces and generator, a generator passed as keyword, and any other volume. -/
theorem C24_from_volume (env : Env) (h h' : Heap) (v : Ref) (c : VolFields) (hc : h.vol v = .vol c) (hv : Proper h (.vol v))
    (gen : Option (Option Ref)) (hg : ∀ g, gen = some (some g) → Proper h (.gen g)) (ts : List (Tr ℝ)) (out : Py Ref)
    (he : h.fromVolume env c gen ts = (h', out)) :
    match out with
    | .ok w => ∃ v', (h.fieldsVal c).fromVolume env (gen.map fun g => g.map h.genVal) ts = .ok v' ∧ Isolated env h h' (.vol w) (.vol v')
    | .error e => (h.fieldsVal c).fromVolume env (gen.map fun g => g.map h.genVal) ts = .error e ∧
        ∀ x, Proper h x → value h' x = value h x := by
  have hpar := parts_vol hc
  have hlt : ∀ q ∈ v :: inner h c, q < h.next := by rw [← hpar]; exact hv.2
  have keep : ∀ {h1 : Heap}, Writes h h1 [] → ∀ x, Proper h x → value h1 x = value h x := fun w x hx =>
    (value_frame w hx.2 (fun _ _ => List.not_mem_nil)).1
  have hpts : (h.fieldsVal c).points = c.points := rfl
  have halgs : (h.fieldsVal c).algs = c.algs.map h.alg := rfl
  have hpri : (h.fieldsVal c).priority = c.priority := rfl
  have hgen : (gen.map fun g => g.map h.genVal).getD (h.fieldsVal c).gen = (gen.getD c.gen).map h.genVal := by
    cases gen <;> rfl
  unfold Heap.fromVolume at he
  unfold Vol.fromVolume
  rw [hgen, hpts, halgs, hpri]
  have main : ∀ pts : Option (List (V3 ℝ)),
      (match Vol.make env pts [] none c.priority (1 / 10 ^ 10) none with
        | .error e => (h, .error e)
        | .ok w =>
          let k := h.newVol ⟨w.points, w.hull, w.tri, [], none, w.priority, w.tol, w.atoms, w.species⟩
          let s := k.1.addAlgs k.2 ⟨w.points, w.hull, w.tri, [], none, w.priority, w.tol, w.atoms, w.species⟩ c.algs
          match s.1.addGenerator k.2 s.2 (gen.getD c.gen) none with
          | (h', .error e) => (h', .error e)
          | (h', .ok ()) =>
            match h'.transformVolAll env k.2 ts with
            | (h'', .error e) => (h'', .error e)
            | (h'', .ok ()) => (h'', .ok k.2)) = (h', out) →
      let res : Py Vol := do
        let w ← Vol.make env pts (c.algs.map h.alg) none c.priority (1 / 10 ^ 10) none
        let w ← match w.addGenerator ((gen.getD c.gen).map h.genVal) none with
          | (w', .ok ()) => pure w'
          | (_, .error e) => .error e
        match w.transformAll env ts with
        | (w', .ok ()) => pure w'
        | (_, .error e) => .error e
      match out with
      | .ok w => ∃ v', res = .ok v' ∧ Isolated env h h' (.vol w) (.vol v')
      | .error e => res = .error e ∧ ∀ x, Proper h x → value h' x = value h x := by
    intro pts he
    rw [make_withalgs]
    have hplain := make_noalg env pts c.priority (1 / 10 ^ 10)
    generalize Vol.make env pts [] none c.priority (1 / 10 ^ 10) none = mk at he hplain ⊢
    cases mk with
    | error e =>
      simp only [Prod.mk.injEq] at he
      obtain ⟨rfl, rfl⟩ := he
      exact ⟨rfl, fun _ _ => rfl⟩
    | ok w0 =>
      obtain ⟨p1, p2⟩ := hplain w0 rfl
      simp only at he
      set c0 : VolFields := ⟨w0.points, w0.hull, w0.tri, [], none, w0.priority, w0.tol, w0.atoms, w0.species⟩ with hc0
      have hval0 : ∀ k : Heap, k.fieldsVal c0 = w0 := by
        intro k
        obtain ⟨a1, a2, a3, a4, a5, a6, a7, a8, a9⟩ := w0
        simp only at p1 p2
        subst p1 p2
        rfl
      have hnv : (h.newVol c0).2 = h.next := rfl
      rw [hnv] at he
      have w1 : Writes h (h.newVol c0).1 [] :=
        ⟨fun q hq _ => ⟨rfl, rfl, rfl, rfl, Function.update_of_ne (Nat.ne_of_lt hq) _ _⟩, Nat.le_succ _⟩
      have hv1 : (h.newVol c0).1.vol h.next = .vol c0 := Function.update_self _ _ _
      have hp1 : Proper (h.newVol c0).1 (.vol h.next) := by
        refine ⟨by rw [parts_vol hv1]; simp [inner, hc0], fun q hq => ?_⟩
        rw [parts_vol hv1] at hq
        simp only [inner, hc0, Option.map_none, Option.getD_none, List.append_nil, List.mem_singleton] at hq
        rw [hq]
        exact Nat.lt_succ_self _
      have hn1 : NewSince h (h.newVol c0).1 (.vol h.next) := by
        intro q hq
        rw [parts_vol hv1] at hq
        simp only [inner, hc0, Option.map_none, Option.getD_none, List.append_nil, List.mem_singleton] at hq
        exact le_of_eq hq.symm
      have halg1 : c.algs.map (h.newVol c0).1.alg = c.algs.map h.alg := rfl
      have hlta : ∀ a ∈ c.algs, a < (h.newVol c0).1.next := fun a ha => (hlt a (by simp [inner, ha])).trans_le w1.mono
      obtain ⟨s2, hv2, -⟩ := addAlgs_spec h.next c.algs (h.newVol c0).1 c0 hv1 hp1 hlta
      rw [halg1, hval0] at s2
      generalize (h.newVol c0).1.addAlgs h.next c0 c.algs = k at *
      obtain ⟨h2, c2⟩ := k
      simp only at s2 hv2 he
      obtain ⟨hn2, w2⟩ := hn1.steps w1 s2
      have hval2 := s2.val
      rw [value_vol hv2] at hval2
      injection hval2 with hval2
      obtain ⟨s3, o3, -⟩ := addGenerator_spec h2 h.next c2 hv2 s2.proper (gen.getD c.gen) none
      have hgv : (gen.getD c.gen).map h2.genVal = (gen.getD c.gen).map h.genVal := by
        cases hgg : gen.getD c.gen with
        | none => rfl
        | some g =>
          have hin : ∀ q ∈ parts h (.gen g), q < h.next := by
            cases gen with
            | none =>
              have : c.gen = some g := hgg
              exact fun q hq => hlt q (by
                have : q ∈ genParts h g := hq
                simp [inner, ‹c.gen = some g›, this])
            | some gg =>
              have : gg = some g := hgg
              exact (hg g (by rw [this])).2
          have := (value_frame w2 hin (fun _ _ => List.not_mem_nil)).1
          injection this with this
          simp [this]
      rw [hgv, hval2] at s3 o3
      obtain ⟨hn3, w3⟩ := hn2.steps w2 s3
      simp only [Except.map, bind, Except.bind]
      generalize h2.addGenerator h.next c2 (gen.getD c.gen) none = k at *
      generalize (List.foldl Vol.addAlg w0 (c.algs.map h.alg)).addGenerator ((gen.getD c.gen).map h.genVal) none = k2 at *
      obtain ⟨h3, out3⟩ := k
      obtain ⟨v3, out3'⟩ := k2
      simp only at s3 o3 hn3 w3
      subst o3
      cases out3 with
      | error e =>
        simp only [Prod.mk.injEq] at he
        obtain ⟨rfl, rfl⟩ := he
        exact ⟨rfl, keep w3⟩
      | ok u =>
        simp only at he
        cases hv3 : h3.vol h.next with
        | multi a b d => exact absurd s3.val (by unfold value; simp [hv3])
        | vol c3 =>
          have hval3 := s3.val
          rw [value_vol hv3] at hval3
          injection hval3 with hval3
          obtain ⟨s4, o4⟩ := transformVolAll_spec env h.next ts h3 c3 hv3 s3.proper
          rw [hval3] at s4 o4
          obtain ⟨hn4, w4⟩ := hn3.steps w3 s4
          simp only [pure, Except.pure]
          generalize h3.transformVolAll env h.next ts = k at *
          generalize v3.transformAll env ts = k2 at *
          obtain ⟨h4, out4⟩ := k
          obtain ⟨v4, out4'⟩ := k2
          simp only at s4 o4 hn4 w4
          subst o4
          cases out4 with
          | error e =>
            simp only [Prod.mk.injEq] at he
            obtain ⟨rfl, rfl⟩ := he
            exact ⟨rfl, keep w4⟩
          | ok u =>
            simp only [Prod.mk.injEq] at he
            obtain ⟨rfl, rfl⟩ := he
            exact ⟨v4, rfl, isolated_of w4 s4.val s4.proper hn4⟩
  cases hcp : c.points with
  | none => simp only [hcp] at he; exact main none he
  | some p =>
    cases p with
    | arr ps => simp only [hcp] at he; exact main (some ps) he
    | cleared =>
      simp only [hcp, Prod.mk.injEq] at he
      obtain ⟨rfl, rfl⟩ := he
      exact ⟨rfl, fun _ _ => rfl⟩
    | single q =>
      simp only [hcp, Prod.mk.injEq] at he
      obtain ⟨rfl, rfl⟩ := he
      exact ⟨rfl, fun _ _ => rfl⟩

/-! ## a concrete store -/

/-- A store with a Volume (address 0) that has a sphere (1) and a crystalline generator (2) with a voxel (3), and a surface of
the user's (4). -/
def demoHeap : Heap where
  alg := fun _ => .sphere ⟨1, ⟨0, 0, 0⟩, 0⟩
  voxel := fun _ => ⟨1, .scalar 1, ⟨0, 0, 0⟩⟩
  strain := fun _ => ⟨1, "crystal", ⟨0, 0, 0⟩, true, none⟩
  gen := fun _ => .crystal ⟨some ⟨1, [(⟨0, 0, 0⟩, 14)]⟩, some 3, none, none⟩
  vol := fun _ => .vol ⟨none, none, none, [1], some 2, 0, 0, none, none⟩
  next := 5

theorem demoHeap_proper : Proper demoHeap (.vol 0) ∧ Proper demoHeap (.alg 4) ∧ Proper demoHeap (.gen 2) ∧
    NoCommon demoHeap (.alg 4) (.vol 0) := by
  refine ⟨⟨by decide, by decide⟩, ⟨by decide, by decide⟩, ⟨by decide, by decide⟩, ?_⟩
  unfold NoCommon; decide

/-- The hypotheses of the theorems hold for the store above, and copying succeeds. -/
example (env : Env) : ∃ h' w, demoHeap.fromVolume env ⟨none, none, none, [1], some 2, 0, 0, none, none⟩ none [] = (h', .ok w) ∧
    ∀ as, value (interleave env (.vol 0) (.vol w) h' as) (.vol 0) = script env (value demoHeap (.vol 0)) (callsOf true as) := by
  have hp := demoHeap_proper
  cases he : demoHeap.fromVolume env ⟨none, none, none, [1], some 2, 0, 0, none, none⟩ none [] with
  | mk h' out =>
    have := C24_from_volume env demoHeap h' 0 _ rfl hp.1 none (by simp) [] out he
    cases out with
    | error e =>
      exfalso
      have h2 := this.1
      simp [Vol.fromVolume, Vol.make, Heap.fieldsVal, demoHeap, Vol.blank, Vol.addAlg, Vol.addGenerator, Heap.genVal, Vol.transformAll,
        pure, Except.pure, bind, Except.bind] at h2
    | ok w =>
      obtain ⟨v', -, h3⟩ := this
      exact ⟨h', w, rfl, fun as => ((h3.2 (.vol 0) hp.1).2 as).1⟩

example : NoCommon demoHeap (.alg 4) (.vol 0) ∧ demoHeap.vol 0 = .vol ⟨none, none, none, [1], some 2, 0, 0, none, none⟩ :=
  ⟨demoHeap_proper.2.2.2, rfl⟩

end
end CZ
