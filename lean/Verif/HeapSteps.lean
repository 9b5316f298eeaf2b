import Verif.HeapLemmas

/-!
# One method call as a step of a program; programs on two objects
-/

namespace CZ
open Spec

noncomputable section
open Classical

theorem Steps.trans {h h1 h2 : Heap} {x : Handle} {v1 v2 : Value} (a : Steps h h1 x v1) (b : Steps h1 h2 x v2) : Steps h h2 x v2 := by
  refine ⟨b.val, b.proper, fun r hr => ?_, a.writes.trans b.writes a.grow⟩
  rcases b.grow r hr with h3 | h3
  · exact a.grow r h3
  · exact .inr (a.writes.mono.trans h3)

/-- A call after an unrelated allocation. -/
theorem Steps.after {h h1 h2 : Heap} {x : Handle} {v : Value} (w : Writes h h1 []) (hp : Proper h x) (s : Steps h1 h2 x v) :
    Steps h h2 x v := by
  obtain ⟨h3, h4⟩ := value_frame w hp.2 (fun _ _ => List.not_mem_nil)
  refine ⟨s.val, s.proper, fun r hr => ?_, (w.weaken fun r hr => absurd hr List.not_mem_nil).trans s.writes fun r hr => ?_⟩
  · rw [← h4]
    rcases s.grow r hr with h5 | h5
    · exact .inl h5
    · exact .inr (w.mono.trans h5)
  · rw [h4] at hr; exact .inl hr

theorem Proper.frame {h h1 : Heap} {x : Handle} {S : List Ref} (w : Writes h h1 S) (hp : Proper h x) (hd : ∀ r ∈ parts h x, r ∉ S) :
    Proper h1 x := by
  obtain ⟨-, h4⟩ := value_frame w hp.2 hd
  exact ⟨by rw [h4]; exact hp.1, fun r hr => by rw [h4] at hr; exact (hp.2 r hr).trans_le w.mono⟩

/-! ## adding surfaces and generators -/

theorem addAlg_spec (h : Heap) (r : Ref) (c : VolFields) (hc : h.vol r = .vol c) (hp : Proper h (.vol r)) (a : Ref) :
    Steps h (h.addAlg r c a) (.vol r) (.vol ((h.fieldsVal c).addAlg (h.alg a))) ∧
      (h.addAlg r c a).vol r = .vol { c with algs := c.algs ++ [h.next] } ∧ Writes h (h.addAlg r c a) [r] ∧
      (h.addAlg r c a).next = h.next + 1 := by
  have hpar := parts_vol hc
  have hlt : ∀ q ∈ r :: inner h c, q < h.next := by rw [← hpar]; exact hp.2
  have hnod : (r :: inner h c).Nodup := by rw [← hpar]; exact hp.1
  have hvol : (h.addAlg r c a).vol r = .vol { c with algs := c.algs ++ [h.next] } := by simp [Heap.addAlg, Heap.copyAlg, Heap.newAlg]
  have w : Writes h (h.addAlg r c a) [r] := by
    refine ⟨fun q hq hne => ⟨Function.update_of_ne (Nat.ne_of_lt hq) _ _, rfl, rfl, rfl, ?_⟩, Nat.le_succ _⟩
    rw [List.mem_singleton] at hne
    exact Function.update_of_ne hne _ _
  have hin : inner (h.addAlg r c a) { c with algs := c.algs ++ [h.next] } = c.algs ++ ([h.next] ++ (c.gen.map (genParts h)).getD []) := by
    unfold inner
    rw [List.append_assoc]
    rfl
  refine ⟨⟨?_, ⟨?_, ?_⟩, ?_, w.weaken fun q hq => .inl ?_⟩, hvol, w, rfl⟩
  · rw [value_vol hvol]
    congr 1
    unfold Heap.fieldsVal Vol.addAlg
    have e1 : (c.algs.map (h.addAlg r c a).alg) = c.algs.map h.alg := by
      refine List.map_congr_left fun q hq => ?_
      exact Function.update_of_ne (Nat.ne_of_lt (hlt q (by simp [inner, hq]))) _ _
    have e2 : (h.addAlg r c a).alg h.next = h.alg a := Function.update_self _ _ _
    simp only [List.map_append, e1, List.map_cons, List.map_nil, e2]
    rfl
  · rw [parts_vol hvol, hin]
    have hfresh : h.next ∉ r :: inner h c := fun hm => lt_irrefl _ (hlt _ hm)
    have : (r :: (c.algs ++ ([h.next] ++ (c.gen.map (genParts h)).getD []))).Perm (h.next :: (r :: inner h c)) := by
      unfold inner
      refine List.Perm.trans (List.Perm.cons r ?_) (List.Perm.swap _ _ _)
      exact List.perm_middle
    rw [this.nodup_iff, List.nodup_cons]
    exact ⟨hfresh, hnod⟩
  · rw [parts_vol hvol, hin]
    intro q hq
    show q < h.next + 1
    simp only [List.mem_cons, List.mem_append, List.not_mem_nil, or_false] at hq
    rcases hq with rfl | hq | rfl | hq
    · exact Nat.lt_succ_of_lt (hlt _ (by simp))
    · exact Nat.lt_succ_of_lt (hlt _ (by simp [inner, hq]))
    · exact Nat.lt_succ_self _
    · exact Nat.lt_succ_of_lt (hlt _ (by unfold inner; simp [hq]))
  · rw [parts_vol hvol, hin, hpar]
    intro q hq
    simp only [List.mem_cons, List.mem_append, List.not_mem_nil, or_false] at hq
    rcases hq with rfl | hq | rfl | hq
    · left; simp
    · left; simp [inner, hq]
    · right; exact le_rfl
    · left; unfold inner; simp [hq]
  · rw [hpar]; rw [List.mem_singleton] at hq; simp [hq]

/-- The new generator's origin. -/
theorem setVoxelOrigin_spec (h : Heap) (g : Ref) (o : V3 ℝ) (v : Vol) :
    (∀ e, (h.setVoxelOrigin g o).2 = .error e → v.addGenerator (some (h.genVal g)) (some o) = (v, .error e)) ∧
    ((h.setVoxelOrigin g o).2 = .ok () → v.addGenerator (some (h.genVal g)) (some o) =
      ({ v with gen := some ((h.setVoxelOrigin g o).1.genVal g) }, .ok ())) ∧
    Writes h (h.setVoxelOrigin g o).1 (genParts h g) ∧ (h.setVoxelOrigin g o).1.next = h.next ∧
    (h.setVoxelOrigin g o).1.alg = h.alg ∧ (h.setVoxelOrigin g o).1.vol = h.vol ∧ (h.setVoxelOrigin g o).1.gen = h.gen := by
  unfold Heap.setVoxelOrigin
  cases hg : h.gen g with
  | crystal c =>
    simp only
    cases hx : c.voxel with
    | none =>
      refine ⟨fun e he => ?_, fun he => by simp at he, Writes.refl _ _, rfl, rfl, rfl, rfl⟩
      have : h.genVal g = .crystal ⟨c.struct, none, c.strain.map h.strain, c.post⟩ := by unfold Heap.genVal; rw [hg]; simp [hx]
      rw [this]
      simp only [Vol.addGenerator]
      rw [← he]
    | some x =>
      simp only
      refine ⟨fun e he => by simp at he, fun _ => ?_, ⟨fun q _ hq => ⟨rfl, ?_, rfl, rfl, rfl⟩, le_rfl⟩, trivial, trivial, trivial, trivial⟩
      · have e1 : h.genVal g = .crystal ⟨c.struct, some (h.voxel x), c.strain.map h.strain, c.post⟩ := by
          unfold Heap.genVal; rw [hg]; simp [hx]
        rw [e1]
        simp only [Vol.addGenerator, Heap.genVal, hg, hx, Option.map_some, Function.update_self]
      · refine Function.update_of_ne ?_ _ _
        rintro rfl
        exact hq (by unfold genParts; rw [hg]; simp [hx])
  | amorphous a =>
    refine ⟨fun e he => by simp at he, fun _ => ?_, Writes.refl _ _, rfl, rfl, rfl, rfl⟩
    have e1 : h.genVal g = .amorphous a := by unfold Heap.genVal; rw [hg]
    rw [e1]; rfl
  | null =>
    refine ⟨fun e he => ?_, fun he => by simp at he, Writes.refl _ _, rfl, rfl, rfl, rfl⟩
    have e1 : h.genVal g = .null := by unfold Heap.genVal; rw [hg]
    rw [e1]
    simp only [Vol.addGenerator]
    rw [← he]

theorem addGenerator_spec (h : Heap) (r : Ref) (c : VolFields) (hc : h.vol r = .vol c) (hp : Proper h (.vol r)) (g : Option Ref)
    (o : Option (V3 ℝ)) :
    Steps h (h.addGenerator r c g o).1 (.vol r) (.vol ((h.fieldsVal c).addGenerator (g.map h.genVal) o).1) ∧
      (h.addGenerator r c g o).2 = ((h.fieldsVal c).addGenerator (g.map h.genVal) o).2 ∧ Writes h (h.addGenerator r c g o).1 [r] := by
  have hpar := parts_vol hc
  have hlt : ∀ q ∈ r :: inner h c, q < h.next := by rw [← hpar]; exact hp.2
  have hnod : (r :: inner h c).Nodup := by rw [← hpar]; exact hp.1
  have same : Steps h h (.vol r) (.vol (h.fieldsVal c)) := by rw [← value_vol hc]; exact Steps.refl hp
  cases g with
  | none => exact ⟨same, rfl, Writes.refl _ _⟩
  | some g =>
    simp only [Option.map_some]
    unfold Heap.addGenerator
    simp only
    obtain ⟨n1, n2, n3, n4, n5, n6, n7⟩ := newGen_spec h (h.genVal g)
    unfold Heap.copyGen
    generalize h.newGen (h.genVal g) = k at *
    obtain ⟨h1, gr⟩ := k
    simp only at n1 n2 n3 n4 n5 n6 n7
    subst n1
    -- common end: the volume gets the new generator in a store h2 with the copy's value w
    have fin : ∀ h2 : Heap, Writes h1 h2 (genParts h1 h.next) → h2.next = h1.next → h2.gen = h1.gen → h2.vol = h1.vol →
        Steps h { h2 with vol := Function.update h2.vol r (.vol { c with gen := some h.next }) } (.vol r)
          (.vol { h.fieldsVal c with gen := some (h2.genVal h.next) }) ∧
        Writes h { h2 with vol := Function.update h2.vol r (.vol { c with gen := some h.next }) } [r] := by
      intro h2 w2 e1 e2 e3
      have wr : Writes h { h2 with vol := Function.update h2.vol r (.vol { c with gen := some h.next }) } [r] := by
        have w0 : Writes h h2 [r] := (n3.weaken fun q hq => absurd hq List.not_mem_nil).trans w2 fun q hq => .inr (n7 q hq).1
        refine w0.trans (S' := [r]) ⟨fun q _ hq => ⟨rfl, rfl, rfl, rfl, ?_⟩, le_rfl⟩ fun q hq => .inl hq
        rw [List.mem_singleton] at hq
        exact Function.update_of_ne hq _ _
      have hvol : ({ h2 with vol := Function.update h2.vol r (.vol { c with gen := some h.next }) } : Heap).vol r =
          .vol { c with gen := some h.next } := Function.update_self _ _ _
      have hgp : genParts h2 h.next = genParts h1 h.next := genParts_congr (congrFun e2 _)
      have hin : inner { h2 with vol := Function.update h2.vol r (.vol { c with gen := some h.next }) } { c with gen := some h.next } =
          c.algs ++ genParts h1 h.next := by
        unfold inner
        simp only [Option.map_some, Option.getD_some]
        rw [← hgp]
        rfl
      have hal : ∀ q ∈ c.algs, q < h.next := fun q hq => hlt q (by simp [inner, hq])
      refine ⟨⟨?_, ⟨?_, ?_⟩, ?_, wr.weaken fun q hq => .inl ?_⟩, wr⟩
      · rw [value_vol hvol]
        congr 1
        unfold Heap.fieldsVal
        simp only
        have : c.algs.map h2.alg = c.algs.map h.alg := by
          refine List.map_congr_left fun q hq => ?_
          have hq' := hal q hq
          rw [(w2.frame q (hq'.trans_le n3.mono) fun hm => absurd (n7 q hm).1 (not_le.mpr hq')).1, (n3.frame q hq' List.not_mem_nil).1]
        rw [this]
        rfl
      · rw [parts_vol hvol, hin, List.nodup_cons]
        refine ⟨?_, List.nodup_append'.mpr ⟨List.Nodup.of_append_left (List.nodup_cons.mp hnod).2, n6, ?_⟩⟩
        · rw [List.mem_append, not_or]
          refine ⟨fun hm => (List.nodup_cons.mp hnod).1 (by simp [inner, hm]), fun hm => ?_⟩
          exact absurd (n7 r hm).1 (not_le.mpr (hlt r (by simp)))
        · intro q h1q h2q
          exact absurd (n7 q h2q).1 (not_le.mpr (hal q h1q))
      · rw [parts_vol hvol, hin]
        intro q hq
        show q < h2.next
        rw [e1, n4]
        simp only [List.mem_cons, List.mem_append] at hq
        rcases hq with rfl | hq | hq
        · exact Nat.lt_add_right 3 (hlt _ (by simp))
        · exact Nat.lt_add_right 3 (hal _ hq)
        · exact (n7 q hq).2
      · rw [parts_vol hvol, hin, hpar]
        intro q hq
        simp only [List.mem_cons, List.mem_append] at hq
        rcases hq with rfl | hq | hq
        · left; simp
        · left; simp [inner, hq]
        · right; exact (n7 q hq).1
      · rw [hpar]; rw [List.mem_singleton] at hq; simp [hq]
    cases o with
    | none =>
      simp only
      have := fin h1 (Writes.refl _ _) rfl rfl rfl
      rw [n2] at this
      have hv : (h.fieldsVal c).addGenerator (some (h.genVal g)) none = ({ h.fieldsVal c with gen := some (h.genVal g) }, .ok ()) := by
        cases h.genVal g <;> rfl
      rw [hv]
      exact ⟨this.1, rfl, this.2⟩
    | some p =>
      simp only
      obtain ⟨s1, s2, s3, s4, s5, s6, s7⟩ := setVoxelOrigin_spec h1 h.next p (h.fieldsVal c)
      rw [n2] at s1 s2
      generalize h1.setVoxelOrigin h.next p = k at *
      obtain ⟨h2, out⟩ := k
      simp only at s1 s2 s3 s4 s5 s6 s7
      cases out with
      | error e =>
        rw [s1 e rfl]
        have w0 : Writes h h2 [] := n3.trans s3 fun q hq => .inr (n7 q hq).1
        refine ⟨?_, rfl, w0.weaken fun q hq => absurd hq List.not_mem_nil⟩
        have hP := Proper.frame w0 hp (fun _ _ => List.not_mem_nil)
        have := Steps.after w0 hp (Steps.refl hP)
        rw [(value_frame w0 hp.2 (fun _ _ => List.not_mem_nil)).1, value_vol hc] at this
        exact this
      | ok u =>
        rw [s2 rfl]
        have := fin h2 s3 s4 s7 s6
        exact ⟨this.1, rfl, this.2⟩

/-! ## one call -/

/-- A call on an object has the same effect on its value as the call on a plain value, and touches nothing else. -/
theorem act_spec (env : Env) (h : Heap) (x : Handle) (hp : Proper h x) (a : Act) :
    Steps h (a.onHeap env h x).1 x (a.onValue env (value h x)).1 ∧ (a.onHeap env h x).2 = (a.onValue env (value h x)).2 := by
  cases x with
  | alg r =>
    have hnone : Steps h h (.alg r) (value h (.alg r)) := Steps.refl hp
    cases a with
    | transform t =>
      obtain ⟨e1, e2, e3, e4, e5, e6, e7⟩ := transformAlg_spec h r t
      refine ⟨⟨congrArg Value.alg e1, ⟨hp.1, fun q hq => ?_⟩, fun q hq => .inl hq, e3⟩, e2⟩
      show q < (h.transformAlg r t).1.next
      rw [e4]; exact hp.2 q hq
    | _ => exact ⟨hnone, rfl⟩
  | gen r =>
    have hnone : Steps h h (.gen r) (value h (.gen r)) := Steps.refl hp
    cases a with
    | transform t =>
      obtain ⟨e1, e2, e3, e4, e5, e6, e7⟩ := transformGen_spec (h := h) (r := r) t hp.1
      refine ⟨⟨congrArg Value.gen e1, ⟨?_, fun q hq => ?_⟩, fun q hq => .inl ?_, e3⟩, e2⟩
      · show (genParts (h.transformGen r t).1 r).Nodup
        rw [e4]; exact hp.1
      · show q < (h.transformGen r t).1.next
        rw [e5]
        refine hp.2 q ?_
        have : q ∈ genParts (h.transformGen r t).1 r := hq
        rw [e4] at this; exact this
      · have : q ∈ genParts (h.transformGen r t).1 r := hq
        rw [e4] at this; exact this
    | supply n b =>
      obtain ⟨e1, e2, e3, e4, e5, e6, e7⟩ := supplyGen_spec (env := env) (n := n) (h := h) (r := r) b hp.1
      refine ⟨⟨congrArg Value.gen e1, ⟨?_, fun q hq => ?_⟩, fun q hq => .inl ?_, e3⟩, ?_⟩
      · show (genParts (h.supplyGen env n r b).1 r).Nodup
        rw [e4]; exact hp.1
      · show q < (h.supplyGen env n r b).1.next
        rw [e5]
        refine hp.2 q ?_
        have : q ∈ genParts (h.supplyGen env n r b).1 r := hq
        rw [e4] at this; exact this
      · have : q ∈ genParts (h.supplyGen env n r b).1 r := hq
        rw [e4] at this; exact this
      · show (h.supplyGen env n r b).2.map _ = _
        rw [e2]; rfl
    | _ => exact ⟨hnone, rfl⟩
  | vol r =>
    have hnone : Steps h h (.vol r) (value h (.vol r)) := Steps.refl hp
    cases hc : h.vol r with
    | multi vs p hd =>
      have hv : value h (.vol r) = .multi := by unfold value; simp only [hc]
      rw [hv] at hnone ⊢
      unfold Act.onHeap
      simp only [hc]
      cases a <;> exact ⟨hnone, rfl⟩
    | vol c =>
      have hpar := parts_vol hc
      have hnod : (r :: inner h c).Nodup := by rw [← hpar]; exact hp.1
      rw [value_vol hc] at hnone ⊢
      unfold Act.onHeap
      simp only [hc]
      cases a with
      | transform t => exact transformVol_spec env h r c hc hp t
      | supply n b => exact ⟨hnone, rfl⟩
      | populate n => exact populateVol_spec env n h r c hc hp
      | addAlg a =>
        obtain ⟨n1, n2, n3, n4, n5⟩ := newAlg_spec h a
        have hP := Proper.frame n3 hp (fun _ _ => List.not_mem_nil)
        have hc1 : (h.newAlg a).1.vol r = .vol c := by rw [n5]; exact hc
        have hs := (addAlg_spec (h.newAlg a).1 r c hc1 hP (h.newAlg a).2).1
        rw [n1, n2] at hs
        have hval := (value_frame n3 hp.2 (fun _ _ => List.not_mem_nil)).1
        rw [value_vol hc, value_vol hc1] at hval
        injection hval with hval
        rw [hval] at hs
        exact ⟨Steps.after n3 hp hs, rfl⟩
      | addGenerator g o =>
        obtain ⟨n1, n2, n3, n4, n5, -, -⟩ := newGen_spec h g
        have hP := Proper.frame n3 hp (fun _ _ => List.not_mem_nil)
        have hc1 : (h.newGen g).1.vol r = .vol c := by rw [n5]; exact hc
        obtain ⟨hs, ho, -⟩ := addGenerator_spec (h.newGen g).1 r c hc1 hP (some (h.newGen g).2) o
        have hval := (value_frame n3 hp.2 (fun _ _ => List.not_mem_nil)).1
        rw [value_vol hc, value_vol hc1] at hval
        injection hval with hval
        simp only [Option.map_some, n1, n2] at hs ho
        rw [hval] at hs ho
        rw [← n1] at hs ho
        exact ⟨Steps.after n3 hp hs, ho⟩
      | surface i t =>
        simp only [Act.onValue]
        have hi : (h.fieldsVal c).algs[i]? = c.algs[i]?.map h.alg := by simp [Heap.fieldsVal]
        rw [hi]
        cases ha : c.algs[i]? with
        | none => exact ⟨hnone, rfl⟩
        | some a =>
          simp only [Option.map_some]
          obtain ⟨e1, e2, e3, e4, e5, e6, e7⟩ := transformAlg_spec h a t
          refine ⟨?_, e2⟩
          have hmem : a ∈ c.algs := List.mem_of_getElem? ha
          have := steps_vol (h' := (h.transformAlg a t).1) hc (by rw [e6]; exact hc) hp (inner_congr rfl rfl e5)
            (e3.weaken fun q hq => .inl (by rw [List.mem_singleton] at hq; simp [inner, hq, hmem]))
          convert this using 2
          unfold Heap.fieldsVal
          rw [e7]
          have hmap : c.algs.map (h.transformAlg a t).1.alg = (c.algs.map h.alg).set i (t.alg (h.alg a)).1 := by
            have hnd : c.algs.Nodup := List.Nodup.of_append_left (List.nodup_cons.mp hnod).2
            obtain ⟨hil, hia⟩ := List.getElem?_eq_some_iff.mp ha
            apply List.ext_getElem (by simp)
            intro j hj1 hj2
            rw [List.getElem_map, List.getElem_set]
            split
            · rename_i hij; subst hij; rw [hia]; exact e1
            · rename_i hij
              rw [List.getElem_map]
              refine Function.update_of_ne ?_ _ _
              intro he
              exact hij ((List.Nodup.getElem_inj_iff hnd).mp (he.trans hia.symm)).symm
          rw [hmap]
      | generator t =>
        simp only [Act.onValue]
        cases hg : c.gen with
        | none =>
          have : (h.fieldsVal c).gen = none := by unfold Heap.fieldsVal; simp [hg]
          simp only [this]
          exact ⟨hnone, trivial⟩
        | some g =>
          have hgv : (h.fieldsVal c).gen = some (h.genVal g) := by unfold Heap.fieldsVal; simp [hg]
          simp only [hgv]
          have hgn : (genParts h g).Nodup := by
            have := List.Nodup.of_append_right (List.nodup_cons.mp hnod).2
            simpa [hg] using this
          obtain ⟨g1, g2, g3, g4, g5, g6, g7⟩ := transformGen_spec (h := h) (r := g) t hgn
          refine ⟨?_, g2⟩
          have := steps_vol (h' := (h.transformGen g t).1) hc (c' := c) (by rw [g7]; exact hc) hp
            (by unfold inner; simp only [hg, Option.map_some, Option.getD_some, g4])
            (g3.weaken fun q hq => .inl (by simp [inner, hg, hq]))
          convert this using 2
          unfold Heap.fieldsVal
          rw [g6, hg]
          simp [g1]

/-! ## programs -/




/-- **Two objects without common parts behave like plain values**, whatever program calls their methods in whatever order. -/
theorem interleave_spec (env : Env) (x y : Handle) (as : List (Bool × Act)) : ∀ h : Heap, Proper h x → Proper h y → NoCommon h x y →
    value (interleave env x y h as) x = script env (value h x) (callsOf true as) ∧
    value (interleave env x y h as) y = script env (value h y) (callsOf false as) := by
  induction as with
  | nil => exact fun h _ _ _ => ⟨rfl, rfl⟩
  | cons p as ih =>
    intro h hx hy hd
    obtain ⟨b, a⟩ := p
    cases b with
    | true =>
      obtain ⟨s, -⟩ := act_spec env h x hx a
      obtain ⟨f1, f2⟩ := value_frame s.writes hy.2 (fun r hr hr' => hd r hr' hr)
      have hy' := Proper.frame s.writes hy (fun r hr hr' => hd r hr' hr)
      have hd' : NoCommon (a.onHeap env h x).1 x y := by
        intro r hr
        rw [f2]
        rcases s.grow r hr with h3 | h3
        · exact hd r h3
        · exact fun hm => absurd (hy.2 r hm) (not_lt.mpr h3)
      obtain ⟨i1, i2⟩ := ih _ s.proper hy' hd'
      rw [s.val] at i1
      rw [f1] at i2
      exact ⟨i1, i2⟩
    | false =>
      obtain ⟨s, -⟩ := act_spec env h y hy a
      obtain ⟨f1, f2⟩ := value_frame s.writes hx.2 (fun r hr hr' => hd r hr hr')
      have hx' := Proper.frame s.writes hx (fun r hr hr' => hd r hr hr')
      have hd' : NoCommon (a.onHeap env h y).1 x y := by
        intro r hr hr'
        rw [f2] at hr
        rcases s.grow r hr' with h3 | h3
        · exact hd r hr h3
        · exact absurd (hx.2 r hr) (not_lt.mpr h3)
      obtain ⟨i1, i2⟩ := ih _ hx' s.proper hd'
      rw [s.val] at i2
      rw [f1] at i1
      exact ⟨i1, i2⟩

end
end CZ
