import Verif.Spec.Heap
import Mathlib.Tactic.Tauto
import Mathlib.Data.List.Nodup

/-!
# Lemmas about the store
-/

namespace CZ
open Spec

noncomputable section
open Classical

/-- The two stores agree at an address. -/
def AgreeAt (h h' : Heap) (r : Ref) : Prop :=
  h'.alg r = h.alg r ∧ h'.voxel r = h.voxel r ∧ h'.strain r = h.strain r ∧ h'.gen r = h.gen r ∧ h'.vol r = h.vol r

/-- Only the addresses in `S` and new ones are written. -/
structure Writes (h h' : Heap) (S : List Ref) : Prop where
  frame : ∀ r, r < h.next → r ∉ S → AgreeAt h h' r
  mono : h.next ≤ h'.next

theorem AgreeAt.refl (h : Heap) (r : Ref) : AgreeAt h h r := ⟨rfl, rfl, rfl, rfl, rfl⟩

theorem AgreeAt.trans {h h' h'' : Heap} {r : Ref} (a : AgreeAt h h' r) (b : AgreeAt h' h'' r) : AgreeAt h h'' r :=
  ⟨b.1.trans a.1, b.2.1.trans a.2.1, b.2.2.1.trans a.2.2.1, b.2.2.2.1.trans a.2.2.2.1, b.2.2.2.2.trans a.2.2.2.2⟩

theorem Writes.refl (h : Heap) (S : List Ref) : Writes h h S := ⟨fun _ _ _ => AgreeAt.refl _ _, le_rfl⟩

theorem Writes.trans {h h' h'' : Heap} {S S' : List Ref} (a : Writes h h' S) (b : Writes h' h'' S')
    (hs : ∀ r ∈ S', r ∈ S ∨ h.next ≤ r) : Writes h h'' S := by
  refine ⟨fun r hr hS => (a.frame r hr hS).trans (b.frame r (hr.trans_le a.mono) fun h2 => ?_), a.mono.trans b.mono⟩
  rcases hs r h2 with h3 | h3
  · exact hS h3
  · exact absurd hr (not_lt.mpr h3)

theorem Writes.weaken {h h' : Heap} {S S' : List Ref} (a : Writes h h' S) (hs : ∀ r ∈ S, r ∈ S' ∨ h.next ≤ r) : Writes h h' S' := by
  refine ⟨fun r hr hS => a.frame r hr fun h2 => ?_, a.mono⟩
  rcases hs r h2 with h3 | h3
  · exact hS h3
  · exact absurd hr (not_lt.mpr h3)

/-! ## frames -/

theorem genParts_congr {h h' : Heap} {r : Ref} (a : h'.gen r = h.gen r) : genParts h' r = genParts h r := by
  unfold genParts; rw [a]

theorem mem_genParts_self (h : Heap) (r : Ref) : r ∈ genParts h r := by
  unfold genParts; split <;> simp

theorem genVal_congr {h h' : Heap} {r : Ref} (a : ∀ x ∈ genParts h r, AgreeAt h h' x) : h'.genVal r = h.genVal r := by
  have hg : h'.gen r = h.gen r := (a r (mem_genParts_self h r)).2.2.2.1
  unfold Heap.genVal
  rw [hg]
  unfold genParts at a
  cases hc : h.gen r with
  | crystal c =>
    rw [hc] at a
    simp only at a ⊢
    congr 2
    · cases hx : c.voxel with
      | none => rfl
      | some x => simp only [Option.map_some, (a x (by simp [hx])).2.1]
    · cases hx : c.strain with
      | none => rfl
      | some x => simp only [Option.map_some, (a x (by simp [hx])).2.2.1]
  | amorphous b => rfl
  | null => rfl

theorem fieldsVal_congr {h h' : Heap} {c : VolFields} (ha : ∀ x ∈ c.algs, h'.alg x = h.alg x)
    (hg : ∀ g, c.gen = some g → h'.genVal g = h.genVal g) : h'.fieldsVal c = h.fieldsVal c := by
  unfold Heap.fieldsVal
  congr 1
  · exact List.map_congr_left ha
  · cases hx : c.gen with
    | none => rfl
    | some g => simp only [Option.map_some, hg g hx]

/-- Value and parts depend only on the parts. -/
theorem value_congr {h h' : Heap} {x : Handle} (a : ∀ r ∈ parts h x, AgreeAt h h' r) :
    value h' x = value h x ∧ parts h' x = parts h x := by
  cases x with
  | alg r => exact ⟨congrArg Value.alg (a r (by simp [parts])).1, rfl⟩
  | gen r => exact ⟨congrArg Value.gen (genVal_congr a), genParts_congr (a r (mem_genParts_self h r)).2.2.2.1⟩
  | vol r =>
    have hr : h'.vol r = h.vol r := by
      refine (a r ?_).2.2.2.2
      unfold parts; simp only; split <;> simp
    unfold value parts
    unfold parts at a
    simp only [hr] at a ⊢
    cases hc : h.vol r with
    | multi vs p hd => simp
    | vol c =>
      rw [hc] at a
      simp only at a ⊢
      refine ⟨?_, ?_⟩
      · rw [fieldsVal_congr]
        · intro y hy; exact (a y (by simp [hy])).1
        · intro g hg; exact genVal_congr fun y hy => a y (by simp [hg, hy])
      · cases hg : c.gen with
        | none => rfl
        | some g =>
          simp only [Option.map_some, Option.getD_some]
          rw [genParts_congr (a g (by simp [hg, mem_genParts_self])).2.2.2.1]

/-- An object none of whose parts is written keeps its value. -/
theorem value_frame {h h' : Heap} {S : List Ref} (w : Writes h h' S) {y : Handle} (hp : ∀ r ∈ parts h y, r < h.next)
    (hd : ∀ r ∈ parts h y, r ∉ S) : value h' y = value h y ∧ parts h' y = parts h y :=
  value_congr fun r hr => w.frame r (hp r hr) (hd r hr)

/-! ## generators -/

theorem putOpt_of_ne {α : Type} (f : Ref → α) (o : Option Ref) (v : Option α) (q : Ref) (h : o ≠ some q) : Heap.putOpt f o v q = f q := by
  unfold Heap.putOpt
  split
  · exact Function.update_of_ne (fun e => h (by rw [e])) _ _
  · rfl

theorem putOpt_map {α : Type} (f : Ref → α) (o : Option Ref) (v : Option α) (h : v.isSome = o.isSome) :
    o.map (Heap.putOpt f o v) = v := by
  cases o with
  | none => cases v with
    | none => rfl
    | some _ => simp at h
  | some x => cases v with
    | none => simp at h
    | some y => simp [Heap.putOpt]

/-- The generator is of the same class with the same kind of attributes. -/
def SameShape : GenObj → GenObj → Prop
  | .crystal g, .crystal g' =>
    g'.struct = g.struct ∧ g'.post = g.post ∧ (g'.voxel.isSome = g.voxel.isSome) ∧ (g'.strain.isSome = g.strain.isSome)
  | .amorphous _, .amorphous _ => True
  | .null, .null => True
  | _, _ => False

theorem transform_shape (g : GenObj) (t : Tr ℝ) : SameShape g (g.transform t).1 := by
  cases g with
  | crystal g =>
    unfold GenObj.transform Gen.transform
    simp only
    cases hv : g.voxel with
    | none => exact ⟨rfl, rfl, rfl, rfl⟩
    | some v =>
      simp only
      cases hb : Voxel.basesSet (t.bases v.bases) with
      | error e => exact ⟨rfl, rfl, rfl, rfl⟩
      | ok b => exact ⟨rfl, rfl, by rw [hv]; rfl, rfl⟩
  | amorphous a => trivial
  | null => trivial

theorem gen_supply_shape (rng : ℕ → ℕ → ℕ → ℝ) (g : Gen ℝ) (b : List (V3 ℝ)) :
    SameShape (.crystal g) (.crystal (g.supply rng b).1) := by
  unfold Gen.supply
  cases hv : g.voxel with
  | none => exact ⟨rfl, rfl, rfl, rfl⟩
  | some v =>
    simp only
    cases v.getExtents b with
    | error e => exact ⟨rfl, rfl, rfl, rfl⟩
    | ok _ =>
      cases hst : g.struct with
      | none => exact ⟨rfl, rfl, rfl, rfl⟩
      | some s =>
        simp only
        cases Gen.rawAtoms v s.sites b with
        | error e => exact ⟨rfl, rfl, rfl, rfl⟩
        | ok as =>
          simp only
          cases hs : g.strain with
          | none => exact ⟨rfl, rfl, rfl, rfl⟩
          | some st =>
            simp only
            split
            · exact ⟨hst.symm, rfl, by simp [hv], by simp [hs]⟩
            · exact ⟨hst.symm, rfl, by simp [hv], by simp [hs]⟩

theorem supply_shape (env : Env) (n : ℕ) (g : GenObj) (b : BBox) : SameShape g (g.supply env n b).1 := by
  cases g with
  | crystal g =>
    unfold GenObj.supply
    simp only
    split
    · exact ⟨rfl, rfl, rfl, rfl⟩
    · split
      · exact gen_supply_shape _ g _
      all_goals exact ⟨rfl, rfl, rfl, rfl⟩
  | amorphous a =>
    unfold GenObj.supply
    simp only
    split
    · trivial
    · split <;> trivial
  | null => trivial

theorem putGen_genParts (h : Heap) (r : Ref) (g : GenObj) (q : Ref) (hq : q = r ∨ (h.putGen r g).gen q = h.gen q) :
    genParts (h.putGen r g) q = genParts h q := by
  rcases hq with rfl | hq
  · unfold Heap.putGen
    split
    · rfl
    · rename_i a b hg
      unfold genParts
      simp only [Function.update_self, hg]
    · rfl
  · exact genParts_congr hq

theorem putGen_spec {h : Heap} {r : Ref} {g : GenObj} (hs : SameShape (h.genVal r) g) (hn : (genParts h r).Nodup) :
    (h.putGen r g).genVal r = g ∧ Writes h (h.putGen r g) (genParts h r) ∧ genParts (h.putGen r g) r = genParts h r ∧
      (h.putGen r g).next = h.next ∧ (h.putGen r g).alg = h.alg ∧ (h.putGen r g).vol = h.vol := by
  refine ⟨?_, ?_, putGen_genParts h r g r (.inl rfl), ?_⟩
  · unfold Heap.genVal at hs
    unfold genParts at hn
    cases hc : h.gen r with
    | crystal c =>
      rw [hc] at hs hn
      cases g with
      | crystal g =>
        obtain ⟨h1, h2, h3, h4⟩ := hs
        simp only at h1 h2 h3 h4 hn
        simp only [Heap.putGen, hc, Heap.genVal]
        congr 1
        obtain ⟨gs, gv, gt, gp⟩ := g
        simp only at h1 h2 h3 h4
        subst h1 h2
        congr 1
        · exact putOpt_map _ _ _ (by simpa using h3)
        · exact putOpt_map _ _ _ (by simpa using h4)
      | amorphous a => exact hs.elim
      | null => exact hs.elim
    | amorphous a =>
      rw [hc] at hs
      cases g with
      | crystal g => exact hs.elim
      | amorphous b => simp [Heap.putGen, hc, Heap.genVal]
      | null => exact hs.elim
    | null =>
      rw [hc] at hs
      cases g with
      | crystal g => exact hs.elim
      | amorphous b => exact hs.elim
      | null => simp [Heap.putGen, hc, Heap.genVal]
  · refine ⟨fun q _ hS => ?_, ?_⟩
    · unfold genParts at hS
      unfold Heap.putGen
      cases hc : h.gen r with
      | crystal c =>
        rw [hc] at hS
        simp only [List.mem_cons, List.mem_append, not_or] at hS
        cases g with
        | crystal g =>
          refine ⟨rfl, ?_, ?_, rfl, rfl⟩
          · exact putOpt_of_ne _ _ _ _ fun hx => hS.2.1 (by simp [hx])
          · exact putOpt_of_ne _ _ _ _ fun hx => hS.2.2 (by simp [hx])
        | amorphous a => exact AgreeAt.refl _ _
        | null => exact AgreeAt.refl _ _
      | amorphous a =>
        rw [hc] at hS
        simp only [List.mem_singleton] at hS
        cases g with
        | amorphous b => exact ⟨rfl, rfl, rfl, Function.update_of_ne hS _ _, rfl⟩
        | crystal g => exact AgreeAt.refl _ _
        | null => exact AgreeAt.refl _ _
      | null => cases g <;> exact AgreeAt.refl _ _
    · unfold Heap.putGen; split <;> exact le_rfl
  · unfold Heap.putGen
    split <;> exact ⟨rfl, rfl, rfl⟩

/-! ## surfaces -/

theorem transformAlg_spec (h : Heap) (r : Ref) (t : Tr ℝ) : (h.transformAlg r t).1.alg r = (t.alg (h.alg r)).1 ∧
    (h.transformAlg r t).2 = (t.alg (h.alg r)).2 ∧ Writes h (h.transformAlg r t).1 [r] ∧ (h.transformAlg r t).1.next = h.next ∧
    (h.transformAlg r t).1.gen = h.gen ∧ (h.transformAlg r t).1.vol = h.vol ∧ (h.transformAlg r t).1.genVal = h.genVal := by
  refine ⟨by simp [Heap.transformAlg], rfl, ⟨fun q _ hq => ?_, le_rfl⟩, rfl, rfl, rfl, rfl⟩
  rw [List.mem_singleton] at hq
  exact ⟨Function.update_of_ne hq _ _, rfl, rfl, rfl, rfl⟩

theorem transformAlgs_spec (t : Tr ℝ) (as : List Ref) : ∀ h : Heap, as.Nodup →
    as.map (Heap.transformAlgs t h as).1.alg = (Vol.transformAlgs t (as.map h.alg)).1 ∧
    (Heap.transformAlgs t h as).2 = (Vol.transformAlgs t (as.map h.alg)).2 ∧ Writes h (Heap.transformAlgs t h as).1 as ∧
    (Heap.transformAlgs t h as).1.next = h.next ∧ (Heap.transformAlgs t h as).1.gen = h.gen ∧
    (Heap.transformAlgs t h as).1.vol = h.vol ∧ (Heap.transformAlgs t h as).1.genVal = h.genVal := by
  induction as with
  | nil => exact fun h _ => ⟨rfl, rfl, Writes.refl _ _, rfl, rfl, rfl, rfl⟩
  | cons a as ih =>
    intro h hn
    rw [List.nodup_cons] at hn
    obtain ⟨e1, e2, e3, e4, e5, e6, e7⟩ := transformAlg_spec h a t
    have hrest : as.map (h.transformAlg a t).1.alg = as.map h.alg := by
      refine List.map_congr_left fun q hq => ?_
      unfold Heap.transformAlg
      exact Function.update_of_ne (by rintro rfl; exact hn.1 hq) _ _
    unfold Heap.transformAlgs
    simp only [List.map_cons, Vol.transformAlgs]
    generalize hk : h.transformAlg a t = k at *
    obtain ⟨h1, o⟩ := k
    generalize hm : t.alg (h.alg a) = m at *
    obtain ⟨a1, o1⟩ := m
    simp only at e1 e2 e3 e4 e5 e6 e7 hrest
    subst e2
    cases o with
    | error e =>
      refine ⟨?_, rfl, e3.weaken fun r hr => .inl ?_, e4, e5, e6, e7⟩
      · simp only; rw [e1, hrest]
      · rw [List.mem_singleton] at hr; simp [hr]
    | ok u =>
      simp only
      obtain ⟨i1, i2, i3, i4, i5, i6, i7⟩ := ih h1 hn.2
      rw [hrest] at i1 i2
      refine ⟨?_, i2, (e3.weaken fun r hr => .inl ?_).trans i3 fun r hr => .inl (List.mem_cons_of_mem _ hr), by rw [i4, e4], by rw [i5, e5],
        by rw [i6, e6], by rw [i7, e7]⟩
      · rw [i1]
        congr 1
        rw [← e1]
        have : ∀ (L : List Ref) (k : Heap), a ∉ L → (Heap.transformAlgs t k L).1.alg a = k.alg a := by
          intro L
          induction L with
          | nil => intro k _; rfl
          | cons b L ihL =>
            intro k hb
            rw [List.mem_cons, not_or] at hb
            unfold Heap.transformAlgs
            have hkb : (k.transformAlg b t).1.alg a = k.alg a := Function.update_of_ne hb.1 _ _
            generalize k.transformAlg b t = kk at hkb
            obtain ⟨k1, o⟩ := kk
            cases o with
            | error e => exact hkb
            | ok u => exact (ihL k1 hb.2).trans hkb
        exact this as h1 hn.1
      · rw [List.mem_singleton] at hr; simp [hr]

/-! ## new objects -/

theorem newAlg_spec (h : Heap) (a : Alg) : (h.newAlg a).2 = h.next ∧ (h.newAlg a).1.alg h.next = a ∧ Writes h (h.newAlg a).1 [] ∧
    (h.newAlg a).1.next = h.next + 1 ∧ (h.newAlg a).1.vol = h.vol := by
  refine ⟨rfl, by simp [Heap.newAlg], ⟨fun q hq _ => ?_, Nat.le_succ _⟩, rfl, rfl⟩
  exact ⟨Function.update_of_ne (Nat.ne_of_lt hq) _ _, rfl, rfl, rfl, rfl⟩

theorem newGen_spec (h : Heap) (g : GenObj) : (h.newGen g).2 = h.next ∧ (h.newGen g).1.genVal h.next = g ∧ Writes h (h.newGen g).1 [] ∧
    (h.newGen g).1.next = h.next + 3 ∧ (h.newGen g).1.vol = h.vol ∧ (genParts (h.newGen g).1 h.next).Nodup ∧
    ∀ r ∈ genParts (h.newGen g).1 h.next, h.next ≤ r ∧ r < h.next + 3 := by
  cases g with
  | crystal g =>
    refine ⟨rfl, ?_, ⟨fun q hq _ => ⟨rfl, ?_, ?_, ?_, rfl⟩, Nat.le_add_right _ 3⟩, rfl, rfl, ?_, ?_⟩
    · obtain ⟨gs, gv, gt, gp⟩ := g
      simp only [Heap.newGen, Heap.genVal, Function.update_self]
      congr 2
      · cases gv <;> simp [Heap.putOpt]
      · cases gt <;> simp [Heap.putOpt]
    · exact putOpt_of_ne _ _ _ _ (by simp; exact Nat.ne_of_gt (Nat.lt_succ_of_lt hq))
    · exact putOpt_of_ne _ _ _ _ (by simp; exact Nat.ne_of_gt (by omega))
    · exact Function.update_of_ne (Nat.ne_of_lt hq) _ _
    · unfold genParts
      simp only [Heap.newGen, Function.update_self]
      cases g.voxel <;> cases g.strain <;> simp
    · unfold genParts
      simp only [Heap.newGen, Function.update_self]
      intro r hr
      cases hv : g.voxel <;> cases ht : g.strain <;> simp [hv, ht] at hr <;> omega
  | amorphous a =>
    refine ⟨rfl, by simp [Heap.newGen, Heap.genVal], ⟨fun q hq _ => ⟨rfl, rfl, rfl, ?_, rfl⟩, Nat.le_add_right _ 3⟩, rfl, rfl, ?_, ?_⟩
    · exact Function.update_of_ne (Nat.ne_of_lt hq) _ _
    · simp [genParts, Heap.newGen]
    · intro r hr; simp [genParts, Heap.newGen] at hr; omega
  | null =>
    refine ⟨rfl, by simp [Heap.newGen, Heap.genVal], ⟨fun q hq _ => ⟨rfl, rfl, rfl, ?_, rfl⟩, Nat.le_add_right _ 3⟩, rfl, rfl, ?_, ?_⟩
    · exact Function.update_of_ne (Nat.ne_of_lt hq) _ _
    · simp [genParts, Heap.newGen]
    · intro r hr; simp [genParts, Heap.newGen] at hr; omega

/-! ## volumes -/

/-- Addresses reached from the surfaces and the generator. -/
def inner (h : Heap) (c : VolFields) : List Ref := c.algs ++ (c.gen.map (genParts h)).getD []

theorem parts_vol {h : Heap} {r : Ref} {c : VolFields} (hc : h.vol r = .vol c) : parts h (.vol r) = r :: inner h c := by
  unfold parts inner; simp only [hc]

theorem value_vol {h : Heap} {r : Ref} {c : VolFields} (hc : h.vol r = .vol c) : value h (.vol r) = .vol (h.fieldsVal c) := by
  unfold value; simp only [hc]

theorem transformGen_spec {h : Heap} {r : Ref} (t : Tr ℝ) (hn : (genParts h r).Nodup) :
    (h.transformGen r t).1.genVal r = ((h.genVal r).transform t).1 ∧ (h.transformGen r t).2 = ((h.genVal r).transform t).2 ∧
    Writes h (h.transformGen r t).1 (genParts h r) ∧ genParts (h.transformGen r t).1 r = genParts h r ∧
    (h.transformGen r t).1.next = h.next ∧ (h.transformGen r t).1.alg = h.alg ∧ (h.transformGen r t).1.vol = h.vol := by
  obtain ⟨h1, h2, h3, h4, h5, h6⟩ := putGen_spec (transform_shape (h.genVal r) t) hn
  exact ⟨h1, rfl, h2, h3, h4, h5, h6⟩

theorem supplyGen_spec {env : Env} {n : ℕ} {h : Heap} {r : Ref} (b : BBox) (hn : (genParts h r).Nodup) :
    (h.supplyGen env n r b).1.genVal r = ((h.genVal r).supply env n b).1 ∧ (h.supplyGen env n r b).2 = ((h.genVal r).supply env n b).2 ∧
    Writes h (h.supplyGen env n r b).1 (genParts h r) ∧ genParts (h.supplyGen env n r b).1 r = genParts h r ∧
    (h.supplyGen env n r b).1.next = h.next ∧ (h.supplyGen env n r b).1.alg = h.alg ∧ (h.supplyGen env n r b).1.vol = h.vol := by
  obtain ⟨h1, h2, h3, h4, h5, h6⟩ := putGen_spec (supply_shape env n (h.genVal r) b) hn
  exact ⟨h1, rfl, h2, h3, h4, h5, h6⟩

theorem transformRest_spec (h : Heap) (c : VolFields) (t : Tr ℝ) (hn : (inner h c).Nodup) :
    (h.transformRest c t).1.fieldsVal c = ((h.fieldsVal c).transformRest t).1 ∧
    (h.transformRest c t).2 = ((h.fieldsVal c).transformRest t).2 ∧ Writes h (h.transformRest c t).1 (inner h c) ∧
    inner (h.transformRest c t).1 c = inner h c ∧ (h.transformRest c t).1.next = h.next ∧ (h.transformRest c t).1.vol = h.vol := by
  obtain ⟨a1, a2, a3, a4, a5, a6, a7⟩ := transformAlgs_spec t c.algs h (List.Nodup.of_append_left hn)
  unfold Heap.transformRest Vol.transformRest
  have hal : (h.fieldsVal c).algs = c.algs.map h.alg := rfl
  rw [hal]
  generalize hk : Heap.transformAlgs t h c.algs = k at *
  obtain ⟨h1, o⟩ := k
  generalize hm : Vol.transformAlgs t (c.algs.map h.alg) = m at *
  obtain ⟨as, o1⟩ := m
  simp only at a1 a2 a3 a4 a5 a6 a7
  subst a2
  have w1 : Writes h h1 (inner h c) := a3.weaken fun r hr => .inl (by simp [inner, hr])
  have hin : inner h1 c = inner h c := by
    unfold inner
    cases hg : c.gen with
    | none => rfl
    | some g => simp only [Option.map_some, Option.getD_some, genParts_congr (congrFun a5 g)]
  have hval : h1.fieldsVal c = { h.fieldsVal c with algs := as } := by
    unfold Heap.fieldsVal
    rw [a1, a7]
  cases o with
  | error e => exact ⟨hval, rfl, w1, hin, a4, a6⟩
  | ok u =>
    simp only
    split
    · cases hg : c.gen with
      | none =>
        have : (h.fieldsVal c).gen = none := by unfold Heap.fieldsVal; simp [hg]
        simp only [this]
        refine ⟨by rw [hval, ← this], trivial, w1, hin, a4, a6⟩
      | some g =>
        have hgv : (h.fieldsVal c).gen = some (h.genVal g) := by unfold Heap.fieldsVal; simp [hg]
        simp only [hgv]
        have hgn : (genParts h1 g).Nodup := by
          rw [genParts_congr (by rw [a5] : h1.gen g = h.gen g)]
          have := List.Nodup.of_append_right hn
          simpa [hg] using this
        obtain ⟨g1, g2, g3, g4, g5, g6, g7⟩ := transformGen_spec (h := h1) (r := g) t hgn
        rw [a7] at g1 g2
        refine ⟨?_, g2, w1.trans g3 fun r hr => .inl ?_, ?_, by rw [g5, a4], by rw [g7, a6]⟩
        · have : h1.fieldsVal c = { h.fieldsVal c with algs := as } := hval
          unfold Heap.fieldsVal at this ⊢
          rw [g6, a1, hg]
          simp [g1]
        · rw [← hin]; simp [inner, hg, hr]
        · rw [← hin]; unfold inner; simp only [hg, Option.map_some, Option.getD_some, g4]
    · exact ⟨hval, rfl, w1, hin, a4, a6⟩

/-- What one call does to its object and to the store. -/
structure Steps (h h' : Heap) (x : Handle) (v : Value) : Prop where
  val : value h' x = v
  proper : Proper h' x
  grow : ∀ r ∈ parts h' x, r ∈ parts h x ∨ h.next ≤ r
  writes : Writes h h' (parts h x)

theorem Steps.refl {h : Heap} {x : Handle} (hp : Proper h x) : Steps h h x (value h x) :=
  ⟨rfl, hp, fun _ hr => .inl hr, Writes.refl _ _⟩

/-- Assembling the result of a call on a Volume whose surfaces and generator stay the same objects. -/
theorem steps_vol {h h' : Heap} {r : Ref} {c c' : VolFields} (hc : h.vol r = .vol c) (hc' : h'.vol r = .vol c')
    (hp : Proper h (.vol r)) (hin : inner h' c' = inner h c) (w : Writes h h' (r :: inner h c)) :
    Steps h h' (.vol r) (.vol (h'.fieldsVal c')) := by
  have e1 := parts_vol hc
  have e2 := parts_vol hc'
  rw [hin, ← e1] at e2
  refine ⟨value_vol hc', ⟨by rw [e2]; exact hp.1, fun q hq => ?_⟩, fun q hq => .inl (by rw [e2] at hq; exact hq), by rw [e1]; exact w⟩
  rw [e2] at hq
  exact (hp.2 q hq).trans_le w.mono

theorem putVol_writes (h : Heap) (r : Ref) (c : VolFields) (v : Vol) (S : List Ref) : Writes h (h.putVol r c v) (r :: S) := by
  refine ⟨fun q _ hq => ⟨rfl, rfl, rfl, rfl, ?_⟩, le_rfl⟩
  rw [List.mem_cons, not_or] at hq
  exact Function.update_of_ne hq.1 _ _

/-- Attributes of a Volume that are not references. -/
def plain (v w : Vol) : Vol := { w with algs := v.algs, gen := v.gen }

theorem setPoints_plain (env : Env) (v : Vol) (ps : List (V3 ℝ)) :
    (v.setPoints env ps).1.algs = v.algs ∧ (v.setPoints env ps).1.gen = v.gen := by
  unfold Vol.setPoints Vol.addPoints
  exact ⟨rfl, rfl⟩

theorem createHull_plain (env : Env) (v : Vol) : (v.createHull env).1.algs = v.algs ∧ (v.createHull env).1.gen = v.gen := by
  unfold Vol.createHull
  split
  · split
    · exact ⟨rfl, rfl⟩
    · split <;> exact ⟨rfl, rfl⟩
  all_goals exact ⟨rfl, rfl⟩

theorem putVol_vol (h : Heap) (r : Ref) (c : VolFields) (v : Vol) (hv : v.algs = (h.fieldsVal c).algs ∧ v.gen = (h.fieldsVal c).gen) :
    ∃ c', (h.putVol r c v).vol r = .vol c' ∧ (h.putVol r c v).fieldsVal c' = v ∧ c'.algs = c.algs ∧ c'.gen = c.gen := by
  refine ⟨_, Function.update_self _ _ _, ?_, rfl, rfl⟩
  obtain ⟨v1, v2, v3, v4, v5, v6, v7, v8, v9⟩ := v
  simp only at hv
  obtain ⟨rfl, rfl⟩ := hv
  rfl

theorem inner_congr {h h' : Heap} {c c' : VolFields} (ha : c'.algs = c.algs) (hg : c'.gen = c.gen) (hgen : h'.gen = h.gen) :
    inner h' c' = inner h c := by
  unfold inner
  rw [ha, hg]
  congr 2
  cases c.gen with
  | none => rfl
  | some g => simp only [Option.map_some, genParts_congr (congrFun hgen g)]

theorem steps_putVol {h : Heap} {r : Ref} {c : VolFields} (hc : h.vol r = .vol c) (hp : Proper h (.vol r)) {v : Vol}
    (hv : v.algs = (h.fieldsVal c).algs ∧ v.gen = (h.fieldsVal c).gen) : Steps h (h.putVol r c v) (.vol r) (.vol v) := by
  obtain ⟨c', h1, h2, h3, h4⟩ := putVol_vol h r c v hv
  have := steps_vol hc h1 hp (inner_congr h3 h4 rfl) (putVol_writes h r c v _)
  rwa [h2] at this

/-- The value of a Volume's `transformRest` only needs its surfaces and generator to be replaced. -/
theorem transformRest_fields (h : Heap) (c c' : VolFields) (t : Tr ℝ) (ha : c'.algs = c.algs) (hg : c'.gen = c.gen) :
    h.transformRest c' t = h.transformRest c t := by
  unfold Heap.transformRest
  rw [ha, hg]

theorem transformVol_spec (env : Env) (h : Heap) (r : Ref) (c : VolFields) (hc : h.vol r = .vol c) (hp : Proper h (.vol r)) (t : Tr ℝ) :
    Steps h (h.transformVol env r c t).1 (.vol r) (.vol ((h.fieldsVal c).transform env t).1) ∧
      (h.transformVol env r c t).2 = ((h.fieldsVal c).transform env t).2 := by
  have hpar := parts_vol hc
  have hnod : (r :: inner h c).Nodup := by rw [← hpar]; exact hp.1
  have rest : ∀ (h1 : Heap) (c1 : VolFields), h1.vol r = .vol c1 → c1.algs = c.algs → c1.gen = c.gen → inner h1 c1 = inner h c →
      Writes h h1 (r :: inner h c) →
      Steps h (h1.transformRest c1 t).1 (.vol r) (.vol ((h1.fieldsVal c1).transformRest t).1) ∧
        (h1.transformRest c1 t).2 = ((h1.fieldsVal c1).transformRest t).2 := by
    intro h1 c1 hv ha hg hin w
    obtain ⟨e1, e2, e3, e4, e5, e6⟩ := transformRest_spec h1 c1 t (by rw [hin]; exact (List.nodup_cons.mp hnod).2)
    refine ⟨?_, e2⟩
    have := steps_vol (h' := (h1.transformRest c1 t).1) hc (c' := c1) (by rw [e6]; exact hv) hp (by rw [e4, hin])
      (w.trans e3 fun q hq => .inl (by rw [hin] at hq; simp [hq]))
    rwa [e1] at this
  unfold Heap.transformVol Vol.transform
  have hpt : (h.fieldsVal c).points = c.points := rfl
  rw [hpt]
  cases hpc : c.points with
  | none =>
    simp only
    exact rest h c hc rfl rfl rfl (Writes.refl _ _)
  | some pts =>
    have main : ∀ ps : List (V3 ℝ),
        Steps h (match (h.fieldsVal c).setPoints env (ps.map t.apply) with
          | (v1, .error e) => (h.putVol r c v1, .error e)
          | (v1, .ok ()) =>
            match v1.createHull env with
            | (v2, .error e) => (h.putVol r c v2, .error e)
            | (v2, .ok ()) => (h.putVol r c v2).transformRest c t : Heap × Py Unit).1 (.vol r)
          (.vol (match (h.fieldsVal c).setPoints env (ps.map t.apply) with
            | (v1, .error e) => (v1, .error e)
            | (v1, .ok ()) =>
              match v1.createHull env with
              | (v2, .error e) => (v2, .error e)
              | (v2, .ok ()) => v2.transformRest t : Vol × Py Unit).1) ∧
        (match (h.fieldsVal c).setPoints env (ps.map t.apply) with
          | (v1, .error e) => (h.putVol r c v1, .error e)
          | (v1, .ok ()) =>
            match v1.createHull env with
            | (v2, .error e) => (h.putVol r c v2, .error e)
            | (v2, .ok ()) => (h.putVol r c v2).transformRest c t : Heap × Py Unit).2 =
          (match (h.fieldsVal c).setPoints env (ps.map t.apply) with
            | (v1, .error e) => (v1, .error e)
            | (v1, .ok ()) =>
              match v1.createHull env with
              | (v2, .error e) => (v2, .error e)
              | (v2, .ok ()) => v2.transformRest t : Vol × Py Unit).2 := by
      intro ps
      have hs := setPoints_plain env (h.fieldsVal c) (ps.map t.apply)
      generalize (h.fieldsVal c).setPoints env (ps.map t.apply) = k at hs
      obtain ⟨v1, o⟩ := k
      cases o with
      | error e => exact ⟨steps_putVol hc hp hs, rfl⟩
      | ok u =>
        simp only
        have hq := createHull_plain env v1
        generalize v1.createHull env = k at hq
        obtain ⟨v2, o⟩ := k
        have hv2 : v2.algs = (h.fieldsVal c).algs ∧ v2.gen = (h.fieldsVal c).gen := ⟨hq.1.trans hs.1, hq.2.trans hs.2⟩
        cases o with
        | error e => exact ⟨steps_putVol hc hp hv2, rfl⟩
        | ok u =>
          simp only
          obtain ⟨c', k1, k2, k3, k4⟩ := putVol_vol h r c v2 hv2
          have := rest _ c' k1 k3 k4 (inner_congr k3 k4 rfl) (putVol_writes h r c v2 _)
          rw [transformRest_fields _ c c' t k3 k4, k2] at this
          exact this
    cases pts with
    | cleared => exact ⟨by rw [← value_vol hc]; exact Steps.refl hp, rfl⟩
    | arr ps => exact main ps
    | single p => exact main [p]

theorem populateVol_spec (env : Env) (n : ℕ) (h : Heap) (r : Ref) (c : VolFields) (hc : h.vol r = .vol c) (hp : Proper h (.vol r)) :
    Steps h (h.populateVol env n r c).1 (.vol r) (.vol ((h.fieldsVal c).populate env n).1) ∧
      (h.populateVol env n r c).2 = ((h.fieldsVal c).populate env n).2 := by
  have hpar := parts_vol hc
  have hnod : (r :: inner h c).Nodup := by rw [← hpar]; exact hp.1
  have same : Steps h h (.vol r) (.vol (h.fieldsVal c)) := by rw [← value_vol hc]; exact Steps.refl hp
  unfold Heap.populateVol Vol.populate
  cases (h.fieldsVal c).boundingBox env with
  | error e => exact ⟨same, rfl⟩
  | ok b =>
    simp only
    cases hg : c.gen with
    | none =>
      have : (h.fieldsVal c).gen = none := by unfold Heap.fieldsVal; simp [hg]
      simp only [this]
      exact ⟨same, trivial⟩
    | some g =>
      have hgv : (h.fieldsVal c).gen = some (h.genVal g) := by unfold Heap.fieldsVal; simp [hg]
      simp only [hgv]
      have hgn : (genParts h g).Nodup := by
        have := List.Nodup.of_append_right (List.nodup_cons.mp hnod).2
        simpa [hg] using this
      obtain ⟨g1, g2, g3, g4, g5, g6, g7⟩ := supplyGen_spec (env := env) (n := n) (h := h) (r := g) b hgn
      generalize h.supplyGen env n g b = k at *
      obtain ⟨h1, o⟩ := k
      generalize (h.genVal g).supply env n b = m at *
      obtain ⟨gv, o1⟩ := m
      simp only at g1 g2 g3 g4 g5 g6 g7
      subst g2
      have hval : h1.fieldsVal c = { h.fieldsVal c with gen := some gv } := by
        unfold Heap.fieldsVal
        rw [g6, hg]
        simp [g1]
      have hin : inner h1 c = inner h c := by
        unfold inner; simp only [hg, Option.map_some, Option.getD_some, g4]
      have w : Writes h h1 (r :: inner h c) := g3.weaken fun q hq => .inl (by simp [inner, hg, hq])
      have hc1 : h1.vol r = .vol c := by rw [g7]; exact hc
      have put : ∀ v : Vol, v.algs = (h1.fieldsVal c).algs → v.gen = (h1.fieldsVal c).gen →
          Steps h (h1.putVol r c v) (.vol r) (.vol v) := by
        intro v ha hge
        obtain ⟨c', k1, k2, k3, k4⟩ := putVol_vol h1 r c v ⟨ha, hge⟩
        have := steps_vol (h' := h1.putVol r c v) hc k1 hp ((inner_congr (h := h1) k3 k4 rfl).trans hin)
          (w.trans (putVol_writes h1 r c v (inner h c)) fun q hq => .inl hq)
        rwa [k2] at this
      cases o with
      | error e =>
        refine ⟨?_, rfl⟩
        have := steps_vol hc hc1 hp hin w
        rwa [hval] at this
      | ok res =>
        obtain ⟨cs, zs⟩ := res
        simp only
        rw [hval]
        cases hA : npMask (Vol.check env { h.fieldsVal c with gen := some gv } cs) cs with
        | error e =>
          refine ⟨?_, rfl⟩
          have := steps_vol hc hc1 hp hin w
          rwa [hval] at this
        | ok as =>
          cases hB : npMask (Vol.check env { h.fieldsVal c with gen := some gv } cs) zs with
          | error e => exact ⟨put _ (by rw [hval]) (by rw [hval]), rfl⟩
          | ok ss => exact ⟨put _ (by rw [hval]) (by rw [hval]), rfl⟩

end
end CZ
