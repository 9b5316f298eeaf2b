import Verif.Batched
import Verif.Props.Amorphous

/-!
# Property C62: amorphous blocks in batches
-/

set_option linter.unusedSectionVars false

namespace CZ
open Spec

theorem mapM_spec {α β : Type} {f : α → Py β} {Q : α → β → Prop} (l : List α) (h : ∀ c ∈ l, ∃ r, f c = .ok r ∧ Q c r) :
    ∃ rs, l.mapM f = .ok rs ∧ rs.length = l.length ∧ ∀ x ∈ rs.zip l, Q x.2 x.1 := by
  induction l with
  | nil => exact ⟨[], rfl, rfl, by simp⟩
  | cons c l ih =>
    obtain ⟨r, hr, hq⟩ := h c (by simp)
    obtain ⟨rs, hrs, hl, hz⟩ := ih fun c hc => h c (by simp [hc])
    refine ⟨r :: rs, ?_, by simp [hl], ?_⟩
    · rw [List.mapM_cons]; simp only [hr, hrs, bind, Except.bind, pure, Except.pure]
    · intro x hx
      rw [List.zip_cons_cons, List.mem_cons] at hx
      rcases hx with rfl | hx
      · exact hq
      · exact hz x hx

theorem npUniqueIdx_lt {xs : List ℤ} {i : ℕ} (h : i ∈ npUniqueIdx xs) : i < xs.length := by
  unfold npUniqueIdx at h
  obtain ⟨v, hv, rfl⟩ := List.mem_map.mp h
  exact List.idxOf_lt_length_of_mem (List.mem_dedup.mp ((stableSort_perm id _).mem_iff.mp hv))

theorem mapM_zip {β : Type} (f : β → ℤ) (new : List β) (is : List ℕ) (hb : ∀ i ∈ is, i < new.length) :
    ∃ cs, is.mapM (pyGet ((new.map f).zip new)) = .ok cs ∧ cs.map (fun c => c.1) = is.map fun i => ((new.map f)[i]?).getD 0 := by
  induction is with
  | nil => exact ⟨[], rfl, rfl⟩
  | cons i is ih =>
    obtain ⟨cs, h1, h2⟩ := ih fun j hj => hb j (by simp [hj])
    have hi := hb i (by simp)
    have hz : i < ((new.map f).zip new).length := by simpa using hi
    refine ⟨((new.map f).zip new)[i] :: cs, ?_, ?_⟩
    · rw [List.mapM_cons]
      have : pyGet ((new.map f).zip new) i = .ok ((new.map f).zip new)[i] := by unfold pyGet; rw [List.getElem?_eq_getElem hz]
      rw [this]
      simp only [bind, Except.bind, h1, pure, Except.pure]
    · simp [h2, List.getElem?_eq_getElem hi]

/-- The blocks of the coordinates kept are the blocks met, each once, in increasing order. -/
theorem mapM_fst {β : Type} {f : β → ℤ} {new : List β} {cand : List (ℤ × β)}
    (h : (npUniqueIdx (new.map f)).mapM (pyGet ((new.map f).zip new)) = .ok cand) :
    (cand.map fun c => c.1) = stableSort id (new.map f).dedup := by
  obtain ⟨cs, h1, h2⟩ := mapM_zip f new (npUniqueIdx (new.map f)) (fun i hi => by have := npUniqueIdx_lt hi; simpa using this)
  obtain rfl := Except.ok.inj (h1.symm.trans h)
  rw [h2]
  unfold npUniqueIdx
  rw [List.map_map]
  conv_rhs => rw [← List.map_id (stableSort id (new.map f).dedup)]
  refine List.map_congr_left fun v hv => ?_
  have hv' : v ∈ new.map f := List.mem_dedup.mp ((stableSort_perm id _).mem_iff.mp hv)
  have hl := List.idxOf_lt_length_of_mem hv'
  simp only [Function.comp_apply, id_eq]
  rw [List.getElem?_eq_getElem hl, Option.getD_some, List.getElem_idxOf]

namespace Batch

/-! ## masks -/

theorem select_cons {α : Type} (b : Bool) (mask : List Bool) (x : α) (xs : List α) :
    select (b :: mask) (x :: xs) = if b then x :: select mask xs else select mask xs := by
  cases b <;> rfl

theorem select_map {α β : Type} (f : α → β) (mask : List Bool) (xs : List α) : select mask (xs.map f) = (select mask xs).map f := by
  induction xs generalizing mask with
  | nil => cases mask <;> rfl
  | cons x xs ih =>
    cases mask with
    | nil => rfl
    | cons b mask =>
      rw [List.map_cons, select_cons, select_cons, ih]
      cases b <;> rfl

theorem select_length {α : Type} (mask : List Bool) (xs : List α) (h : mask.length = xs.length) :
    (select mask xs).length = mask.count true := by
  induction xs generalizing mask with
  | nil => cases mask with
    | nil => rfl
    | cons b mask => simp at h
  | cons x xs ih =>
    cases mask with
    | nil => simp at h
    | cons b mask =>
      rw [select_cons]
      have := ih mask (by simpa using h)
      cases b <;> simp [this]

theorem select_false {α β : Type} (l : List β) (xs : List α) : select (l.map fun _ => false) xs = [] := by
  induction xs generalizing l with
  | nil => cases l <;> rfl
  | cons x xs ih =>
    cases l with
    | nil => rfl
    | cons b l => rw [List.map_cons, select_cons, if_neg (by simp), ih]

theorem select_trunc {α : Type} (r : ℕ) (mask : List Bool) (xs : List α) :
    ∀ c, c ≤ r → select (truncMask r c mask) xs = (select mask xs).take (r - c) := by
  induction mask generalizing xs with
  | nil => intro c hc; simp [truncMask, select]
  | cons b mask ih =>
    intro c hc
    cases xs with
    | nil => simp [select]
    | cons x xs =>
      unfold truncMask
      split_ifs with h
      · have hb : b = true := by cases b <;> simp at h ⊢; omega
        subst hb
        have : r - c = 0 := by simp at h; omega
        rw [select_false, this, List.take_zero]
      · cases b with
        | false => rw [select_cons, select_cons]; simpa using ih xs c hc
        | true =>
          simp only [Bool.toNat_true, not_lt] at h
          rw [select_cons, select_cons, if_pos rfl, if_pos rfl, Bool.toNat_true, ih xs (c + 1) h]
          rw [show r - c = (r - (c + 1)) + 1 by omega, List.take_succ_cons]

theorem dropMask_length (near : ℤ → ℤ → Bool) (l : List (Bool × ℤ)) : (dropMask near l).length = l.length := by
  induction l with
  | nil => rfl
  | cons a l ih => simp [dropMask, ih]

theorem select_drop {α : Type} (near : ℤ → ℤ → Bool) (l : List (Bool × ℤ × α)) :
    (∀ x ∈ select (dropMask near (l.map fun x => (x.1, x.2.1))) (l.map fun x => x.2), (true, x) ∈ l) ∧
      (select (dropMask near (l.map fun x => (x.1, x.2.1))) (l.map fun x => x.2)).Pairwise fun x y => ¬ near x.1 y.1 = true := by
  induction l with
  | nil => exact ⟨by simp [select], by simp [select]⟩
  | cons a l ih =>
    obtain ⟨a, x⟩ := a
    rw [List.map_cons, List.map_cons, dropMask, select_cons]
    split_ifs with h
    · rw [Bool.and_eq_true, Bool.not_eq_true', List.any_eq_false] at h
      refine ⟨?_, List.pairwise_cons.mpr ⟨?_, ih.2⟩⟩
      · intro y hy
        rcases List.mem_cons.mp hy with rfl | hy
        · simp only [List.mem_cons, Prod.mk.injEq, and_true]; exact .inl h.1.symm
        · exact List.mem_cons_of_mem _ (ih.1 y hy)
      · intro y hy hn
        have := h.2 (true, y.1) (List.mem_map.mpr ⟨_, ih.1 y hy, rfl⟩)
        simp only [Bool.true_and] at this
        exact this hn
    · exact ⟨fun y hy => List.mem_cons_of_mem _ (ih.1 y hy), ih.2⟩

theorem select_drop_ne {α : Type} (near : ℤ → ℤ → Bool) (l : List (Bool × ℤ × α)) (x : ℤ × α) (h : (true, x) ∈ l) :
    select (dropMask near (l.map fun x => (x.1, x.2.1))) (l.map fun x => x.2) ≠ [] := by
  induction l generalizing x with
  | nil => cases h
  | cons a l ih =>
    obtain ⟨a, y⟩ := a
    rw [List.map_cons, List.map_cons, dropMask, select_cons]
    split_ifs with hc
    · simp
    · by_cases ha : ∃ z, (true, z) ∈ l
      · exact ih _ ha.choose_spec
      · rcases List.mem_cons.mp h with h | h
        · obtain ⟨rfl, rfl⟩ := Prod.mk.inj h
          exfalso
          apply hc
          rw [Bool.true_and, Bool.not_eq_true', List.any_eq_false]
          intro z hz
          obtain ⟨⟨b, w⟩, hw, rfl⟩ := List.mem_map.mp hz
          cases b with
          | false => simp
          | true => exact absurd ⟨w, hw⟩ ha
        · exact absurd ⟨x, h⟩ ha

theorem select_drop_mem {α : Type} (near : ℤ → ℤ → Bool) (l : List (Bool × ℤ × α)) (x : ℤ × α) (h : (true, x) ∈ l)
    (hx : ∀ y : ℤ × α, (true, y) ∈ l → y ≠ x → ¬ near x.1 y.1 = true) (hd : (l.map fun x => x.2).Nodup) :
    x ∈ select (dropMask near (l.map fun x => (x.1, x.2.1))) (l.map fun x => x.2) := by
  induction l with
  | nil => cases h
  | cons a l ih =>
    obtain ⟨a, y⟩ := a
    rw [List.map_cons, List.nodup_cons] at hd
    rw [List.map_cons, List.map_cons, dropMask, select_cons]
    rcases List.mem_cons.mp h with h | h
    · obtain ⟨rfl, rfl⟩ := Prod.mk.inj h
      rw [if_pos]
      · simp
      · rw [Bool.true_and, Bool.not_eq_true', List.any_eq_false]
        intro z hz
        obtain ⟨⟨b, w⟩, hw, rfl⟩ := List.mem_map.mp hz
        cases b with
        | false => simp
        | true =>
          simp only [Bool.true_and]
          refine hx w (List.mem_cons_of_mem _ hw) ?_
          rintro rfl
          exact hd.1 (List.mem_map.mpr ⟨_, hw, rfl⟩)
    · have := ih h (fun y hy => hx y (List.mem_cons_of_mem _ hy)) hd.2
      split_ifs
      · exact List.mem_cons_of_mem _ this
      · exact this

theorem mem_appendVoxels (bs : List ℤ) (t i : ℕ) : ∀ (k : ℕ) (v : ℕ → List ℕ),
    i ∈ appendVoxels bs k v t ↔ i ∈ v t ∨ ∃ j b, bs[j]? = some b ∧ i = k + j ∧ t = b.toNat := by
  induction bs with
  | nil => intro k v; simp [appendVoxels]
  | cons b bs ih =>
    intro k v
    rw [appendVoxels, ih]
    constructor
    · rintro (h | ⟨j, b', h1, h2, h3⟩)
      · split_ifs at h with ht
        · rcases List.mem_append.mp h with h | h
          · exact .inl h
          · exact .inr ⟨0, b, rfl, by simpa using h, ht⟩
        · exact .inl h
      · exact .inr ⟨j + 1, b', by simpa using h1, by omega, h3⟩
    · rintro (h | ⟨j, b', h1, h2, h3⟩)
      · left; split_ifs
        · exact List.mem_append_left _ h
        · exact h
      · cases j with
        | zero =>
          left
          obtain rfl : b = b' := by simpa using h1
          rw [if_pos h3]; simp [h2]
        | succ j => exact .inr ⟨j, b', by simpa using h1, by omega, h3⟩

section
variable {K : Type} [Field K] [LinearOrder K] [IsStrictOrderedRing K] [FloorRing K]
open Amo (cell CellNear numBlocks pDist cell_lt cellAt)

/-! ## blocks -/

/-- Position of a cell in the one-dimensional list. -/
def flat (n t : ℕ × ℕ × ℕ) : ℕ := t.1 + n.1 * t.2.1 + n.1 * n.2.1 * t.2.2

theorem flat_encode {n t : ℕ × ℕ × ℕ} (h1 : t.1 < n.1) (h2 : t.2.1 < n.2.1) (h3 : t.2.2 < n.2.2) :
    flat n t < n.1 * n.2.1 * n.2.2 ∧ flat n t % n.1 = t.1 ∧ flat n t / n.1 % n.2.1 = t.2.1 ∧ flat n t / (n.1 * n.2.1) = t.2.2 :=
  Grid.encode h1 h2 h3

theorem block_eq {dims p : V3 K} {s : K} (hs : 0 < s) (hp : InBox dims p) :
    block s (numBlocks s dims) p = (flat (numBlocks s dims) (cell s p) : ℕ) := by
  have g1 := Int.toNat_of_nonneg (Amo.floor_nonneg' hs hp.1.1)
  have g2 := Int.toNat_of_nonneg (Amo.floor_nonneg' hs hp.2.1.1)
  have g3 := Int.toNat_of_nonneg (Amo.floor_nonneg' hs hp.2.2.1)
  unfold block flat cell cellAt
  push_cast
  rw [g1, g2, g3]
  ring

theorem mem_nbrs {dims p : V3 K} {s : K} (hs : 0 < s) (hp : InBox dims p) :
    ∃ l, nbrs (numBlocks s dims) (block s (numBlocks s dims) p) = .ok l ∧
      (∀ t ∈ l, ∃ u : ℕ, t = u) ∧
      ∀ q, InBox dims q → (block s (numBlocks s dims) q ∈ l ↔ CellNear (numBlocks s dims) (cell s p) (cell s q)) := by
  obtain ⟨p1, p2, p3⟩ := cell_lt hs hp
  obtain ⟨e0, e1, e2, e3⟩ := flat_encode p1 p2 p3
  refine ⟨Grid.row (numBlocks s dims).1 (numBlocks s dims).2.1 (numBlocks s dims).2.2 true true false (flat (numBlocks s dims) (cell s p)),
    ?_, ?_, ?_⟩
  · unfold nbrs
    rw [block_eq hs hp, if_pos ⟨by omega, by exact_mod_cast e0⟩]
    rfl
  · intro t ht
    rw [Grid.C57_neighbours _ _ _ _ _ _ _ e0] at ht
    obtain ⟨u, hu, -⟩ := ht
    exact ⟨u, hu⟩
  · intro q hq
    obtain ⟨q1, q2, q3⟩ := cell_lt hs hq
    obtain ⟨f0, f1, f2, f3⟩ := flat_encode q1 q2 q3
    rw [block_eq hs hq, Grid.C57_neighbours _ _ _ _ _ _ _ e0]
    unfold VoxelNear CellNear
    constructor
    · rintro ⟨u, hu, -, h1, h2, h3⟩
      obtain rfl : flat (numBlocks s dims) (cell s q) = u := by exact_mod_cast hu
      rw [e1, f1] at h1
      rw [e2, f2] at h2
      rw [e3, f3] at h3
      exact ⟨h1, h2, h3⟩
    · rintro ⟨h1, h2, h3⟩
      refine ⟨_, rfl, f0, ?_⟩
      rw [e1, e2, e3, f1, f2, f3]
      exact ⟨h1, h2, h3⟩

/-- What holds of the state between batches. -/
structure Inv (dims : V3 K) (s : K) (st : State K) : Prop where
  box : ∀ p ∈ st.coords, InBox dims p
  acc : st.accepted = st.coords.length
  vox : ∀ t i, i ∈ st.voxels t ↔ ∃ p, st.coords[i]? = some p ∧ flat (numBlocks s dims) (cell s p) = t

theorem compareParts_spec {dims p : V3 K} {s : K} {st : State K} (hs : 0 < s) (h : Inv dims s st) (hp : InBox dims p) :
    ∃ ps, compareParts (numBlocks s dims) st (block s (numBlocks s dims) p) = .ok ps ∧
      ∀ q, q ∈ ps ↔ q ∈ st.coords ∧ CellNear (numBlocks s dims) (cell s p) (cell s q) := by
  obtain ⟨l, hl, hnat, hmem⟩ := mem_nbrs hs hp
  obtain ⟨ps, hps, -, hps'⟩ := mapM_pyGet st.coords (l.flatMap fun t => st.voxels t.toNat) (by
    intro i hi
    obtain ⟨t, -, hi⟩ := List.mem_flatMap.mp hi
    obtain ⟨p, hp, -⟩ := (h.vox _ i).mp hi
    exact (List.getElem?_eq_some_iff.mp hp).1)
  refine ⟨ps, ?_, ?_⟩
  · unfold compareParts
    simp only [hl, bind, Except.bind, hps]
  · intro q
    rw [hps']
    constructor
    · rintro ⟨i, hi, e⟩
      obtain ⟨t, ht, hi⟩ := List.mem_flatMap.mp hi
      obtain ⟨q', hq', ht'⟩ := (h.vox _ i).mp hi
      rw [e] at hq'
      obtain rfl := Option.some.inj hq'
      have hb := h.box _ (List.mem_of_getElem? e)
      obtain ⟨u, rfl⟩ := hnat t ht
      refine ⟨List.mem_of_getElem? e, (hmem _ hb).mp ?_⟩
      rw [block_eq hs hb, ht']
      exact ht
    · rintro ⟨hq, hnear⟩
      obtain ⟨i, hi, rfl⟩ := List.mem_iff_getElem.mp hq
      have hb := h.box _ hq
      refine ⟨i, List.mem_flatMap.mpr ⟨_, (hmem _ hb).mpr hnear, ?_⟩, List.getElem?_eq_getElem hi⟩
      rw [h.vox]
      exact ⟨_, List.getElem?_eq_getElem hi, by rw [block_eq hs hb]; rfl⟩

/-- The rows that fill up the table of coordinates are never too close. -/
theorem padding_far {dims p : V3 K} {m : K} (hm : 0 ≤ m) (hm' : m < 1000) (hp : 0 ≤ p.z) : m ^ 2 < pDist dims padding p := by
  unfold pDist padding
  simp only [min_self]
  have h1 : (1000 : K) ≤ |-1000 - p.z| := by rw [abs_of_nonpos (by linarith)]; linarith
  have h2 : (1000 : K) ^ 2 ≤ |-1000 - p.z| ^ 2 := pow_le_pow_left₀ (by norm_num) h1 2
  have h3 : m ^ 2 < 1000 ^ 2 := pow_lt_pow_left₀ hm' hm (by norm_num)
  nlinarith [sq_nonneg (min |-1000 - p.x| (dims.x - |-1000 - p.x|)), sq_nonneg (min |-1000 - p.y| (dims.y - |-1000 - p.y|))]

/-- One batch: nothing is raised; the accepted atoms are drawn ones, no two of them in neighbouring cells, each far from the
earlier atoms of neighbouring cells. -/
theorem step_spec {dims : V3 K} {m s : K} {numC : ℕ} {st : State K} {new : List (V3 K)} (hs : 0 < s) (h : Inv dims s st)
    (hn : ∀ p ∈ new, InBox dims p) :
    ∃ (acc : List (V3 K)) (v : ℕ → List ℕ),
      step dims m s numC st new = .ok ⟨st.coords ++ acc.take (numC - st.accepted), v, st.accepted + acc.length⟩ ∧
      (∀ p ∈ acc, InBox dims p) ∧
      acc.Pairwise (fun p q => ¬ CellNear (numBlocks s dims) (cell s q) (cell s p)) ∧
      (∀ p ∈ acc, ∀ q ∈ st.coords, CellNear (numBlocks s dims) (cell s p) (cell s q) → m ^ 2 < pDist dims q p) ∧
      (∀ t i, i ∈ v t ↔ ∃ p, (st.coords ++ acc)[i]? = some p ∧ flat (numBlocks s dims) (cell s p) = t) ∧
      (0 ≤ m → m < 1000 → ∀ (i : ℕ) (p : V3 K), new[i]? = some p → (∀ (j : ℕ), j < i → ∀ q : V3 K, new[j]? = some q → cell s q ≠ cell s p) →
        (∀ q ∈ st.coords, CellNear (numBlocks s dims) (cell s p) (cell s q) → m ^ 2 < pDist dims q p) →
        acc ≠ [] ∧ ((∀ (j : ℕ) (q : V3 K), new[j]? = some q → j ≠ i → CellNear (numBlocks s dims) (cell s q) (cell s p) →
          ∃ a ∈ st.coords, CellNear (numBlocks s dims) (cell s q) (cell s a) ∧ pDist dims a q ≤ m ^ 2) → p ∈ acc)) := by
  set n := numBlocks s dims with hnn
  obtain ⟨cand, hcand, -, hcand'⟩ := mapM_pyGet ((new.map (block s n)).zip new) (npUniqueIdx (new.map (block s n)))
    (fun i hi => by have := npUniqueIdx_lt hi; simpa using this)
  have hc : ∀ c ∈ cand, c.1 = block s n c.2 ∧ InBox dims c.2 := by
    intro c hc
    obtain ⟨i, -, hi⟩ := (hcand' c).mp hc
    rw [List.getElem?_zip_eq_some] at hi
    obtain ⟨h1, h2⟩ := hi
    rw [List.getElem?_map, h2] at h1
    exact ⟨(Option.some.inj h1).symm, hn _ (List.mem_of_getElem? h2)⟩
  obtain ⟨parts, hparts, hlen, hpz⟩ := mapM_spec (f := fun c : ℤ × V3 K => compareParts n st c.1)
    (Q := fun c ps => ∀ q, q ∈ ps ↔ q ∈ st.coords ∧ CellNear n (cell s c.2) (cell s q)) cand (by
    intro c hc'
    obtain ⟨h1, h2⟩ := hc c hc'
    simp only [h1]
    exact compareParts_spec hs h h2)
  set mx := (parts.map List.length).foldl max 0 with hmx
  set l := (parts.zip cand).map fun x => (passes dims m mx x.1 x.2.2, x.2) with hl
  have hl1 : ((parts.zip cand).map fun x => passes dims m mx x.1 x.2.2).zip (cand.map fun c => c.1) = l.map fun x => (x.1, x.2.1) := by
    conv_lhs => rw [show (cand.map fun c => c.1) = ((parts.zip cand).map fun x => x.2.1) by
      conv_lhs => rw [← List.map_snd_zip (l₁ := parts) (l₂ := cand) hlen.ge]
      rw [List.map_map]; rfl]
    rw [List.zip_map', hl, List.map_map]
    rfl
  have hl2 : cand = l.map fun x => x.2 := by
    rw [hl, List.map_map]
    conv_lhs => rw [← List.map_snd_zip (l₁ := parts) (l₂ := cand) hlen.ge]
    rfl
  set f2 := dropMask (nearBlock n) (l.map fun x => (x.1, x.2.1)) with hf2
  obtain ⟨hin, hpw⟩ := select_drop (nearBlock n) l
  rw [← hf2, ← hl2] at hin hpw
  have hf2len : f2.length = cand.length := by rw [hf2, dropMask_length, hl2]; simp
  have hcount : f2.count true = ((select f2 cand).map fun c => c.2).length := by
    rw [List.length_map, select_length _ _ hf2len]
  have hmemc : ∀ c ∈ select f2 cand, c ∈ cand := fun c hc => by
    rw [hl2]; exact List.mem_map.mpr ⟨_, hin c hc, rfl⟩
  refine ⟨(select f2 cand).map fun c => c.2, appendVoxels ((select f2 cand).map fun c => c.1) st.accepted st.voxels, ?_, ?_, ?_, ?_, ?_, ?_⟩
  · unfold step
    simp only [← hnn, hcand, hparts, bind, Except.bind, pure, Except.pure]
    rw [← hmx, hl1, ← hf2]
    have h1 : select (if numC < f2.count true + st.accepted then truncMask (numC - st.accepted) 0 f2 else f2) (cand.map fun c => c.2) =
        ((select f2 cand).map fun c => c.2).take (numC - st.accepted) := by
      split_ifs with hc
      · rw [select_trunc _ _ _ 0 (Nat.zero_le _), Nat.sub_zero, select_map]
      · rw [select_map, List.take_of_length_le]
        rw [← hcount]; omega
    rw [h1, select_map, hcount]
  · intro p hp
    obtain ⟨c, hc', rfl⟩ := List.mem_map.mp hp
    exact (hc c (hmemc c hc')).2
  · rw [List.pairwise_map]
    refine hpw.imp_of_mem ?_
    intro a b ha hb hab hcn
    apply hab
    obtain ⟨a1, a2⟩ := hc a (hmemc a ha)
    obtain ⟨b1, b2⟩ := hc b (hmemc b hb)
    obtain ⟨lb, hlb, -, hlb'⟩ := mem_nbrs hs b2
    rw [b1]
    unfold nearBlock
    rw [← hnn] at hlb hlb'
    rw [hlb]
    simp only [List.contains_iff_mem]
    rw [a1]
    exact (hlb' _ a2).mpr hcn
  · intro p hp q hq hcn
    obtain ⟨c, hc', rfl⟩ := List.mem_map.mp hp
    obtain ⟨x, hx, e⟩ := List.mem_map.mp (hin c hc')
    obtain ⟨e1, rfl⟩ := Prod.mk.inj e
    have hq' := (hpz x hx q).mpr ⟨hq, hcn⟩
    unfold passes at e1
    rw [List.all_eq_true] at e1
    simpa using e1 q (List.mem_append_left _ hq')
  · intro t i
    rw [mem_appendVoxels, h.vox, h.acc]
    constructor
    · rintro (⟨p, hp, ht⟩ | ⟨j, b, hj, rfl, rfl⟩)
      · exact ⟨p, by rw [List.getElem?_append_left (List.getElem?_eq_some_iff.mp hp).1]; exact hp, ht⟩
      · rw [List.getElem?_map] at hj
        obtain ⟨c, hc1, rfl⟩ := Option.map_eq_some_iff.mp hj
        refine ⟨c.2, ?_, ?_⟩
        · rw [List.getElem?_append_right (by omega), Nat.add_sub_cancel_left, List.getElem?_map, hc1]; rfl
        · obtain ⟨h1, h2⟩ := hc c (hmemc c (List.mem_of_getElem? hc1))
          rw [h1, hnn, block_eq hs h2]
          rfl
    · rintro ⟨p, hp, ht⟩
      by_cases hi : i < st.coords.length
      · rw [List.getElem?_append_left hi] at hp
        exact .inl ⟨p, hp, ht⟩
      · right
        rw [List.getElem?_append_right (by omega), List.getElem?_map] at hp
        obtain ⟨c, hc1, rfl⟩ := Option.map_eq_some_iff.mp hp
        refine ⟨i - st.coords.length, c.1, by rw [List.getElem?_map, hc1]; rfl, by omega, ?_⟩
        obtain ⟨h1, h2⟩ := hc c (hmemc c (List.mem_of_getElem? hc1))
        rw [h1, hnn, block_eq hs h2, ← ht]
        rfl
  · intro hm hm' i p hi hfirst hfar
    have hp : InBox dims p := hn p (List.mem_of_getElem? hi)
    have hblk : ∀ (j : ℕ) (q : V3 K), new[j]? = some q → (new.map (block s n))[j]? = some (block s n q) := fun j q hj => by rw [List.getElem?_map, hj]; rfl
    have hidx : (new.map (block s n)).idxOf (block s n p) = i := by
      have hlt : i < new.length := (List.getElem?_eq_some_iff.mp hi).1
      have hmem : block s n p ∈ new.map (block s n) := List.mem_map.mpr ⟨p, List.mem_of_getElem? hi, rfl⟩
      have hl' := List.idxOf_lt_length_of_mem hmem
      rw [List.length_map] at hl'
      rcases lt_trichotomy ((new.map (block s n)).idxOf (block s n p)) i with h1 | h1 | h1
      · exfalso
        have e : (new.map (block s n))[(new.map (block s n)).idxOf (block s n p)]'(by simpa using hl') = block s n p :=
          List.getElem_idxOf (by simpa using hl')
        rw [List.getElem_map] at e
        have hq := List.getElem?_eq_getElem hl'
        refine hfirst _ h1 _ hq ?_
        have hqb : InBox dims _ := hn _ (List.mem_of_getElem? hq)
        generalize new[List.idxOf (block s n p) (List.map (block s n) new)]'hl' = w at e hqb ⊢
        rw [hnn, block_eq hs hqb, block_eq hs hp] at e
        have e' : flat (numBlocks s dims) (cell s w) = flat (numBlocks s dims) (cell s p) := by exact_mod_cast e
        obtain ⟨a1, a2, a3⟩ := cell_lt hs hqb
        obtain ⟨b1, b2, b3⟩ := cell_lt hs hp
        obtain ⟨-, c1, c2, c3⟩ := flat_encode a1 a2 a3
        obtain ⟨-, d1, d2, d3⟩ := flat_encode b1 b2 b3
        rw [e'] at c1 c2 c3
        exact Prod.ext (c1.symm.trans d1) (Prod.ext (c2.symm.trans d2) (c3.symm.trans d3))
      · exact h1
      · exfalso
        have := List.not_of_lt_findIdx (show i < List.findIdx (· == block s n p) (new.map (block s n)) from h1)
        rw [List.getElem_map] at this
        have e := (List.getElem?_eq_some_iff.mp hi).2
        rw [e] at this
        simp at this
    have hmemc' : (block s n p, p) ∈ cand := by
      rw [hcand']
      refine ⟨i, ?_, ?_⟩
      · unfold npUniqueIdx
        refine List.mem_map.mpr ⟨block s n p, (stableSort_perm id _).mem_iff.mpr (List.mem_dedup.mpr (List.mem_map.mpr ⟨p, List.mem_of_getElem? hi, rfl⟩)), hidx⟩
      · rw [List.getElem?_zip_eq_some]
        exact ⟨hblk i p hi, hi⟩
    have hinl : (true, (block s n p, p)) ∈ l := by
      rw [hl2] at hmemc'
      obtain ⟨⟨b, c⟩, hb, rfl⟩ := List.mem_map.mp hmemc'
      have hb' := hb
      rw [hl] at hb
      obtain ⟨y, hy, e⟩ := List.mem_map.mp hb
      obtain ⟨e1, e2⟩ := Prod.mk.inj e
      have : b = true := by
        rw [← e1]
        unfold passes
        rw [List.all_eq_true]
        intro q hq
        rw [decide_eq_true_eq, e2]
        rcases List.mem_append.mp hq with hq | hq
        · obtain ⟨q1, q2⟩ := (hpz y hy q).mp hq
          rw [e2] at q2
          exact hfar q q1 q2
        · rw [(List.mem_replicate.mp hq).2]
          exact padding_far hm hm' hp.2.2.1
      rw [← this]
      exact hb'
    refine ⟨?_, ?_⟩
    · have := select_drop_ne (nearBlock n) l _ hinl
      rw [← hf2, ← hl2] at this
      simpa using this
    · intro halone
      have hnd : (l.map fun x => x.2).Nodup := by
        rw [← hl2]
        have : (cand.map fun c => c.1) = stableSort id (new.map (block s n)).dedup := by
          exact mapM_fst hcand
        refine List.Nodup.of_map (fun c => c.1) ?_
        rw [this]
        exact (stableSort_perm id _).nodup_iff.mpr (List.nodup_dedup _)
      have := select_drop_mem (nearBlock n) l _ hinl ?_ hnd
      · rw [← hf2, ← hl2] at this
        exact List.mem_map.mpr ⟨_, this, rfl⟩
      · intro y hy hne hnear
        have hyc : y ∈ cand := by rw [hl2]; exact List.mem_map.mpr ⟨_, hy, rfl⟩
        obtain ⟨y1, y2⟩ := hc y hyc
        obtain ⟨j, -, hj⟩ := (hcand' y).mp hyc
        rw [List.getElem?_zip_eq_some] at hj
        have hji : j ≠ i := by
          rintro rfl
          apply hne
          have h2 : y.2 = p := Option.some.inj (hj.2.symm.trans hi)
          exact Prod.ext (by rw [y1, h2]) h2
        obtain ⟨lb, hlb, -, hlb'⟩ := mem_nbrs hs y2
        rw [← hnn] at hlb hlb'
        unfold nearBlock at hnear
        rw [y1, hlb] at hnear
        simp only [List.contains_iff_mem] at hnear
        obtain ⟨a, ha, ha1, ha2⟩ := halone j y.2 hj.2 hji ((hlb' _ hp).mp hnear)
        obtain ⟨x, hx, e⟩ := List.mem_map.mp hy
        obtain ⟨e1, rfl⟩ := Prod.mk.inj e
        unfold passes at e1
        rw [List.all_eq_true] at e1
        have := e1 a (List.mem_append_left _ ((hpz x hx a).mpr ⟨ha, ha1⟩))
        rw [decide_eq_true_eq] at this
        exact absurd this (not_lt.mpr ha2)

theorem loop_result {dims : V3 K} {m s : K} {numC : ℕ} {rng : ℕ → List (V3 K)} (hs : 0 < s)
    (hrng : ∀ k, ∀ p ∈ (rng k).map (Amo.scale dims), InBox dims p) (P : List (V3 K) → Prop)
    (hP : ∀ (ps acc : List (V3 K)) (r : ℕ), (∀ p ∈ ps, InBox dims p) → (∀ p ∈ acc, InBox dims p) → P ps →
      acc.Pairwise (fun p q => ¬ CellNear (numBlocks s dims) (cell s q) (cell s p)) →
      (∀ p ∈ acc, ∀ q ∈ ps, CellNear (numBlocks s dims) (cell s p) (cell s q) → m ^ 2 < pDist dims q p) →
      P (ps ++ acc.take r))
    (fuel : ℕ) : ∀ (k : ℕ) (st : State K), (st.accepted < numC → Inv dims s st) → P st.coords → (∀ p ∈ st.coords, InBox dims p) →
      st.coords.length = min st.accepted numC →
      (∀ e, loop dims m s numC rng fuel k st ≠ some (.error e)) ∧
      ∀ ps, loop dims m s numC rng fuel k st = some (.ok ps) → P ps ∧ (∀ p ∈ ps, InBox dims p) ∧ ps.length = numC := by
  have done : ∀ (st : State K), ¬ st.accepted < numC → P st.coords → (∀ p ∈ st.coords, InBox dims p) →
      st.coords.length = min st.accepted numC →
      (∀ e, (some (.ok st.coords) : Option (Py (List (V3 K)))) ≠ some (.error e)) ∧
      ∀ ps, (some (.ok st.coords) : Option (Py (List (V3 K)))) = some (.ok ps) → P ps ∧ (∀ p ∈ ps, InBox dims p) ∧ ps.length = numC := by
    intro st hc hp hb hl
    refine ⟨by simp, fun ps h => ?_⟩
    obtain rfl := Except.ok.inj (Option.some.inj h)
    exact ⟨hp, hb, by omega⟩
  induction fuel with
  | zero =>
    intro k st hi hp hb hl
    unfold loop
    split_ifs with hc
    · exact ⟨by simp, by simp⟩
    · exact done st hc hp hb hl
  | succ fuel ih =>
    intro k st hi hp hb hl
    unfold loop
    split_ifs with hc
    · simp only
      obtain ⟨acc, v, h1, h2, h3, h4, h5, -⟩ := step_spec (m := m) (numC := numC) hs (hi hc) (hrng k)
      rw [h1]
      have hacc := (hi hc).acc
      refine ih (k + 1) _ ?_ ?_ ?_ ?_
      · intro hlt
        simp only at hlt ⊢
        have htake : acc.take (numC - st.accepted) = acc := List.take_of_length_le (by omega)
        rw [htake]
        refine ⟨?_, by simp [hacc], h5⟩
        intro p hp'
        rcases List.mem_append.mp hp' with hp' | hp'
        · exact hb p hp'
        · exact h2 p hp'
      · exact hP _ _ _ hb h2 hp h3 h4
      · intro p hp'
        rcases List.mem_append.mp hp' with hp' | hp'
        · exact hb p hp'
        · exact h2 p (List.mem_of_mem_take hp')
      · simp only [List.length_append, List.length_take]
        omega
    · exact done st hc hp hb hl

theorem inv_init (dims : V3 K) (s : K) : Inv dims s ⟨[], fun _ => [], 0⟩ := ⟨by simp, rfl, by simp⟩

theorem gen_result {dims : V3 K} {m density scale : K} {rng : ℕ → List (V3 K)} (hs : 0 < m * scale)
    (hd : 0 ≤ dims.x ∧ 0 ≤ dims.y ∧ 0 ≤ dims.z) (hden : 0 ≤ density) (hrng : ∀ k, ∀ u ∈ rng k, Amo.Unit u)
    (P : List (V3 K) → Prop) (h0 : P [])
    (hP : ∀ (ps acc : List (V3 K)) (r : ℕ), (∀ p ∈ ps, InBox dims p) → (∀ p ∈ acc, InBox dims p) → P ps →
      acc.Pairwise (fun p q => ¬ CellNear (numBlocks (m * scale) dims) (cell (m * scale) q) (cell (m * scale) p)) →
      (∀ p ∈ acc, ∀ q ∈ ps, CellNear (numBlocks (m * scale) dims) (cell (m * scale) p) (cell (m * scale) q) → m ^ 2 < pDist dims q p) →
      P (ps ++ acc.take r))
    (fuel : ℕ) : (∀ e, gen dims m density scale rng fuel ≠ some (.error e)) ∧
      ∀ ps, gen dims m density scale rng fuel = some (.ok ps) → P ps ∧ (∀ p ∈ ps, InBox dims p) ∧
        |(ps.length : K) - dims.x * dims.y * dims.z * density| ≤ 1 / 2 := by
  have hv : 0 ≤ dims.x * dims.y * dims.z * density := mul_nonneg (mul_nonneg (mul_nonneg hd.1 hd.2.1) hd.2.2) hden
  have hn := npRound_nonneg hv
  have hr := npRound_near (dims.x * dims.y * dims.z * density)
  unfold gen
  simp only [if_neg (not_lt.mpr hn)]
  have hcast : ((npRound (dims.x * dims.y * dims.z * density)).toNat : K) = (npRound (dims.x * dims.y * dims.z * density) : K) := by
    have := Int.toNat_of_nonneg hn
    exact_mod_cast congrArg (Int.cast : ℤ → K) this
  by_cases hz : dims.x * dims.y * dims.z = 0
  · have hzero : npRound (dims.x * dims.y * dims.z * density) = 0 := by
      rw [hz, zero_mul]; simpa using npRound_int (K := K) 0
    rw [hzero, hz]
    have : ∀ fuel k, loop dims m (m * scale) (0 : ℤ).toNat rng fuel k ⟨[], fun _ => [], 0⟩ = some (.ok []) := by
      intro fuel k; unfold loop; simp
    rw [this]
    refine ⟨by simp, fun ps h => ?_⟩
    obtain rfl := Except.ok.inj (Option.some.inj h)
    exact ⟨h0, by simp, by simp⟩
  · have hpos : 0 < dims.x ∧ 0 < dims.y ∧ 0 < dims.z := by
      refine ⟨hd.1.lt_of_ne' ?_, hd.2.1.lt_of_ne' ?_, hd.2.2.lt_of_ne' ?_⟩ <;> intro h <;> apply hz <;> rw [h] <;> simp
    obtain ⟨h1, h2⟩ := loop_result (numC := (npRound (dims.x * dims.y * dims.z * density)).toNat) hs
      (fun k p hp => by
        obtain ⟨u, hu, rfl⟩ := List.mem_map.mp hp
        exact Amo.scale_box hpos (hrng k u hu)) P hP fuel 0 ⟨[], fun _ => [], 0⟩ (fun _ => inv_init dims _) h0 (by simp) (by simp)
    refine ⟨h1, fun ps h => ?_⟩
    obtain ⟨a, b, c⟩ := h2 ps h
    exact ⟨a, b, by rw [c, hcast]; exact hr⟩

theorem pairwise_append_take {α : Type} {R : α → α → Prop} {xs ys : List α} (r : ℕ) (h : xs.Pairwise R) (hy : ys.Pairwise R)
    (hx : ∀ y ∈ ys, ∀ x ∈ xs, R x y) : (xs ++ ys.take r).Pairwise R := by
  rw [List.pairwise_append]
  exact ⟨h, hy.sublist (List.take_sublist _ _), fun a ha b hb => hx b (List.mem_of_mem_take hb) a ha⟩

/-- Cells larger than the minimal distance: close points lie in neighbouring cells. -/
theorem cellNear_of_close {dims p q : V3 K} {m s : K} (hm : 0 < m) (hms : m ≤ s) (hp : InBox dims p) (hq : InBox dims q)
    (h : sqDist p q < m ^ 2) : CellNear (numBlocks s dims) (cell s p) (cell s q) :=
  Amo.cellNear_of_close (hm.trans_le hms) hp hq (h.trans_le (pow_le_pow_left₀ hm.le hms 2))

/-- **C62.** With `voxel_scale` at least one, `gen_p_substrate_batched` never raises, and in every result any two atoms are at
least `min_dist` apart, all lie in the box, and their number is the rounded product of volume and density: for every stream
of batches of any size. -/
theorem C62_separation (dims : V3 K) (m density scale : K) (rng : ℕ → List (V3 K)) (hm : 0 < m) (hsc : 1 ≤ scale)
    (hd : 0 ≤ dims.x ∧ 0 ≤ dims.y ∧ 0 ≤ dims.z) (hden : 0 ≤ density) (hrng : ∀ k, ∀ u ∈ rng k, Amo.Unit u) (fuel : ℕ) :
    (∀ e, gen dims m density scale rng fuel ≠ some (.error e)) ∧
      ∀ ps, gen dims m density scale rng fuel = some (.ok ps) → Apart m ps ∧ (∀ p ∈ ps, InBox dims p) ∧
        |(ps.length : K) - dims.x * dims.y * dims.z * density| ≤ 1 / 2 := by
  have hms : m ≤ m * scale := le_mul_of_one_le_right hm.le hsc
  refine gen_result (hm.trans_le hms) hd hden hrng (Apart m) List.Pairwise.nil ?_ fuel
  intro ps acc r hb hacc hp hpw hfar
  refine pairwise_append_take r hp ?_ ?_
  · refine hpw.imp_of_mem ?_
    intro p q hp hq hn
    by_contra hlt
    rw [not_le] at hlt
    exact hn (cellNear_of_close hm hms (hacc q hq) (hacc p hp) (by unfold sqDist at hlt ⊢; linarith))
  · intro p hp q hq
    by_contra hlt
    rw [not_le] at hlt
    have := hfar p hp q hq (cellNear_of_close hm hms (hacc p hp) (hb q hq) (by unfold sqDist at hlt ⊢; linarith))
    have := (Amo.pDist_least dims q p (hb q hq) (hacc p hp)).2 (Amo.sqDist_mem dims q p)
    linarith

/-- **C62 (negative count).** A volume times density below -1/2 raises ValueError. -/
theorem C62_negative (dims : V3 K) (m density scale : K) (rng : ℕ → List (V3 K)) (h : dims.x * dims.y * dims.z * density < -(1 / 2)) (fuel : ℕ) :
    gen dims m density scale rng fuel = some (.error .value) := by
  have hr := abs_le.mp (npRound_near (dims.x * dims.y * dims.z * density))
  have : npRound (dims.x * dims.y * dims.z * density) < 0 := by
    have : (npRound (dims.x * dims.y * dims.z * density) : K) < 0 := by linarith [hr.2]
    exact_mod_cast this
  unfold gen
  simp only [if_pos this]

/-- **C62 (periodic, partial).** The same across the periodic boundary when the box lengths along x and y are whole multiples of
the voxel size or at most three times it.  Missing: other boxes, for which it is false (`C62_periodic_refuted`). -/
theorem C62_periodic_partial (dims : V3 K) (m density scale : K) (rng : ℕ → List (V3 K)) (hm : 0 < m) (hsc : 1 ≤ scale)
    (hd : 0 ≤ dims.x ∧ 0 ≤ dims.y ∧ 0 ≤ dims.z) (hden : 0 ≤ density) (hrng : ∀ k, ∀ u ∈ rng k, Amo.Unit u)
    (hx : WholeCells (m * scale) dims.x) (hy : WholeCells (m * scale) dims.y) (fuel : ℕ) (ps : List (V3 K))
    (h : gen dims m density scale rng fuel = some (.ok ps)) : ApartXY dims m ps := by
  have hms : m ≤ m * scale := le_mul_of_one_le_right hm.le hsc
  have hs : 0 < m * scale := hm.trans_le hms
  have hsq : m ^ 2 ≤ (m * scale) ^ 2 := pow_le_pow_left₀ hm.le hms 2
  refine ((gen_result hs hd hden hrng (ApartXY dims m) List.Pairwise.nil ?_ fuel).2 ps h).1
  intro ps acc r hb hacc hp hpw hfar
  refine pairwise_append_take r hp ?_ ?_
  · refine hpw.imp_of_mem ?_
    intro p q hp hq hn s hs'
    by_contra hlt
    rw [not_le] at hlt
    exact hn (Amo.cellNear_of_image hs hx hy (hacc q hq) (hacc p hp) (by rw [Amo.images_comm]; exact hs') (hlt.trans_le hsq))
  · intro p hp q hq s hs'
    by_contra hlt
    rw [not_le] at hlt
    have := hfar p hp q hq (Amo.cellNear_of_image hs hx hy (hacc p hp) (hb q hq) (by rw [Amo.images_comm]; exact hs') (hlt.trans_le hsq))
    have := (Amo.pDist_least dims q p (hb q hq) (hacc p hp)).2 hs'
    linarith

end

/-- **C62, finding.** Default `voxel_scale` 2, box of 6.4 minimal distances along x: atoms at 0.1 and 5.9 are accepted although
across the boundary they are only 0.6 apart. -/
theorem C62_periodic_refuted :
    gen (⟨32 / 5, 1, 1⟩ : V3 ℚ) 1 (5 / 16) 2 (fun k => if k = 0 then [⟨1 / 64, 0, 0⟩] else [⟨59 / 64, 0, 0⟩]) 2 =
        some (.ok [⟨1 / 10, 0, 0⟩, ⟨59 / 10, 0, 0⟩]) ∧
      ¬ ApartXY (⟨32 / 5, 1, 1⟩ : V3 ℚ) 1 [⟨1 / 10, 0, 0⟩, ⟨59 / 10, 0, 0⟩] := by
  refine ⟨by decide +kernel, fun h => ?_⟩
  have := List.rel_of_pairwise_cons h (a' := ⟨59 / 10, 0, 0⟩) (by simp) (9 / 25)
    ⟨-1, 0, 0, by simp, by simp, by simp, by norm_num⟩
  norm_num at this

/-- **C62, limit.** With `voxel_scale` 1/4 (the function does not check it) atoms half the minimal distance apart are accepted. -/
theorem C62_scale_refuted :
    gen (⟨2, 1, 1⟩ : V3 ℚ) 1 1 (1 / 4) (fun k => if k = 0 then [⟨1 / 2, 0, 0⟩] else [⟨3 / 4, 0, 0⟩]) 2 =
        some (.ok [⟨1, 0, 0⟩, ⟨3 / 2, 0, 0⟩]) ∧ ¬ Apart (1 : ℚ) [⟨1, 0, 0⟩, ⟨3 / 2, 0, 0⟩] := by
  refine ⟨by decide +kernel, fun h => ?_⟩
  have := List.rel_of_pairwise_cons h (a' := ⟨3 / 2, 0, 0⟩) (by simp)
  unfold sqDist at this
  norm_num at this

/-- Concrete case: in the first batch the second point shares the block of the first, the fourth is dropped for the fifth's sake;
in the second batch one point is too close to an earlier atom, and of the two good ones only one is still needed. -/
example : gen (⟨20, 20, 4⟩ : V3 ℚ) 1 (3 / 1600) 2
    (fun k => [[⟨1 / 10, 1 / 10, 0⟩, ⟨11 / 100, 1 / 10, 0⟩, ⟨1 / 2, 1 / 2, 0⟩, ⟨6 / 10, 1 / 2, 0⟩],
      [⟨61 / 100, 1 / 2, 0⟩, ⟨3 / 10, 8 / 10, 0⟩, ⟨7 / 10, 8 / 10, 0⟩]].getD k []) 2 =
    some (.ok [⟨2, 2, 0⟩, ⟨12, 10, 0⟩, ⟨6, 16, 0⟩]) := by decide +kernel

end Batch
end CZ
