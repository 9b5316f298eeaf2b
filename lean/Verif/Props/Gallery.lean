import Verif.Gallery
import Verif.Props.Studio

/-!
# Property C128: volumes shared between MultiVolumes and scenes
-/

namespace CZ
open Spec

namespace Gallery
open Studio (CertainGen Leaves Made tree_again tree_certain vol_again vol_certain)

/-! ## specification -/

/-- `r` is a Volume, or a MultiVolume of volumes, nested at most `k` deep. -/
def Deep (f : ℕ → Node) : ℕ → ℕ → Prop
  | 0, _ => False
  | k + 1, r =>
    match f r with
    | .vol _ => True
    | .multi vs _ _ => ∀ v ∈ vs, Deep f k v
    | .mol _ => False

/-- What a scene may hold. -/
def Sound (f : ℕ → Node) (k r : ℕ) : Prop := (0 < k ∧ ∃ m, f r = .mol m) ∨ Deep f k r

/-- `x` is `r`, or in `r`, or in a MultiVolume in `r`, … -/
inductive Under (f : ℕ → Node) : ℕ → ℕ → Prop
  | refl (r : ℕ) : Under f r r
  | step {r q x : ℕ} {vs : List ℕ} {p : ℤ} {h : Option (List (V3 ℝ) × List ℤ)} (e : f r = .multi vs p h) (hq : q ∈ vs) (hx : Under f q x) : Under f r x

/-! ## values -/

/-- The tree after `populate_atoms`. -/
noncomputable def pop (env : Env) (t : VTree) : VTree := (t.populate env 0).1

/-- How `populate_atoms` of the tree ends. -/
noncomputable def status (env : Env) (t : VTree) : Py Unit := (t.populate env 0).2.2

/-- How a loop ends whose passes end as `st` says. -/
def seqStatus {α : Type} (st : α → Py Unit) : List α → Py Unit
  | [] => .ok ()
  | a :: l => match st a with
    | .ok () => seqStatus st l
    | .error e => .error e

theorem seqStatus_ok {α : Type} {st : α → Py Unit} : ∀ {l : List α}, seqStatus st l = .ok () ↔ ∀ a ∈ l, st a = .ok ()
  | [] => by simp [seqStatus]
  | a :: l => by
    rw [seqStatus]
    cases h : st a with
    | error e => simp [h]
    | ok u => simp [h, seqStatus_ok (l := l)]

theorem seqStatus_map {α β : Type} (st : β → Py Unit) (g : α → β) : ∀ l : List α, seqStatus st (l.map g) = seqStatus (fun a => st (g a)) l
  | [] => rfl
  | a :: l => by
    rw [List.map_cons, seqStatus, seqStatus, seqStatus_map st g l]

theorem populateList_certain (env : Env) : ∀ (ts : List VTree), (∀ t ∈ ts, Leaves CertainGen t) → ∀ n,
    (VTree.populateList env ts n).2.2 = seqStatus (status env) ts ∧
    (seqStatus (status env) ts = .ok () → (VTree.populateList env ts n).1 = ts.map (pop env))
  | [], _, n => ⟨rfl, fun _ => rfl⟩
  | t :: ts, h, n => by
    obtain ⟨h1, h2⟩ := tree_certain (env := env) (h t List.mem_cons_self) n 0
    rcases e1 : t.populate env n with ⟨t', n1, o⟩
    rw [e1] at h1 h2
    simp only at h1 h2
    have h2' : status env t = o := h2.symm
    rw [VTree.populateList, e1, seqStatus, h2']
    cases o with
    | error e => exact ⟨rfl, fun h => by cases h⟩
    | ok u =>
      obtain ⟨e2, e3⟩ := populateList_certain env ts (fun x hx => h x (List.mem_cons_of_mem _ hx)) n1
      exact ⟨e2, fun ho => by simp only [e3 ho, List.map_cons]; rw [h1]; rfl⟩

theorem vol_priority (env : Env) (v : Vol) (n : ℕ) : (v.populate env n).1.priority = v.priority := by
  unfold Vol.populate
  cases v.boundingBox env with
  | error e => rfl
  | ok b =>
    cases v.gen with
    | none => rfl
    | some g =>
      simp only
      rcases g.supply env n b with ⟨g', o⟩
      cases o with
      | error e => rfl
      | ok r =>
        simp only
        cases npMask (Vol.check env { v with gen := some g' } r.1) r.1 <;>
          cases npMask (Vol.check env { v with gen := some g' } r.1) r.2 <;> rfl

theorem pop_priority (env : Env) (t : VTree) : (pop env t).priority = t.priority := by
  cases t with
  | vol v => simp only [pop, VTree.populate, VTree.priority, vol_priority]
  | multi vs p h =>
    unfold pop
    rw [VTree.populate]
    rcases VTree.populateList env vs 0 with ⟨vs', n', o⟩
    cases o with
    | error e => rfl
    | ok u =>
      simp only
      cases VTree.resolve env (stableSort VTree.priority vs') <;> rfl

/-- A MultiVolume of deterministic volumes, populated. -/
theorem status_multi (env : Env) (ts : List VTree) (p : ℤ) (h : Option (List (V3 ℝ) × List ℤ)) (hk : ∀ t ∈ ts, Leaves CertainGen t) :
    (∃ e, seqStatus (status env) ts = .error e ∧ status env (.multi ts p h) = .error e) ∨
    (seqStatus (status env) ts = .ok () ∧
      ((∃ e, VTree.resolve env ((stableSort VTree.priority ts).map (pop env)) = .error e ∧ status env (.multi ts p h) = .error e) ∨
        ∃ x, VTree.resolve env ((stableSort VTree.priority ts).map (pop env)) = .ok x ∧ status env (.multi ts p h) = .ok () ∧
          pop env (.multi ts p h) = .multi ((stableSort VTree.priority ts).map (pop env)) p (some x))) := by
  have hs : stableSort VTree.priority (ts.map (pop env)) = (stableSort VTree.priority ts).map (pop env) :=
    (stableSort_map VTree.priority VTree.priority (pop env) ts (by intro x y; rw [pop_priority, pop_priority])).symm
  obtain ⟨e1, e2⟩ := populateList_certain env ts hk 0
  unfold status pop
  rw [VTree.populate]
  rcases hl : VTree.populateList env ts 0 with ⟨ts', n', o⟩
  rw [hl] at e1 e2
  simp only at e1 e2
  cases o with
  | error e => exact .inl ⟨e, e1.symm, rfl⟩
  | ok u =>
    right
    have e3 := e2 e1.symm
    subst e3
    refine ⟨e1.symm, ?_⟩
    simp only [hs]
    show (∃ e, VTree.resolve env ((stableSort VTree.priority ts).map (pop env)) = _ ∧ _) ∨ ∃ x, VTree.resolve env ((stableSort VTree.priority ts).map (pop env)) = _ ∧ _
    cases hr : VTree.resolve env ((stableSort VTree.priority ts).map (pop env)) with
    | error e => exact .inl ⟨e, rfl, rfl⟩
    | ok x => exact .inr ⟨x, rfl, rfl, rfl⟩

/-! ## the store -/

theorem insertByKey_congr {α : Type} {key key' : α → ℤ} (a : α) : ∀ l : List α, key a = key' a → (∀ x ∈ l, key x = key' x) →
    insertByKey key a l = insertByKey key' a l
  | [], _, _ => rfl
  | b :: l, ha, h => by
    rw [insertByKey, insertByKey, ha, h b List.mem_cons_self, insertByKey_congr a l ha fun x hx => h x (List.mem_cons_of_mem _ hx)]

theorem stableSort_congr {α : Type} {key key' : α → ℤ} : ∀ l : List α, (∀ x ∈ l, key x = key' x) → stableSort key l = stableSort key' l
  | [], _ => rfl
  | a :: l, h => by
    rw [stableSort, stableSort, stableSort_congr l fun x hx => h x (List.mem_cons_of_mem _ hx)]
    exact insertByKey_congr a _ (h a List.mem_cons_self) fun x hx => h x (List.mem_cons_of_mem _ (mem_stableSort.mp hx))

theorem Deep.succ {f : ℕ → Node} : ∀ {k r : ℕ}, Deep f k r → Deep f (k + 1) r
  | 0, _, h => h.elim
  | k + 1, r, h => by
    rw [Deep] at h ⊢
    cases e : f r with
    | vol v => trivial
    | mol m => rw [e] at h; exact h
    | multi vs p hd => rw [e] at h; exact fun v hv => (h v hv).succ

theorem Deep.le {f : ℕ → Node} {k l r : ℕ} (h : Deep f k r) (hl : k ≤ l) : Deep f l r := by
  induction hl with
  | refl => exact h
  | step _ ih => exact ih.succ

theorem Deep.child {f : ℕ → Node} {k r q : ℕ} {vs : List ℕ} {p : ℤ} {hd : Option (List (V3 ℝ) × List ℤ)} (h : Deep f (k + 1) r)
    (e : f r = .multi vs p hd) (hq : q ∈ vs) : Deep f k q := by
  rw [Deep, e] at h; exact h q hq

theorem tree_succ {f : ℕ → Node} : ∀ {k r : ℕ}, Deep f k r → tree f (k + 1) r = tree f k r
  | 0, _, h => h.elim
  | k + 1, r, h => by
    rw [tree, tree]
    cases e : f r with
    | vol v => rfl
    | mol m => rfl
    | multi vs p hd =>
      simp only [VTree.multi.injEq, and_true]
      exact List.map_congr_left fun v hv => tree_succ (h.child e hv)

theorem tree_le {f : ℕ → Node} {k l r : ℕ} (h : Deep f k r) (hl : k ≤ l) : tree f l r = tree f k r := by
  induction hl with
  | refl => rfl
  | step hl ih => rw [tree_succ (h.le hl), ih]

/-- What `populate_atoms` makes of the object `q`. -/
noncomputable def goal (env : Env) (f : ℕ → Node) (K q : ℕ) : Node :=
  match f q with
  | .mol m => .mol m
  | .vol v => .vol (v.populate env 0).1
  | .multi vs p _ => .multi (stableSort (fun x => (f x).priority) vs) p (pop env (tree f K q)).held

theorem goal_priority (env : Env) (f : ℕ → Node) (K q : ℕ) : (goal env f K q).priority = (f q).priority := by
  unfold goal
  cases f q with
  | mol m => rfl
  | vol v => exact vol_priority env v 0
  | multi vs p h => rfl

/-- Everything in `q` has been populated. -/
def Done (env : Env) (f : ℕ → Node) (K : ℕ) (h : ℕ → Node) (q : ℕ) : Prop := ∀ x, Under f q x → h x = goal env f K x

/-- Every object is as at the beginning or populated, with all that is in it. -/
def Inv (env : Env) (f : ℕ → Node) (K : ℕ) (h : ℕ → Node) : Prop :=
  ∀ q, h q = f q ∨ (Done env f K h q ∧ ((∃ m, f q = .mol m) ∨ status env (tree f K q) = .ok ()))

theorem Done.mono {env : Env} {f h h' : ℕ → Node} {K q : ℕ} (hd : Done env f K h q) (hm : ∀ x, h' x = h x ∨ h' x = goal env f K x) :
    Done env f K h' q := by
  intro x hx
  rcases hm x with e | e
  · rw [e]; exact hd x hx
  · exact e

theorem Inv.priority {env : Env} {f h : ℕ → Node} {K : ℕ} (hi : Inv env f K h) (q : ℕ) : (h q).priority = (f q).priority := by
  rcases hi q with e | ⟨e, -⟩
  · rw [e]
  · rw [e q (.refl q), goal_priority]

theorem tree_priority {f : ℕ → Node} {k r : ℕ} (h : Deep f k r) : (tree f k r).priority = (f r).priority := by
  cases k with
  | zero => exact h.elim
  | succ k =>
    rw [Deep] at h
    rw [tree]
    cases e : f r with
    | vol v => rfl
    | mol m => rw [e] at h; exact h.elim
    | multi vs p hd => rfl

theorem sort_trees {f : ℕ → Node} {k : ℕ} {vs : List ℕ} (h : ∀ v ∈ vs, Deep f k v) :
    stableSort VTree.priority (vs.map (tree f k)) = (stableSort (fun x => (f x).priority) vs).map (tree f k) := by
  rw [← stableSort_map (fun x => (tree f k x).priority) VTree.priority (tree f k) vs (fun x y => Iff.rfl)]
  congr 1
  exact stableSort_congr vs fun v hv => tree_priority (h v hv)

/-- The objects in `r` whose generators satisfy `P`: the leaves of the value. -/
theorem leaves_child {P : GenObj → Prop} {f : ℕ → Node} {k r q : ℕ} {vs : List ℕ} {p : ℤ} {hd : Option (List (V3 ℝ) × List ℤ)}
    (hl : Leaves P (tree f (k + 1) r)) (e : f r = .multi vs p hd) (hq : q ∈ vs) : Leaves P (tree f k q) := by
  rw [tree, e] at hl
  cases hl with
  | multi _ _ _ h => exact h _ (List.mem_map_of_mem hq)

theorem tree_done {env : Env} {f h : ℕ → Node} {K : ℕ} : ∀ {k r : ℕ}, k ≤ K → Deep f k r → Leaves CertainGen (tree f k r) →
    status env (tree f k r) = .ok () → Done env f K h r → tree h k r = pop env (tree f k r)
  | 0, _, _, hd, _, _, _ => hd.elim
  | k + 1, r, hk, hd, hl, hs, hg => by
    have hr := hg r (.refl r)
    have hK := tree_le hd hk
    rw [tree, hr]
    unfold goal
    rw [hK]
    cases e : f r with
    | mol m => rw [Deep, e] at hd; exact hd.elim
    | vol v =>
      rw [tree, e]; rfl
    | multi vs p hh =>
      have ht : tree f (k + 1) r = .multi (vs.map (tree f k)) p hh := by rw [tree, e]
      simp only
      rw [ht] at hs hl ⊢
      have hc : ∀ t ∈ vs.map (tree f k), Leaves CertainGen t := by
        cases hl with
        | multi _ _ _ h => exact h
      rcases status_multi env (vs.map (tree f k)) p hh hc with ⟨e', -, h1⟩ | ⟨h1, ⟨e', -, h2⟩ | ⟨x, h2, h3, h4⟩⟩
      · rw [hs] at h1; cases h1
      · rw [hs] at h2; cases h2
      · rw [h4]
        simp only [VTree.held, VTree.multi.injEq, and_true, true_and]
        rw [sort_trees fun v hv => hd.child e hv, List.map_map]
        refine List.map_congr_left fun v hv => ?_
        have hv' := mem_stableSort.mp hv
        exact tree_done (by omega) (hd.child e hv') (hc _ (List.mem_map_of_mem hv')) (seqStatus_ok.mp h1 _ (List.mem_map_of_mem hv'))
          fun x hx => hg x (.step e hv' hx)

/-- What is to be shown of a call that populates the object `r` whose value is `t`: it ends like that of the value, and if it returns all that is in
`r` has been populated. -/
def Fills (env : Env) (f : ℕ → Node) (K : ℕ) (h : ℕ → Node) (rs : List ℕ) (st : Py Unit) (res : (ℕ → Node) × ℕ × Py Unit) : Prop :=
  res.2.2 = st ∧ (st = .ok () → Inv env f K res.1 ∧ (∀ r ∈ rs, Done env f K res.1 r) ∧ ∀ x, res.1 x = h x ∨ res.1 x = goal env f K x)

/-- Names whose values are handled by `call` are handled one after the other. -/
theorem each_fills {env : Env} {f : ℕ → Node} {K : ℕ} {call : ℕ → (ℕ → Node) → ℕ → (ℕ → Node) × ℕ × Py Unit} {st : ℕ → Py Unit} :
    ∀ (rs : List ℕ), (∀ r ∈ rs, ∀ h n, Inv env f K h → Fills env f K h [r] (st r) (call r h n)) → ∀ h n, Inv env f K h →
      Fills env f K h rs (seqStatus st rs) (each call rs h n)
  | [], _, h, n, hi => ⟨rfl, fun _ => ⟨hi, by simp, fun x => .inl rfl⟩⟩
  | r :: rs, hc, h, n, hi => by
    obtain ⟨h1, h2⟩ := hc r List.mem_cons_self h n hi
    rcases e1 : call r h n with ⟨h', n', o⟩
    rw [e1] at h1 h2
    simp only at h1 h2
    rw [each, e1, seqStatus, ← h1]
    cases o with
    | error e => exact ⟨rfl, fun h => by cases h⟩
    | ok u =>
      obtain ⟨i1, i2, i3⟩ := h2 h1.symm
      obtain ⟨j1, j2⟩ := each_fills rs (fun q hq => hc q (List.mem_cons_of_mem _ hq)) h' n' i1
      refine ⟨j1, fun ho => ?_⟩
      obtain ⟨k1, k2, k3⟩ := j2 ho
      refine ⟨k1, fun q hq => ?_, fun x => ?_⟩
      · rcases List.mem_cons.mp hq with rfl | hq
        · exact (i2 _ List.mem_cons_self).mono k3
        · exact k2 q hq
      · rcases k3 x with k | k
        · simp only; rw [k]; exact i3 x
        · exact .inr k

open Classical in
theorem node_fills {env : Env} {f : ℕ → Node} {K : ℕ} : ∀ {k r : ℕ}, k ≤ K → Deep f k r → Leaves CertainGen (tree f k r) → ∀ h n, Inv env f K h →
    Fills env f K h [r] (status env (tree f k r)) (populateNode env k r h n)
  | 0, _, _, hd, _, _, _, _ => hd.elim
  | k + 1, r, hk, hd, hl, h, n, hi => by
    have hK := tree_le hd hk
    cases e : f r with
    | mol m => rw [Deep, e] at hd; exact hd.elim
    | vol v =>
      have ht : tree f (k + 1) r = .vol v := by rw [tree, e]
      rw [ht] at hl ⊢
      have hc : ∀ g, v.gen = some g → CertainGen g := by cases hl with | vol _ h => exact h
      have hgoal : goal env f K r = .vol (v.populate env 0).1 := by unfold goal; rw [e]
      have hst : status env (.vol v) = (v.populate env 0).2 := rfl
      have hup : ∀ w, (w = v ∨ ((v.populate env 0).2 = .ok () ∧ w = (v.populate env 0).1)) → w.populate env n = v.populate env 0 := by
        rintro w (rfl | ⟨ho, rfl⟩)
        · exact vol_certain hc n 0
        · rw [(vol_again hc (Prod.ext rfl ho)).2 n]; exact Prod.ext rfl ho.symm
      have hcell : ∃ w, h r = .vol w ∧ w.populate env n = v.populate env 0 := by
        rcases hi r with h1 | ⟨h1, h2⟩
        · exact ⟨v, by rw [h1, e], hup v (.inl rfl)⟩
        · refine ⟨_, by rw [h1 r (.refl r), hgoal], hup _ (.inr ⟨?_, rfl⟩)⟩
          rcases h2 with ⟨m, h2⟩ | h2
          · rw [e] at h2; cases h2
          · rw [hK, ht] at h2; exact h2
      obtain ⟨w, hw, hp⟩ := hcell
      rw [populateNode, hw]
      simp only [hp]
      refine ⟨hst.symm, fun ho => ?_⟩
      have hdone : Done env f K (Function.update h r (.vol (v.populate env 0).1)) r := by
        intro x hx
        cases hx with
        | refl => rw [Function.update_self, hgoal]
        | step e' _ _ => rw [e] at e'; cases e'
      have hmono : ∀ x, Function.update h r (.vol (v.populate env 0).1) x = h x ∨ Function.update h r (.vol (v.populate env 0).1) x = goal env f K x := by
        intro x
        by_cases hx : x = r
        · subst hx; right; rw [Function.update_self, hgoal]
        · left; rw [Function.update_of_ne hx]
      refine ⟨fun q => ?_, fun q hq => ?_, hmono⟩
      · by_cases hq : q = r
        · subst hq; exact .inr ⟨hdone, .inr (by rw [hK, ht]; exact ho)⟩
        · rcases hi q with h1 | ⟨h1, h2⟩
          · left; simp only; rw [Function.update_of_ne hq, h1]
          · exact .inr ⟨h1.mono hmono, h2⟩
      · rw [List.mem_singleton] at hq; subst hq; exact hdone
    | multi vs p hh =>
      have ht : tree f (k + 1) r = .multi (vs.map (tree f k)) p hh := by rw [tree, e]
      have hch : ∀ v ∈ vs, Deep f k v := fun v hv => hd.child e hv
      have hlv : ∀ v ∈ vs, Leaves CertainGen (tree f k v) := fun v hv => leaves_child hl e hv
      let S := stableSort (fun x => (f x).priority) vs
      have hgoal : goal env f K r = .multi S p (pop env (tree f K r)).held := by unfold goal; rw [e]
      have hcell : ∃ ws hd', h r = .multi ws p hd' ∧ (∀ v, v ∈ ws ↔ v ∈ vs) ∧ stableSort (fun x => (f x).priority) ws = S ∧
          (ws = vs ∨ status env (tree f (k + 1) r) = .ok ()) := by
        rcases hi r with h1 | ⟨h1, h2⟩
        · exact ⟨vs, hh, by rw [h1, e], fun v => Iff.rfl, rfl, .inl rfl⟩
        · refine ⟨S, _, by rw [h1 r (.refl r), hgoal], fun v => mem_stableSort, Scene.stableSort_of_sorted _ _ (stableSort_sorted _ _), .inr ?_⟩
          rcases h2 with ⟨m, h2⟩ | h2
          · rw [e] at h2; cases h2
          · rw [← hK]; exact h2
      obtain ⟨ws, hd', hw, hmem, hsort, hor⟩ := hcell
      have hloop := each_fills (env := env) (f := f) (K := K) (call := populateNode env k) (st := fun v => status env (tree f k v)) ws
        (fun v hv h n hi => node_fills (by omega) (hch v ((hmem v).mp hv)) (hlv v ((hmem v).mp hv)) h n hi) h n hi
      have hcert : ∀ t ∈ vs.map (tree f k), Leaves CertainGen t := by
        intro t ht'; obtain ⟨v, hv, rfl⟩ := List.mem_map.mp ht'; exact hlv v hv
      have hseq : seqStatus (fun v => status env (tree f k v)) ws = seqStatus (status env) (vs.map (tree f k)) := by
        rw [seqStatus_map]
        rcases hor with rfl | hor
        · rfl
        · have hall : seqStatus (fun v => status env (tree f k v)) vs = .ok () := by
            rw [ht] at hor
            rcases status_multi env (vs.map (tree f k)) p hh hcert with ⟨e', -, h1⟩ | ⟨h1, -⟩
            · rw [hor] at h1; cases h1
            · rw [← seqStatus_map]; exact h1
          rw [hall, seqStatus_ok]
          exact fun v hv => seqStatus_ok.mp hall v ((hmem v).mp hv)
      rw [hseq] at hloop
      rw [populateNode, hw]
      simp only
      rcases hres : each (populateNode env k) ws h n with ⟨h', n', o⟩
      rw [hres] at hloop
      obtain ⟨l1, l2⟩ := hloop
      simp only at l1 l2
      rw [ht]
      rcases status_multi env (vs.map (tree f k)) p hh hcert with ⟨e', s1, s2⟩ | ⟨s1, s2⟩
      · rw [s1] at l1; subst l1
        rw [s2]
        exact ⟨rfl, fun h => by cases h⟩
      · rw [s1] at l1; subst l1
        obtain ⟨i1, i2, i3⟩ := l2 s1
        simp only
        have hS : stableSort (fun q => (h' q).priority) ws = S := by
          rw [← hsort]; exact stableSort_congr ws fun x _ => i1.priority x
        have htrees : S.map (tree h' k) = (stableSort VTree.priority (vs.map (tree f k))).map (pop env) := by
          rw [sort_trees hch, List.map_map]
          refine List.map_congr_left fun v hv => ?_
          have hv' := mem_stableSort.mp hv
          exact tree_done (by omega) (hch v hv') (hlv v hv') (seqStatus_ok.mp s1 _ (List.mem_map_of_mem hv')) (i2 v ((hmem v).mpr hv'))
        rw [hS, htrees]
        rcases s2 with ⟨e', s2, s3⟩ | ⟨x, s2, s3, s4⟩
        · rw [s2, s3]
          exact ⟨rfl, fun h => by cases h⟩
        · rw [s2, s3]
          simp only
          have hg : Node.multi S p (some x) = goal env f K r := by
            rw [hgoal, hK, ht, s4]; rfl
          rw [hg]
          refine ⟨rfl, fun _ => ?_⟩
          have hm1 : ∀ y, Function.update h' r (goal env f K r) y = h' y ∨ Function.update h' r (goal env f K r) y = goal env f K y := by
            intro y
            by_cases hy : y = r
            · subst hy; right; rw [Function.update_self]
            · left; rw [Function.update_of_ne hy]
          have hdone : Done env f K (Function.update h' r (goal env f K r)) r := by
            intro y hy
            cases hy with
            | refl => rw [Function.update_self]
            | step e' hq hy =>
              rw [e] at e'; cases e'
              exact (i2 _ ((hmem _).mpr hq)).mono hm1 y hy
          refine ⟨fun q => ?_, fun q hq => ?_, fun y => ?_⟩
          · by_cases hq : q = r
            · subst hq; exact .inr ⟨hdone, .inr (by rw [hK, ht]; exact s3)⟩
            · rcases i1 q with h1 | ⟨h1, h2⟩
              · left; simp only; rw [Function.update_of_ne hq, h1]
              · exact .inr ⟨h1.mono hm1, h2⟩
          · rw [List.mem_singleton] at hq; subst hq; exact hdone
          · rcases hm1 y with h1 | h1
            · simp only; rw [h1]; exact i3 y
            · exact .inr h1

/-! ## scenes -/

/-- An object after `populate_atoms`. -/
noncomputable def popItem (env : Env) (x : Item) : Item := (x.populate env 0).1

/-- How `populate_atoms` of an object ends. -/
noncomputable def itemStatus (env : Env) (x : Item) : Py Unit := (x.populate env 0).2.2

theorem items_certain (env : Env) : ∀ (xs : List Item), (∀ x ∈ xs, Made CertainGen x) → ∀ n,
    (Item.populateList env xs n).2.2 = seqStatus (itemStatus env) xs ∧
    (seqStatus (itemStatus env) xs = .ok () → (Item.populateList env xs n).1 = xs.map (popItem env))
  | [], _, n => ⟨rfl, fun _ => rfl⟩
  | x :: xs, h, n => by
    have hx : (x.populate env n).1 = popItem env x ∧ (x.populate env n).2.2 = itemStatus env x := by
      cases x with
      | mol m => exact ⟨rfl, rfl⟩
      | vol t =>
        obtain ⟨h1, h2⟩ := tree_certain (env := env) (t := t) (h _ List.mem_cons_self) n 0
        exact ⟨congrArg Item.vol h1, h2⟩
    obtain ⟨h1, h2⟩ := hx
    rcases e1 : x.populate env n with ⟨t', n1, o⟩
    rw [e1] at h1 h2
    simp only at h1 h2
    rw [Item.populateList, e1, seqStatus, ← h2]
    cases o with
    | error e => exact ⟨rfl, fun h => by cases h⟩
    | ok u =>
      obtain ⟨e2, e3⟩ := items_certain env xs (fun x hx => h x (List.mem_cons_of_mem _ hx)) n1
      exact ⟨e2, fun ho => by simp only [e3 ho, List.map_cons]; rw [h1]⟩

theorem item_deep {f : ℕ → Node} {k r : ℕ} (h : Deep f k r) : item f k r = .vol (tree f k r) := by
  cases k with
  | zero => exact h.elim
  | succ k =>
    rw [Deep] at h
    unfold item
    cases e : f r with
    | mol m => rw [e] at h; exact h.elim
    | vol v => rfl
    | multi vs p hd => rfl

theorem item_mol {f : ℕ → Node} {k r : ℕ} {m : Mol ℝ} (h : f r = .mol m) : item f k r = .mol m := by
  unfold item; rw [h]

theorem item_priority {f : ℕ → Node} {k r : ℕ} (h : Sound f k r) : (item f k r).priority = (f r).priority := by
  rcases h with ⟨-, m, h⟩ | h
  · rw [item_mol h, h]; rfl
  · rw [item_deep h]; exact tree_priority h

theorem item_fills {env : Env} {f : ℕ → Node} {k r : ℕ} (hs : Sound f k r) (hm : Made CertainGen (item f k r)) (h : ℕ → Node) (n : ℕ)
    (hi : Inv env f k h) : Fills env f k h [r] (itemStatus env (item f k r)) (populateNode env k r h n) := by
  rcases hs with ⟨hk, m, hs⟩ | hs
  · rw [item_mol hs]
    have hg : goal env f k r = .mol m := by unfold goal; rw [hs]
    have hr : h r = .mol m := by
      rcases hi r with h1 | ⟨h1, -⟩
      · rw [h1, hs]
      · rw [h1 r (.refl r), hg]
    obtain ⟨k, rfl⟩ := Nat.exists_eq_succ_of_ne_zero hk.ne'
    rw [populateNode, hr]
    refine ⟨rfl, fun _ => ⟨hi, fun q hq x hx => ?_, fun x => .inl rfl⟩⟩
    rw [List.mem_singleton] at hq
    subst hq
    cases hx with
    | refl => exact hr.trans hg.symm
    | step e' _ _ => rw [hs] at e'; cases e'
  · rw [item_deep hs] at hm ⊢
    exact node_fills le_rfl hs hm h n hi

theorem item_done {env : Env} {f h : ℕ → Node} {k r : ℕ} (hs : Sound f k r) (hm : Made CertainGen (item f k r))
    (ho : itemStatus env (item f k r) = .ok ()) (hd : Done env f k h r) : item h k r = popItem env (item f k r) := by
  rcases hs with ⟨hk, m, hs⟩ | hs
  · have hg : goal env f k r = .mol m := by unfold goal; rw [hs]
    rw [item_mol hs, item_mol ((hd r (.refl r)).trans hg)]; rfl
  · rw [item_deep hs] at hm ho ⊢
    have ht := tree_done (env := env) (h := h) le_rfl hs hm ho hd
    have hr := hd r (.refl r)
    have : item h k r = .vol (tree h k r) := by
      unfold item
      rw [hr]
      unfold goal
      cases e : f r with
      | mol m => cases k with
        | zero => exact hs.elim
        | succ k => rw [Deep, e] at hs; exact hs.elim
      | vol v => rfl
      | multi vs p hd => rfl
    rw [this, ht]; rfl

theorem popItem_priority (env : Env) (x : Item) : (popItem env x).priority = x.priority := by
  cases x with
  | mol m => rfl
  | vol t => exact pop_priority env t

/-- The store after a loop of `populate_atoms` over the objects `rs` that has ended without an exception. -/
theorem loop_fills {env : Env} {f : ℕ → Node} {k : ℕ} {rs : List ℕ} (hs : ∀ r ∈ rs, Sound f k r) (hm : ∀ r ∈ rs, Made CertainGen (item f k r))
    (n : ℕ) : Fills env f k f rs (seqStatus (itemStatus env) (rs.map (item f k))) (each (populateNode env k) rs f n) := by
  rw [seqStatus_map]
  exact each_fills rs (fun r hr h n hi => item_fills (hs r hr) (hm r hr) h n hi) f n fun q => .inl rfl

/-- **C128 (as if copied).**  A scene holds Volumes, MultiVolumes and Molecules whose generators are deterministic; volumes may be in several
MultiVolumes, in a MultiVolume and in the scene, or in the scene twice.  `populate` ends as it would for a scene of private copies, with the same
exception if any, and if it returns everything the scene holds is what it would be for the copies. -/
theorem C128_as_if_copied_partial (env : Env) (k : ℕ) (s : Gallery) (j : ℕ) (rs : List ℕ) (hr : (s.scene j).objects = some rs)
    (hs : ∀ r ∈ rs, Sound s.node k r) (hm : ∀ r ∈ rs, Made CertainGen (item s.node k r)) (n : ℕ) :
    (s.populate env k j).2 = ((s.world k j).populate env n).2.2 ∧
      ((s.populate env k j).2 = .ok () → (s.populate env k j).1.world k j = ((s.world k j).populate env n).1) := by
  have h0 : (s.world k j).objects = some (rs.map (item s.node k)) := by unfold world; rw [hr]; rfl
  obtain ⟨a1, a2⟩ := items_certain env (rs.map (item s.node k)) (by
    intro x hx; obtain ⟨r, hr', rfl⟩ := List.mem_map.mp hx; exact hm r hr') n
  obtain ⟨b1, b2⟩ := loop_fills (env := env) hs hm s.calls
  unfold populate World.populate
  rw [hr, h0]
  simp only
  rcases e1 : Item.populateList env (rs.map (item s.node k)) n with ⟨xs', n1, o1⟩
  rcases e2 : each (populateNode env k) rs s.node s.calls with ⟨f', n2, o2⟩
  rw [e1] at a1 a2
  rw [e2] at b1 b2
  simp only at a1 a2 b1 b2
  rw [← a1] at b1
  subst b1
  cases o2 with
  | error e => exact ⟨rfl, fun h => by cases h⟩
  | ok u =>
    obtain ⟨i1, i2, -⟩ := b2 a1.symm
    have e3 := a2 a1.symm
    have hprio : stableSort (fun r => (f' r).priority) rs = stableSort (fun r => (s.node r).priority) rs :=
      stableSort_congr rs fun r _ => i1.priority r
    have hitem : ∀ r ∈ rs, item f' k r = popItem env (item s.node k r) := fun r hr' =>
      item_done (hs r hr') (hm r hr') (seqStatus_ok.mp a1.symm _ (List.mem_map_of_mem hr')) (i2 r hr')
    have hx : stableSort Item.priority xs' = (stableSort (fun r => (s.node r).priority) rs).map (item f' k) := by
      have h1 : xs' = rs.map (item f' k) := by
        rw [e3, List.map_map]; exact List.map_congr_left fun r hr' => (hitem r hr').symm
      rw [h1, ← stableSort_map (fun r => (item f' k r).priority) Item.priority (item f' k) rs (fun x y => Iff.rfl)]
      congr 1
      refine stableSort_congr rs fun r hr' => ?_
      rw [hitem r hr', popItem_priority, item_priority (hs r hr')]
    simp only [hx, hprio]
    have hv : ((stableSort (fun r => (s.node r).priority) rs).map (item f' k)).map (Item.view env) =
        (stableSort (fun r => (s.node r).priority) rs).map fun r => Item.view env (item f' k r) := by rw [List.map_map]; rfl
    rw [hv]
    cases Precedence.checks (((stableSort (fun r => (s.node r).priority) rs).map fun r => Item.view env (item f' k r)).map Scene.toObj) with
    | error e => exact ⟨rfl, fun h => by cases h⟩
    | ok c =>
      refine ⟨rfl, fun _ => ?_⟩
      simp only [world, Function.update_self, Option.map_some]

end Gallery
end CZ
