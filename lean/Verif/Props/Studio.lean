import Verif.Studio
import Verif.Props.World
import Verif.Props.VolumeFill
import Verif.Props.SceneIndex

/-!
# Property C120: scenes that share objects
-/

namespace CZ
open Spec

namespace Studio

/-! ## populating an object again -/

/-- Populating the object changes nothing and does not raise. -/
def Steady (env : Env) (x : Item) : Prop := ∀ n, ∃ n', x.populate env n = (x, n', .ok ())

/-- A generator that answers a box the same way whenever it is asked: a crystal whose post transformation (if any) does not read the
random numbers, an amorphous generator (its packing is drawn from a seed that never changes), a null generator. -/
def CertainGen : GenObj → Prop
  | .crystal g => ∀ t, g.post = some t → ∀ r r' ps zs, (t.run r 0 ps zs).2 = (t.run r' 0 ps zs).2
  | .amorphous _ => True
  | .null => True

/-- Every generator in the tree satisfies `P`. -/
inductive Leaves (P : GenObj → Prop) : VTree → Prop
  | vol (v : Vol) (h : ∀ g, v.gen = some g → P g) : Leaves P (.vol v)
  | multi (vs : List VTree) (pr : ℤ) (hd : Option (List (V3 ℝ) × List ℤ)) (h : ∀ t ∈ vs, Leaves P t) : Leaves P (.multi vs pr hd)

/-- The same for what a scene holds; a molecule has no generator. -/
def Made (P : GenObj → Prop) : Item → Prop
  | .vol t => Leaves P t
  | .mol _ => True

theorem scrape_twice (st : HStrain ℝ) (B : M3 ℝ) (o : V3 ℝ) : (st.scrape B o).scrape B o = st.scrape B o := by
  obtain ⟨a, b, c, d, e⟩ := st
  unfold HStrain.scrape
  simp only
  split_ifs <;> simp_all

theorem gen_certain {g : Gen ℝ} (hk : ∀ t, g.post = some t → ∀ r r' ps zs, (t.run r 0 ps zs).2 = (t.run r' 0 ps zs).2)
    (rng rng' : ℕ → ℕ → ℕ → ℝ) (b : List (V3 ℝ)) : g.supply rng b = g.supply rng' b := by
  unfold Gen.supply
  cases hp : g.post with
  | none => rfl
  | some t =>
    have := fun ps zs => hk t hp rng rng' ps zs
    simp only [this]

theorem gen_again {g g' : Gen ℝ} {rng : ℕ → ℕ → ℕ → ℝ} {b : List (V3 ℝ)} {r : List (V3 ℝ) × List ℤ}
    (hk : ∀ t, g.post = some t → ∀ r r' ps zs, (t.run r 0 ps zs).2 = (t.run r' 0 ps zs).2) (h : g.supply rng b = (g', .ok r)) :
    g'.voxel = g.voxel ∧ g'.post = g.post ∧ ∀ rng', g'.supply rng' b = (g', .ok r) := by
  suffices hs : g'.voxel = g.voxel ∧ g'.post = g.post ∧ g'.supply rng b = (g', .ok r) by
    refine ⟨hs.1, hs.2.1, fun rng' => ?_⟩
    rw [gen_certain (fun t ht => hk t (hs.2.1 ▸ ht)) rng' rng]
    exact hs.2.2
  clear hk
  obtain ⟨s, v, st, po⟩ := g
  unfold Gen.supply at h
  simp only at h
  cases v with
  | none => simp at h
  | some v =>
    simp only at h
    cases he : v.getExtents b with
    | error e => simp [he] at h
    | ok ex =>
      rw [he] at h
      simp only at h
      cases s with
      | none => simp at h
      | some s =>
        simp only at h
        cases hr : Gen.rawAtoms v s.sites b with
        | error e => simp [hr] at h
        | ok as =>
          rw [hr] at h
          simp only at h
          cases st with
          | none =>
            simp only [Prod.mk.injEq, Except.ok.injEq] at h
            obtain ⟨rfl, rfl⟩ := h
            refine ⟨rfl, rfl, ?_⟩
            unfold Gen.supply
            simp only [he, hr]
          | some st =>
            simp only at h
            split at h
            · simp at h
            · rename_i ps ha
              simp only [Prod.mk.injEq, Except.ok.injEq] at h
              obtain ⟨rfl, rfl⟩ := h
              refine ⟨rfl, rfl, ?_⟩
              unfold Gen.supply
              simp only [he, hr, scrape_twice, ha]

theorem supply_again {env : Env} {g g' : GenObj} {n : ℕ} {b : BBox} {r : List (V3 ℝ) × List ℤ} (hk : CertainGen g)
    (h : g.supply env n b = (g', .ok r)) : CertainGen g' ∧ ∀ m, g'.supply env m b = (g', .ok r) := by
  cases g with
  | crystal c =>
    unfold GenObj.supply at h
    simp only at h
    cases hv : c.voxel with
    | none => simp [hv] at h
    | some v =>
      rw [hv] at h
      simp only at h
      cases b with
      | rows ps =>
        simp only [Prod.mk.injEq] at h
        obtain ⟨rfl, h2⟩ := h
        obtain ⟨h3, h4, h5⟩ := gen_again hk (Prod.ext rfl h2 : c.supply (env.rng n) ps = ((c.supply (env.rng n) ps).1, .ok r))
        refine ⟨fun t ht => hk t (h4 ▸ ht), fun m => ?_⟩
        unfold GenObj.supply
        simp only [h3, hv, h5]
      | cleared => simp at h
      | single p => simp at h
      | tuple a c => simp at h
      | none => simp at h
  | amorphous a =>
    refine ⟨?_, fun m => ?_⟩
    · unfold GenObj.supply at h
      simp only at h
      split at h
      · simp only [Prod.mk.injEq] at h
        rw [← h.1]; trivial
      · split at h
        · simp at h
        · simp only [Prod.mk.injEq] at h
          rw [← h.1]; trivial
    · obtain ⟨x1, x2, x3, x4, u, o⟩ := a
      unfold GenObj.supply at h
      simp only at h
      cases u <;> cases o <;> simp only at h
      case true.some q =>
        simp only [Prod.mk.injEq, Except.ok.injEq] at h
        obtain ⟨rfl, rfl⟩ := h
        rfl
      all_goals
        split at h
        · simp at h
        · rename_i d hd
          simp only [Prod.mk.injEq, Except.ok.injEq] at h
          obtain ⟨rfl, rfl⟩ := h
          unfold GenObj.supply
          simp only [hd]
  | null =>
    simp only [GenObj.supply, Prod.mk.injEq, Except.ok.injEq] at h
    obtain ⟨rfl, rfl⟩ := h
    exact ⟨trivial, fun m => rfl⟩

theorem supply_certain {env : Env} {g : GenObj} (hk : CertainGen g) (n m : ℕ) (b : BBox) : g.supply env n b = g.supply env m b := by
  cases g with
  | crystal c =>
    unfold GenObj.supply
    cases b <;> simp only [gen_certain hk (env.rng n) (env.rng m)]
  | amorphous a =>
    rfl
  | null => rfl

theorem vol_again {env : Env} {v v' : Vol} {n : ℕ} (hk : ∀ g, v.gen = some g → CertainGen g) (h : v.populate env n = (v', .ok ())) :
    (∀ g, v'.gen = some g → CertainGen g) ∧ ∀ m, v'.populate env m = (v', .ok ()) := by
  unfold Vol.populate at h
  cases hb : v.boundingBox env with
  | error e => simp [hb] at h
  | ok b =>
    rw [hb] at h
    simp only at h
    cases hg : v.gen with
    | none => simp [hg] at h
    | some g =>
      rw [hg] at h
      simp only at h
      rcases hs : g.supply env n b with ⟨g', o⟩
      rw [hs] at h
      cases o with
      | error e => simp at h
      | ok q =>
        obtain ⟨cs, zs⟩ := q
        simp only at h
        obtain ⟨h1, h2⟩ := supply_again (hk g hg) hs
        have hc : ∀ (w : Vol) a s, w = { v with gen := some g', atoms := a, species := s } → w.check env cs = ({ v with gen := some g' } : Vol).check env cs := by
          intro w a s hw; rw [hw]; rfl
        have hbb : ∀ (w : Vol) a s, w = { v with gen := some g', atoms := a, species := s } → w.boundingBox env = .ok b := by
          intro w a s hw; rw [hw, ← hb]; rfl
        cases ha : npMask (({ v with gen := some g' } : Vol).check env cs) cs with
        | error e => simp [ha] at h
        | ok as =>
          cases hz : npMask (({ v with gen := some g' } : Vol).check env cs) zs with
          | error e => simp [ha, hz] at h
          | ok ss =>
            simp only [ha, hz, Prod.mk.injEq, and_true] at h
            refine ⟨?_, fun m => ?_⟩
            · intro g1 hg1
              rw [← h] at hg1
              simp only [Option.some.injEq] at hg1
              exact hg1 ▸ h1
            · have e1 := hbb v' _ _ h.symm
              have e2 := hc v' _ _ h.symm
              have e3 : v'.gen = some g' := by rw [← h]
              have e4 : ({ v' with gen := some g' } : Vol) = v' := by rw [← h]
              have e5 : ({ v' with gen := some g', atoms := some as, species := some ss } : Vol) = v' := by rw [← h]
              unfold Vol.populate
              simp only [e1, e3, h2 m, e4, e2, ha, hz, e5]

theorem vol_certain {env : Env} {v : Vol} (hk : ∀ g, v.gen = some g → CertainGen g) (n m : ℕ) : v.populate env n = v.populate env m := by
  unfold Vol.populate
  cases hb : v.boundingBox env with
  | error e => rfl
  | ok b =>
    cases hg : v.gen with
    | none => rfl
    | some g => simp only [supply_certain (hk g hg) n m b]

/-- A tree that was populated once stays as it is when populated again. -/
theorem tree_again {env : Env} {t : VTree} (hk : Leaves CertainGen t) : ∀ n t' n', t.populate env n = (t', n', .ok ()) →
    Leaves CertainGen t' ∧ ∀ m, ∃ m', t'.populate env m = (t', m', .ok ()) := by
  induction hk with
  | vol v h =>
    intro n t' n' hp
    rw [VTree.populate] at hp
    simp only [Prod.mk.injEq] at hp
    obtain ⟨rfl, -, h2⟩ := hp
    obtain ⟨h3, h4⟩ := vol_again h (Prod.ext rfl h2 : v.populate env n = ((v.populate env n).1, .ok ()))
    exact ⟨.vol _ h3, fun m => ⟨m + 1, by rw [VTree.populate, h4 m]⟩⟩
  | multi vs pr hd hl ih =>
    intro n t' n' hp
    have loop : ∀ ws : List VTree, (∀ w ∈ ws, ∀ n t' n', w.populate env n = (t', n', .ok ()) →
        Leaves CertainGen t' ∧ ∀ m, ∃ m', t'.populate env m = (t', m', .ok ())) → ∀ n ws' n',
        VTree.populateList env ws n = (ws', n', .ok ()) → ∀ w ∈ ws', Leaves CertainGen w ∧ ∀ m, ∃ m', w.populate env m = (w, m', .ok ()) := by
      intro ws
      induction ws with
      | nil =>
        intro _ n ws' n' h
        simp only [VTree.populateList, Prod.mk.injEq] at h
        rw [← h.1]; simp
      | cons w ws ihw =>
        intro hw n ws' n' h
        rw [VTree.populateList] at h
        rcases h1 : w.populate env n with ⟨w', m, o⟩
        rw [h1] at h
        cases o with
        | error e => simp at h
        | ok u =>
          simp only [Prod.mk.injEq] at h
          obtain ⟨rfl, h2⟩ := h
          intro y hy
          rcases List.mem_cons.mp hy with rfl | hy
          · exact hw w List.mem_cons_self n _ m h1
          · exact ihw (fun z hz => hw z (List.mem_cons_of_mem _ hz)) m _ n' (Prod.ext rfl h2) y hy
    have same : ∀ ws : List VTree, (∀ w ∈ ws, ∀ m, ∃ m', w.populate env m = (w, m', .ok ())) → ∀ m, ∃ m',
        VTree.populateList env ws m = (ws, m', .ok ()) := by
      intro ws
      induction ws with
      | nil => intro _ m; exact ⟨m, rfl⟩
      | cons w ws ihw =>
        intro hw m
        obtain ⟨m1, h1⟩ := hw w List.mem_cons_self m
        obtain ⟨m2, h2⟩ := ihw (fun z hz => hw z (List.mem_cons_of_mem _ hz)) m1
        exact ⟨m2, by rw [VTree.populateList, h1]; simp only [h2]⟩
    rw [VTree.populate] at hp
    rcases hl' : VTree.populateList env vs n with ⟨vs', m, o⟩
    rw [hl'] at hp
    cases o with
    | error e => simp at hp
    | ok u =>
      simp only at hp
      have hall := loop vs ih n vs' m hl'
      cases hr : VTree.resolve env (stableSort VTree.priority vs') with
      | error e => simp [hr] at hp
      | ok q =>
        simp only [hr, Prod.mk.injEq, and_true] at hp
        obtain ⟨rfl, -⟩ := hp
        refine ⟨.multi _ _ _ fun t ht => (hall t (mem_stableSort.mp ht)).1, fun k => ?_⟩
        obtain ⟨k', hk'⟩ := same (stableSort VTree.priority vs') (fun w hw => (hall w (mem_stableSort.mp hw)).2) k
        refine ⟨k', ?_⟩
        rw [VTree.populate, hk']
        simp only [Scene.stableSort_of_sorted _ _ (stableSort_sorted VTree.priority vs'), hr]

/-- The result of populating a tree of deterministic generators does not depend on when it is done. -/
theorem tree_certain {env : Env} {t : VTree} (hk : Leaves CertainGen t) : ∀ n m,
    (t.populate env n).1 = (t.populate env m).1 ∧ (t.populate env n).2.2 = (t.populate env m).2.2 := by
  induction hk with
  | vol v h =>
    intro n m
    simp only [VTree.populate, vol_certain h n m, and_self]
  | multi vs pr hd hl ih =>
    intro n m
    have loop : ∀ ws : List VTree, (∀ w ∈ ws, ∀ n m, (w.populate env n).1 = (w.populate env m).1 ∧ (w.populate env n).2.2 = (w.populate env m).2.2) →
        ∀ n m, (VTree.populateList env ws n).1 = (VTree.populateList env ws m).1 ∧
          (VTree.populateList env ws n).2.2 = (VTree.populateList env ws m).2.2 := by
      intro ws
      induction ws with
      | nil => intro _ n m; exact ⟨rfl, rfl⟩
      | cons w ws ihw =>
        intro hw n m
        obtain ⟨h1, h2⟩ := hw w List.mem_cons_self n m
        rw [VTree.populateList, VTree.populateList]
        rcases e1 : w.populate env n with ⟨x, a, o⟩
        rcases e2 : w.populate env m with ⟨y, b, q⟩
        rw [e1, e2] at h1 h2
        simp only at h1 h2
        subst h1 h2
        cases o with
        | error e => exact ⟨rfl, rfl⟩
        | ok u =>
          obtain ⟨h3, h4⟩ := ihw (fun z hz => hw z (List.mem_cons_of_mem _ hz)) a b
          simp only [h3, h4, and_self]
    obtain ⟨h1, h2⟩ := loop vs ih n m
    rw [VTree.populate, VTree.populate]
    rcases e1 : VTree.populateList env vs n with ⟨x, a, o⟩
    rcases e2 : VTree.populateList env vs m with ⟨y, b, q⟩
    rw [e1, e2] at h1 h2
    simp only at h1 h2
    subst h1 h2
    cases o with
    | error e => exact ⟨rfl, rfl⟩
    | ok u =>
      simp only
      cases VTree.resolve env (stableSort VTree.priority x) with
      | error e => exact ⟨rfl, rfl⟩
      | ok q => exact ⟨rfl, rfl⟩

theorem item_again {env : Env} {x : Item} (hk : Made CertainGen x) {n n' : ℕ} {x' : Item} (h : x.populate env n = (x', n', .ok ())) :
    Steady env x' := by
  cases x with
  | vol t =>
    simp only [Item.populate, Prod.mk.injEq] at h
    obtain ⟨rfl, h2⟩ := h
    intro m
    obtain ⟨m', hm⟩ := (tree_again hk n (t.populate env n).1 n' (Prod.ext rfl h2)).2 m
    exact ⟨m', by simp only [Item.populate, hm]⟩
  | mol y =>
    simp only [Item.populate, Prod.mk.injEq] at h
    obtain ⟨rfl, -⟩ := h
    exact fun m => ⟨m, rfl⟩

theorem item_certain {env : Env} {x : Item} (hk : Made CertainGen x) {n n' : ℕ} {x' : Item} (h : x.populate env n = (x', n', .ok ())) (m : ℕ) :
    ∃ m', x.populate env m = (x', m', .ok ()) := by
  cases x with
  | vol t =>
    simp only [Item.populate, Prod.mk.injEq] at h
    obtain ⟨rfl, h2⟩ := h
    obtain ⟨h3, h4⟩ := tree_certain hk (env := env) n m
    refine ⟨(t.populate env m).2.1, ?_⟩
    simp only [Item.populate, ← h3]
    rw [h2] at h4
    exact Prod.ext rfl (Prod.ext rfl h4.symm)
  | mol y =>
    simp only [Item.populate, Prod.mk.injEq] at h
    obtain ⟨rfl, -⟩ := h
    exact ⟨m, rfl⟩

/-! ## the loop over named objects -/

/-- An object that stays as it is stays as it is, whatever else is populated. -/
theorem refs_steady {env : Env} (rs : List ℕ) : ∀ (f : ℕ → Item) (n : ℕ) (q : ℕ), Steady env (f q) → (populateRefs env rs f n).1 q = f q := by
  induction rs with
  | nil => intro f n q _; rfl
  | cons r rs ih =>
    intro f n q hq
    rw [populateRefs]
    rcases hp : (f r).populate env n with ⟨x, m, o⟩
    have hx : Function.update f r x q = f q := by
      by_cases h : q = r
      · subst h
        obtain ⟨m', hm⟩ := hq n
        rw [hp] at hm
        simp only [Prod.mk.injEq] at hm
        rw [Function.update_self, hm.1]
      · rw [Function.update_of_ne h]
    cases o with
    | error e => exact hx
    | ok u =>
      simp only
      rw [ih _ m q (by rw [hx]; exact hq), hx]

/-- Objects that are not in the list are not touched. -/
theorem refs_other {env : Env} (rs : List ℕ) : ∀ (f : ℕ → Item) (n : ℕ) (q : ℕ), q ∉ rs → (populateRefs env rs f n).1 q = f q := by
  induction rs with
  | nil => intro f n q _; rfl
  | cons r rs ih =>
    intro f n q hq
    simp only [List.mem_cons, not_or] at hq
    rw [populateRefs]
    rcases hp : (f r).populate env n with ⟨x, m, o⟩
    cases o with
    | error e => exact Function.update_of_ne hq.1 _ _
    | ok u =>
      simp only
      rw [ih _ m q hq.2, Function.update_of_ne hq.1]

/-- After a loop that returns, the objects in the list stay as they are when populated again. -/
theorem refs_ok {env : Env} (rs : List ℕ) : ∀ (f : ℕ → Item) (n : ℕ) (g : ℕ → Item) (n' : ℕ),
    (∀ r ∈ rs, Made CertainGen (f r) ∨ Steady env (f r)) → populateRefs env rs f n = (g, n', .ok ()) → ∀ r ∈ rs, Steady env (g r) := by
  induction rs with
  | nil => intro f n g n' _ _ r hr; cases hr
  | cons r rs ih =>
    intro f n g n' hf h
    rw [populateRefs] at h
    rcases hp : (f r).populate env n with ⟨x, m, o⟩
    rw [hp] at h
    cases o with
    | error e => simp at h
    | ok u =>
      simp only at h
      have hx : Steady env x := by
        rcases hf r List.mem_cons_self with h1 | h1
        · exact item_again h1 hp
        · obtain ⟨m', hm⟩ := h1 n
          rw [hp] at hm
          simp only [Prod.mk.injEq] at hm
          rw [hm.1]; exact h1
      have hf' : ∀ q ∈ rs, Made CertainGen (Function.update f r x q) ∨ Steady env (Function.update f r x q) := by
        intro q hq
        by_cases h : q = r
        · subst h; rw [Function.update_self]; exact .inr hx
        · rw [Function.update_of_ne h]; exact hf q (List.mem_cons_of_mem _ hq)
      intro q hq
      rcases List.mem_cons.mp hq with rfl | hq
      · have := refs_steady (env := env) rs (Function.update f q x) m q (by rw [Function.update_self]; exact hx)
        rw [h, Function.update_self] at this
        simp only at this
        rw [this]; exact hx
      · exact ih _ m g n' hf' h q hq

/-- A loop over objects that stay as they are returns and changes nothing. -/
theorem refs_same {env : Env} (rs : List ℕ) : ∀ (f : ℕ → Item) (n : ℕ), (∀ r ∈ rs, Steady env (f r)) →
    ∃ n', populateRefs env rs f n = (f, n', .ok ()) := by
  induction rs with
  | nil => intro f n _; exact ⟨n, rfl⟩
  | cons r rs ih =>
    intro f n hf
    obtain ⟨m, hm⟩ := hf r List.mem_cons_self n
    rw [populateRefs, hm]
    simp only [Function.update_eq_self]
    exact ih f m fun q hq => hf q (List.mem_cons_of_mem _ hq)

/-! ## scenes stay as they are -/

/-- The scene `k` holds `rs`, and its masks are those of the objects `f`, which stay as they are. -/
structure Settled (env : Env) (k : ℕ) (rs : List ℕ) (f : ℕ → Item) (c : List (List Bool)) (s : Studio) : Prop where
  objects : (s.scene k).objects = some rs
  checks : (s.scene k).checks = some c
  item : ∀ r ∈ rs, s.item r = f r

/-- Calls that do not add to the scene `k` and do not transform its objects `rs`. -/
def Aside (k : ℕ) (rs : List ℕ) : Op → Prop
  | .add j _ => j ≠ k
  | .transform r _ => r ∉ rs
  | .populate _ => True
  | .touch _ => True
  | .bounds _ _ => True

theorem populate_scene {env : Env} {s : Studio} {j k : ℕ} (h : j ≠ k) : (s.populate env j).1.scene k = s.scene k := by
  unfold populate
  cases (s.scene j).objects with
  | none => rfl
  | some rs =>
    simp only
    rcases populateRefs env rs s.item s.calls with ⟨f, n, o⟩
    cases o with
    | error e => rfl
    | ok u =>
      simp only
      split
      · exact Function.update_of_ne (Ne.symm h) _ _
      · exact Function.update_of_ne (Ne.symm h) _ _

theorem populate_item {env : Env} {s : Studio} {j : ℕ} : (s.populate env j).1.item = s.item ∨
    ∃ rs, (s.populate env j).1.item = (populateRefs env rs s.item s.calls).1 := by
  unfold populate
  cases (s.scene j).objects with
  | none => exact .inl rfl
  | some rs =>
    refine .inr ⟨rs, ?_⟩
    simp only
    rcases populateRefs env rs s.item s.calls with ⟨f, n, o⟩
    cases o with
    | error e => rfl
    | ok u =>
      simp only
      split <;> rfl

theorem step_settled {env : Env} {k : ℕ} {rs : List ℕ} {f : ℕ → Item} {c : List (List Bool)} {s : Studio}
    (hs : ∀ r ∈ rs, Steady env (f r)) (hsort : rs.Pairwise fun a b => (f a).priority ≤ (f b).priority)
    (hc : Precedence.checks ((rs.map fun r => Item.view env (f r)).map Scene.toObj) = .ok c)
    (h : Settled env k rs f c s) (o : Op) (ho : Aside k rs o) : Settled env k rs f c (s.step env o) := by
  obtain ⟨h1, h2, h3⟩ := h
  have hst : ∀ r ∈ rs, Steady env (s.item r) := fun r hr => h3 r hr ▸ hs r hr
  cases o with
  | add j r =>
    have hj : k ≠ j := Ne.symm ho
    refine ⟨?_, ?_, h3⟩
    · simp only [step, add, Function.update_of_ne hj, h1]
    · simp only [step, add, Function.update_of_ne hj, h2]
  | touch r =>
    refine ⟨?_, ?_, ?_⟩
    · exact h1
    · exact h2
    · intro q hq
      simp only [step, touch]
      by_cases h : q = r
      · subst h
        obtain ⟨m, hm⟩ := hst q hq s.calls
        rw [hm, Function.update_self]; exact h3 q hq
      · rw [Function.update_of_ne h]; exact h3 q hq
  | bounds j b =>
    refine ⟨?_, ?_, h3⟩
    · simp only [step, setBounds]
      by_cases h : k = j
      · subst h; rw [Function.update_self]; exact h1
      · rw [Function.update_of_ne h]; exact h1
    · simp only [step, setBounds]
      by_cases h : k = j
      · subst h; rw [Function.update_self]; exact h2
      · rw [Function.update_of_ne h]; exact h2
  | transform r t =>
    refine ⟨h1, h2, ?_⟩
    intro q hq
    simp only [step, transform]
    rw [Function.update_of_ne (fun h : q = r => ho (by rw [← h]; exact hq))]
    exact h3 q hq
  | populate j =>
    by_cases hj : j = k
    · subst hj
      obtain ⟨n', hn⟩ := refs_same (env := env) rs s.item s.calls hst
      have e1 : stableSort (fun r => (s.item r).priority) rs = rs := by
        apply Scene.stableSort_of_sorted
        refine List.Pairwise.imp_of_mem ?_ hsort
        intro a b ha hb hab
        rw [h3 a ha, h3 b hb]; exact hab
      have e2 : (rs.map fun r => Item.view env (s.item r)) = rs.map fun r => Item.view env (f r) :=
        List.map_congr_left fun r hr => by rw [h3 r hr]
      simp only [step, populate, h1, hn, e1, e2, hc]
      exact ⟨by simp only [Function.update_self], by simp only [Function.update_self], h3⟩
    · refine ⟨?_, ?_, ?_⟩
      · simp only [step]; rw [populate_scene hj]; exact h1
      · simp only [step]; rw [populate_scene hj]; exact h2
      · intro q hq
        simp only [step]
        rcases populate_item (env := env) (s := s) (j := j) with h | ⟨l, h⟩
        · rw [h]; exact h3 q hq
        · rw [h, refs_steady l _ _ q (hst q hq)]; exact h3 q hq

theorem run_settled {env : Env} {k : ℕ} {rs : List ℕ} {f : ℕ → Item} {c : List (List Bool)}
    (hs : ∀ r ∈ rs, Steady env (f r)) (hsort : rs.Pairwise fun a b => (f a).priority ≤ (f b).priority)
    (hc : Precedence.checks ((rs.map fun r => Item.view env (f r)).map Scene.toObj) = .ok c) (os : List Op) :
    ∀ s : Studio, Settled env k rs f c s → (∀ o ∈ os, Aside k rs o) → Settled env k rs f c (s.run env os) := by
  induction os with
  | nil => intro s h _; exact h
  | cons o os ih =>
    intro s h ho
    exact ih _ (step_settled hs hsort hc h o (ho o List.mem_cons_self)) fun p hp => ho p (List.mem_cons_of_mem _ hp)

theorem gather_bounds {env : Env} {w w' : World} (h1 : w.objects = w'.objects) (h2 : w.checks = w'.checks) :
    w.allAtoms env = w'.allAtoms env ∧ w.allSpecies env = w'.allSpecies env := by
  obtain ⟨a, b, c⟩ := w
  obtain ⟨a', b', c'⟩ := w'
  simp only at h1 h2
  subst h1 h2
  exact ⟨rfl, rfl⟩

/-- What a returning `populate` leaves. -/
theorem populate_ok {env : Env} {s s' : Studio} {k : ℕ} {rs : List ℕ} (hr : (s.scene k).objects = some rs)
    (h : s.populate env k = (s', .ok ())) : ∃ c, populateRefs env rs s.item s.calls = (s'.item, s'.calls, .ok ()) ∧
      (s'.scene k).objects = some (stableSort (fun r => (s'.item r).priority) rs) ∧ (s'.scene k).checks = some c ∧
      Precedence.checks (((stableSort (fun r => (s'.item r).priority) rs).map fun r => Item.view env (s'.item r)).map Scene.toObj) = .ok c := by
  unfold populate at h
  rw [hr] at h
  simp only at h
  rcases hp : populateRefs env rs s.item s.calls with ⟨f, n, o⟩
  rw [hp] at h
  cases o with
  | error e => simp at h
  | ok u =>
    simp only at h
    split at h
    · simp at h
    · rename_i c hc
      simp only [Prod.mk.injEq, and_true] at h
      subst h
      exact ⟨c, rfl, by simp only [Function.update_self], by simp only [Function.update_self], hc⟩

/-- **C120 (sharing is harmless, partial).** A scene whose objects have crystal generators (whose post transformations, if any, are not
random), amorphous generators told to reuse their result, no atoms to generate, or are molecules, has been populated.  Whatever else is
done with its objects and with other scenes - adding its objects to them, populating them in any order, populating objects directly,
populating the scene itself again, changing bounds, transforming objects that are not in the scene - the atoms and species the scene
reports are those it reported right after it was populated. -/
theorem C120_shared_objects_partial (env : Env) (s s' : Studio) (k : ℕ) (rs : List ℕ) (hr : (s.scene k).objects = some rs)
    (hk : ∀ r ∈ rs, Made CertainGen (s.item r)) (h : s.populate env k = (s', .ok ())) (os : List Op) (ho : ∀ o ∈ os, Aside k rs o) :
    (s'.run env os).allAtoms env k = s'.allAtoms env k ∧ (s'.run env os).allSpecies env k = s'.allSpecies env k := by
  obtain ⟨c, h1, h2, h3, h4⟩ := populate_ok hr h
  have hst := refs_ok rs s.item s.calls s'.item s'.calls (fun r hr => .inl (hk r hr)) h1
  have hmem : ∀ r, r ∈ stableSort (fun r => (s'.item r).priority) rs ↔ r ∈ rs := fun r => mem_stableSort
  have hS := run_settled (env := env) (k := k) (rs := stableSort (fun r => (s'.item r).priority) rs) (f := s'.item) (c := c)
    (fun r hr => hst r ((hmem r).mp hr)) (stableSort_sorted _ _) h4 os s' ⟨h2, h3, fun r _ => rfl⟩ (by
      intro o ho'
      have := ho o ho'
      cases o with
      | transform r t => exact fun hm => this ((hmem r).mp hm)
      | add j r => exact this
      | populate j => trivial
      | touch r => trivial
      | bounds j b => trivial)
  apply gather_bounds
  · simp only [world, hS.objects, h2, Option.map_some, Option.some.injEq]
    exact List.map_congr_left fun r hr => hS.item r hr
  · simp only [world, hS.checks, h3]

/-! ## the order in which scenes are populated -/

/-- Calls that leave the scene `k` alone and do not transform its objects `rs`. -/
def Elsewhere (k : ℕ) (rs : List ℕ) : Op → Prop
  | .add j _ => j ≠ k
  | .transform r _ => r ∉ rs
  | .populate j => j ≠ k
  | .touch _ => True
  | .bounds _ _ => True

/-- Populating `x` gives `y`, whenever it is done, and `y` stays as it is. -/
def Becomes (env : Env) (x y : Item) : Prop := (∀ n, ∃ n', x.populate env n = (y, n', .ok ())) ∧ Steady env y

/-- Each object of the list is either what it was or what populating it gives. -/
def Between (env : Env) (rs : List ℕ) (f g h : ℕ → Item) : Prop := ∀ r ∈ rs, Becomes env (f r) (g r) ∧ (h r = f r ∨ h r = g r)

theorem refs_between {env : Env} {rs : List ℕ} {f g : ℕ → Item} (l : List ℕ) : ∀ (h : ℕ → Item) (n : ℕ), Between env rs f g h →
    Between env rs f g (populateRefs env l h n).1 := by
  induction l with
  | nil => intro h n hb; exact hb
  | cons r l ih =>
    intro h n hb
    rw [populateRefs]
    rcases hp : (h r).populate env n with ⟨x, m, o⟩
    have hb' : Between env rs f g (Function.update h r x) := by
      intro q hq
      refine ⟨(hb q hq).1, ?_⟩
      by_cases e : q = r
      · subst e
        rw [Function.update_self]
        right
        rcases (hb q hq).2 with e | e
        · obtain ⟨n', hn⟩ := (hb q hq).1.1 n
          rw [e, hn] at hp
          simp only [Prod.mk.injEq] at hp
          exact hp.1.symm
        · obtain ⟨n', hn⟩ := (hb q hq).1.2 n
          rw [e, hn] at hp
          simp only [Prod.mk.injEq] at hp
          exact hp.1.symm
      · rw [Function.update_of_ne e]; exact (hb q hq).2
    cases o with
    | error e => exact hb'
    | ok u => exact ih _ m hb'

/-- A loop over such objects returns and leaves what populating gives. -/
theorem refs_become {env : Env} {f g : ℕ → Item} (rs l : List ℕ) : ∀ (h : ℕ → Item) (n : ℕ), Between env rs f g h → (∀ r ∈ l, r ∈ rs) →
    ∃ h' n', populateRefs env l h n = (h', n', .ok ()) ∧ ∀ r ∈ l, h' r = g r := by
  induction l with
  | nil => intro h n _ _; exact ⟨h, n, rfl, by simp⟩
  | cons r l ih =>
    intro h n hb hl
    have hr := hl r List.mem_cons_self
    have : ∃ m, (h r).populate env n = (g r, m, .ok ()) := by
      rcases (hb r hr).2 with e | e
      · rw [e]; exact (hb r hr).1.1 n
      · rw [e]; exact (hb r hr).1.2 n
    obtain ⟨m, hm⟩ := this
    rw [populateRefs, hm]
    simp only
    have hb' : Between env rs f g (Function.update h r (g r)) := by
      intro q hq
      refine ⟨(hb q hq).1, ?_⟩
      by_cases e : q = r
      · subst e; rw [Function.update_self]; exact .inr rfl
      · rw [Function.update_of_ne e]; exact (hb q hq).2
    obtain ⟨h', n', h1, h2⟩ := ih _ m hb' fun q hq => hl q (List.mem_cons_of_mem _ hq)
    refine ⟨h', n', h1, ?_⟩
    intro q hq
    rcases List.mem_cons.mp hq with rfl | hq
    · have := refs_steady (env := env) l (Function.update h q (g q)) m q (by rw [Function.update_self]; exact (hb q hr).1.2)
      rw [h1, Function.update_self] at this
      exact this
    · exact h2 q hq

/-- Objects with deterministic generators that can be populated become what the loop leaves. -/
theorem refs_certain {env : Env} (rs : List ℕ) : ∀ (f : ℕ → Item) (n : ℕ) (g : ℕ → Item) (n' : ℕ),
    (∀ r ∈ rs, Made CertainGen (f r) ∨ Steady env (f r)) → populateRefs env rs f n = (g, n', .ok ()) → ∀ r ∈ rs, Becomes env (f r) (g r) := by
  induction rs with
  | nil => intro f n g n' _ _ r hr; cases hr
  | cons r rs ih =>
    intro f n g n' hf h
    have hsteady := refs_ok (r :: rs) f n g n' hf h
    rw [populateRefs] at h
    rcases hp : (f r).populate env n with ⟨x, m, o⟩
    rw [hp] at h
    cases o with
    | error e => simp at h
    | ok u =>
      simp only at h
      have hx : Steady env x := by
        rcases hf r List.mem_cons_self with h1 | h1
        · exact item_again h1 hp
        · obtain ⟨m', hm⟩ := h1 n
          rw [hp] at hm
          simp only [Prod.mk.injEq] at hm
          rw [hm.1]; exact h1
      have hgr : g r = x := by
        have := refs_steady (env := env) rs (Function.update f r x) m r (by rw [Function.update_self]; exact hx)
        rw [h, Function.update_self] at this
        exact this
      have hbr : Becomes env (f r) (g r) := by
        refine ⟨fun k => ?_, hsteady r List.mem_cons_self⟩
        rw [hgr]
        rcases hf r List.mem_cons_self with h1 | h1
        · exact item_certain h1 hp k
        · obtain ⟨m', hm⟩ := h1 n
          rw [hp] at hm
          simp only [Prod.mk.injEq] at hm
          obtain ⟨k', hk⟩ := h1 k
          exact ⟨k', by rw [hm.1]; exact hk⟩
      have hf' : ∀ q ∈ rs, Made CertainGen (Function.update f r x q) ∨ Steady env (Function.update f r x q) := by
        intro q hq
        by_cases h : q = r
        · subst h; rw [Function.update_self]; exact .inr hx
        · rw [Function.update_of_ne h]; exact hf q (List.mem_cons_of_mem _ hq)
      intro q hq
      by_cases e : q = r
      · subst e; exact hbr
      · have := ih _ m g n' hf' h q ((List.mem_cons.mp hq).resolve_left e)
        rw [Function.update_of_ne e] at this
        exact this

/-- The scene `k` still holds `rs`, and its objects are what they were or what populating them gives. -/
def Waiting (env : Env) (k : ℕ) (rs : List ℕ) (f g : ℕ → Item) (s : Studio) : Prop :=
  (s.scene k).objects = some rs ∧ Between env rs f g s.item

theorem step_waiting {env : Env} {k : ℕ} {rs : List ℕ} {f g : ℕ → Item} {s : Studio} (h : Waiting env k rs f g s) (o : Op)
    (ho : Elsewhere k rs o) : Waiting env k rs f g (s.step env o) := by
  obtain ⟨h1, h2⟩ := h
  cases o with
  | add j r =>
    have hj : k ≠ j := Ne.symm ho
    exact ⟨by simp only [step, add, Function.update_of_ne hj, h1], h2⟩
  | touch r =>
    refine ⟨h1, ?_⟩
    have := refs_between [r] s.item s.calls h2
    simp only [step, touch]
    rcases hp : (s.item r).populate env s.calls with ⟨x, m, o⟩
    rw [populateRefs, hp] at this
    cases o with
    | error e => exact this
    | ok u => exact this
  | bounds j b =>
    refine ⟨?_, h2⟩
    simp only [step, setBounds]
    by_cases h : k = j
    · subst h; rw [Function.update_self]; exact h1
    · rw [Function.update_of_ne h]; exact h1
  | transform r t =>
    refine ⟨h1, ?_⟩
    intro q hq
    simp only [step, transform]
    rw [Function.update_of_ne (fun h : q = r => ho (by rw [← h]; exact hq))]
    exact h2 q hq
  | populate j =>
    have hj : j ≠ k := ho
    refine ⟨by simp only [step]; rw [populate_scene hj]; exact h1, ?_⟩
    simp only [step]
    rcases populate_item (env := env) (s := s) (j := j) with h | ⟨l, h⟩
    · rw [h]; exact h2
    · rw [h]; exact refs_between l _ _ h2

/-- **C120 (order of populating, partial).** A scene whose objects have generators that answer alike whenever they are asked, and can
be populated now, can be populated after any program that leaves it alone - one that shares its objects with other scenes, populates
those or the objects themselves - and then reports the same atoms and species, in the same order. -/
theorem C120_order_of_scenes_partial (env : Env) (s s' : Studio) (k : ℕ) (rs : List ℕ) (hr : (s.scene k).objects = some rs)
    (hk : ∀ r ∈ rs, Made CertainGen (s.item r)) (h : s.populate env k = (s', .ok ())) (os : List Op) (ho : ∀ o ∈ os, Elsewhere k rs o) :
    ∃ s'', (s.run env os).populate env k = (s'', .ok ()) ∧ s''.allAtoms env k = s'.allAtoms env k ∧
      s''.allSpecies env k = s'.allSpecies env k := by
  obtain ⟨c, h1, h2, h3, h4⟩ := populate_ok hr h
  have hb := refs_certain rs s.item s.calls s'.item s'.calls (fun r hr => .inl (hk r hr)) h1
  have hW : ∀ (os : List Op), (∀ o ∈ os, Elsewhere k rs o) → ∀ u, Waiting env k rs s.item s'.item u → Waiting env k rs s.item s'.item (u.run env os) := by
    intro os
    induction os with
    | nil => intro _ u hu; exact hu
    | cons o os ih =>
      intro ho u hu
      exact ih (fun p hp => ho p (List.mem_cons_of_mem _ hp)) _ (step_waiting hu o (ho o List.mem_cons_self))
  obtain ⟨hw1, hw2⟩ := hW os ho s ⟨hr, fun r hr => ⟨hb r hr, .inl rfl⟩⟩
  obtain ⟨f, n, hf, hfg⟩ := refs_become rs rs (s.run env os).item (s.run env os).calls hw2 fun _ h => h
  have e1 : stableSort (fun r => (f r).priority) rs = stableSort (fun r => (s'.item r).priority) rs := by
    have : ∀ l : List ℕ, (∀ r ∈ l, f r = s'.item r) → stableSort (fun r => (f r).priority) l = stableSort (fun r => (s'.item r).priority) l := by
      intro l
      induction l with
      | nil => intro _; rfl
      | cons a l ih =>
        intro hl
        rw [stableSort, stableSort, ih fun r hr => hl r (List.mem_cons_of_mem _ hr)]
        have hins : ∀ m : List ℕ, (∀ r ∈ m, f r = s'.item r) → insertByKey (fun r => (f r).priority) a m = insertByKey (fun r => (s'.item r).priority) a m := by
          intro m
          induction m with
          | nil => intro _; rfl
          | cons b m ihm =>
            intro hm
            rw [insertByKey, insertByKey, hl a List.mem_cons_self, hm b List.mem_cons_self, ihm fun r hr => hm r (List.mem_cons_of_mem _ hr)]
        exact hins _ fun r hr => hl r (List.mem_cons_of_mem _ (mem_stableSort.mp hr))
    exact this rs hfg
  have hm : ∀ r ∈ stableSort (fun r => (s'.item r).priority) rs, f r = s'.item r := fun r hr => hfg r (mem_stableSort.mp hr)
  have e2 : ((stableSort (fun r => (s'.item r).priority) rs).map fun r => Item.view env (f r)) =
      (stableSort (fun r => (s'.item r).priority) rs).map fun r => Item.view env (s'.item r) :=
    List.map_congr_left fun r hr => by rw [hm r hr]
  refine ⟨⟨f, Function.update (s.run env os).scene k { (s.run env os).scene k with
      objects := some (stableSort (fun r => (s'.item r).priority) rs), checks := some c }, n⟩,
    by unfold populate; rw [hw1]; simp only [hf, e1, e2, h4], ?_⟩
  apply gather_bounds
  · simp only [world, Function.update_self, h2, Option.map_some, Option.some.injEq]
    exact List.map_congr_left hm
  · simp only [world, Function.update_self, h3]

/-! ## a scene of its own -/

theorem refs_world {env : Env} (rs : List ℕ) : ∀ (f : ℕ → Item) (n : ℕ), rs.Nodup →
    (rs.map (populateRefs env rs f n).1, (populateRefs env rs f n).2) = Item.populateList env (rs.map f) n := by
  induction rs with
  | nil => intro f n _; rfl
  | cons r rs ih =>
    intro f n hnd
    obtain ⟨hn, hnd⟩ := List.nodup_cons.mp hnd
    rw [show (r :: rs).map f = f r :: rs.map f from rfl, populateRefs, Item.populateList]
    rcases hp : (f r).populate env n with ⟨x, m, o⟩
    have hu : rs.map (Function.update f r x) = rs.map f :=
      List.map_congr_left fun q hq => Function.update_of_ne (fun h : q = r => hn (by rw [← h]; exact hq)) _ _
    cases o with
    | error e => simp only [List.map_cons, Function.update_self, hu]
    | ok u =>
      simp only
      rw [← hu, ← ih (Function.update f r x) m hnd, List.map_cons, refs_other rs _ m r hn, Function.update_self]

/-- **C120 (a scene of its own).** Populating a scene of pairwise different objects does to that scene exactly what it would do if the
scene had the objects, as they are at the time of the call, for itself: so C95 describes what it then reports. -/
theorem C120_as_if_alone (env : Env) (s : Studio) (k : ℕ) (rs : List ℕ) (hr : (s.scene k).objects = some rs) (hnd : rs.Nodup) :
    ((s.populate env k).1.world k, (s.populate env k).1.calls, (s.populate env k).2) = (s.world k).populate env s.calls := by
  have hw := refs_world (env := env) rs s.item s.calls hnd
  have e0 : (s.world k).objects = some (rs.map s.item) := by simp only [world, hr, Option.map_some]
  unfold populate World.populate
  rw [e0, hr]
  simp only
  rw [← hw]
  rcases populateRefs env rs s.item s.calls with ⟨f, n, o⟩
  cases o with
  | error e => simp only [world, hr, Option.map_some]
  | ok u =>
    simp only
    have e1 : stableSort Item.priority (rs.map f) = (stableSort (fun r => (f r).priority) rs).map f := by
      symm
      apply stableSort_map
      intro x y; rfl
    have e2 : ((stableSort (fun r => (f r).priority) rs).map f).map (Item.view env) =
        (stableSort (fun r => (f r).priority) rs).map fun r => Item.view env (f r) := by rw [List.map_map]; rfl
    rw [e1, e2]
    cases Precedence.checks (((stableSort (fun r => (f r).priority) rs).map fun r => Item.view env (f r)).map Scene.toObj) with
    | error e => simp only [world, Function.update_self, Option.map_some]
    | ok c => simp only [world, Function.update_self, Option.map_some]

/-- **C120 (objects populated by hand).** `ob.populate_atoms()` does to the objects and to the random stream what populating a scene with this one
object does, and to no scene anything else. -/
theorem C120_touch (env : Env) (s : Studio) (k r : ℕ) (hr : (s.scene k).objects = some [r]) :
    (s.touch env r).1.item = (s.populate env k).1.item ∧ (s.touch env r).1.calls = (s.populate env k).1.calls ∧
      (s.touch env r).1.scene = s.scene ∧ ∀ e, (s.touch env r).2 = .error e → (s.populate env k).2 = .error e := by
  unfold touch populate
  rw [hr]
  simp only [populateRefs]
  rcases (s.item r).populate env s.calls with ⟨x, n, o⟩
  cases o with
  | error e => exact ⟨rfl, rfl, trivial, fun e' h => h⟩
  | ok u =>
    simp only
    split <;> exact ⟨rfl, rfl, trivial, fun e' h => (by cases h)⟩

/-- **C120 (bounds).** Assigning the bounds of a scene changes these and nothing else. -/
theorem C120_bounds (s : Studio) (k : ℕ) (b : V3 ℝ × V3 ℝ) :
    ((s.setBounds k b).world k).bounds = b ∧ ((s.setBounds k b).world k).objects = (s.world k).objects ∧
      ((s.setBounds k b).world k).checks = (s.world k).checks ∧ (∀ j, j ≠ k → (s.setBounds k b).world j = s.world j) ∧
      (s.setBounds k b).item = s.item ∧ (s.setBounds k b).calls = s.calls := by
  refine ⟨?_, ?_, ?_, fun j hj => ?_, rfl, rfl⟩
  · simp [setBounds, world]
  · simp [setBounds, world]
  · simp [setBounds, world]
  · simp [setBounds, world, Function.update_of_ne hj]

theorem alone_ok (env : Env) (s : Studio) (k : ℕ) (rs : List ℕ) (hr : (s.scene k).objects = some rs) (hnd : rs.Nodup) {w : World} {n : ℕ}
    (h : (s.world k).populate env s.calls = (w, n, .ok ())) : ∃ s', s.populate env k = (s', .ok ()) := by
  have h1 := C120_as_if_alone env s k rs hr hnd
  rw [h] at h1
  simp only [Prod.mk.injEq] at h1
  exact ⟨_, Prod.ext rfl h1.2.2⟩

/-! ## random objects -/

noncomputable section

/-- The generator of the examples: a simple cubic carbon crystal with a post transformation. -/
def alloyGen (t : Post ℝ) : Gen ℝ := ⟨some ⟨1, [(0, 6)]⟩, some ⟨1, .scalar 1, 0⟩, none, some t⟩

/-- A ball filled by it. -/
def alloy (t : Post ℝ) (a : Option (List (V3 ℝ))) (z : Option (List ℤ)) : Vol :=
  ⟨none, none, none, [.sphere ⟨2, 0, 1 / 10 ^ 5⟩], some (.crystal (alloyGen t)), 0, 1 / 10 ^ 10, a, z⟩

/-- The positions the crystal supplies for the box of the ball. -/
def alloySites : List (V3 ℝ) :=
  match Gen.rawAtoms (⟨1, .scalar 1, 0⟩ : Voxel ℝ) [(0, 6)] (Vol.sphereBox ⟨2, 0, 1 / 10 ^ 5⟩) with
  | .ok as => as.map Atom.pos
  | .error _ => []

theorem alloy_raw : ∃ as, Gen.rawAtoms (⟨1, .scalar 1, 0⟩ : Voxel ℝ) [(0, 6)] (Vol.sphereBox ⟨2, 0, 1 / 10 ^ 5⟩) = .ok as ∧
    as.map Atom.pos = alloySites ∧ as.map Atom.Z = List.replicate alloySites.length 6 ∧ (0 : V3 ℝ) ∈ alloySites := by
  have hd : (⟨1, .scalar 1, 0⟩ : Voxel ℝ).sbases.det ≠ 0 := by
    have : (⟨1, .scalar 1, 0⟩ : Voxel ℝ).sbases = 1 := unitVoxel_sbases
    rw [this, M3.det_one]; norm_num
  have hb : Vol.sphereBox ⟨2, 0, 1 / 10 ^ 5⟩ ≠ [] := by simp [Vol.sphereBox, Vol.rectPrism]
  obtain ⟨⟨lo, hi⟩, he⟩ := Voxel.getExtents_ok hd hb
  have hr := Gen.rawAtoms_eq _ [((0 : V3 ℝ), (6 : ℤ))] _ _ _ he
  refine ⟨_, hr, ?_, ?_, ?_⟩
  · unfold alloySites; rw [hr]
  · unfold alloySites
    rw [hr]
    simp only [List.length_map]
    refine List.eq_replicate_iff.mpr ⟨by simp, fun z hz => ?_⟩
    simp only [List.mem_map, List.mem_flatMap, List.mem_singleton] at hz
    obtain ⟨a, ⟨n, -, f, rfl, rfl⟩, rfl⟩ := hz
    rfl
  · unfold alloySites
    rw [hr]
    have h0 : siteAt (⟨1, .scalar 1, 0⟩ : Voxel ℝ).sbases (⟨1, .scalar 1, 0⟩ : Voxel ℝ).origin 0 0 = 0 := by
      have : (⟨1, .scalar 1, 0⟩ : Voxel ℝ).sbases = 1 := unitVoxel_sbases
      rw [this]
      have := crystal_one 0 0
      rw [this]; ext <;> simp
    have hm : (0 : V3 ℤ) ∈ Gen.cells lo hi := by
      refine cell_mem he (f := 0) (by simp) ?_
      rw [h0]
      exact ball_in_box ⟨2, 0, 1 / 10 ^ 5⟩ (by norm_num) 0 (by simp [Spec.dist])
    refine List.mem_map.mpr ⟨⟨0, 6⟩, List.mem_flatMap.mpr ⟨0, hm, List.mem_map.mpr ⟨(0, 6), by simp, ?_⟩⟩, rfl⟩
    rw [h0]

/-- What populating the ball does, in terms of what the post transformation makes of the sites. -/
theorem alloy_populate (env : Env) (t : Post ℝ) (a : Option (List (V3 ℝ))) (z : Option (List ℤ)) (n : ℕ) (ps : List (V3 ℝ)) (zs : List ℤ)
    (hr : (t.run (env.rng n) 0 alloySites (List.replicate alloySites.length 6)).2 = (ps, zs)) (hl : ps.length = zs.length) :
    Item.populate env (.vol (.vol (alloy t a z))) n =
      (.vol (.vol (alloy t (some (maskSel (ps.map (Sphere.interior ⟨2, 0, 1 / 10 ^ 5⟩)) ps))
        (some (maskSel (ps.map (Sphere.interior ⟨2, 0, 1 / 10 ^ 5⟩)) zs)))), n + 1, .ok ()) := by
  obtain ⟨as, h1, h2, h3, -⟩ := alloy_raw
  have he : ∃ ex, (⟨1, .scalar 1, 0⟩ : Voxel ℝ).getExtents (Vol.sphereBox ⟨2, 0, 1 / 10 ^ 5⟩) = .ok ex := by
    cases hx : (⟨1, .scalar 1, 0⟩ : Voxel ℝ).getExtents (Vol.sphereBox ⟨2, 0, 1 / 10 ^ 5⟩) with
    | ok ex => exact ⟨_, rfl⟩
    | error e => rw [Gen.rawAtoms_error _ _ _ _ hx] at h1; cases h1
  obtain ⟨ex, he⟩ := he
  have hs : (GenObj.crystal (alloyGen t)).supply env n (.rows (Vol.sphereBox ⟨2, 0, 1 / 10 ^ 5⟩)) =
      (.crystal (alloyGen t), .ok (ps, zs)) := by
    simp only [GenObj.supply, alloyGen, Gen.supply, he, h1, h2, h3, hr]
  have hp := Vol.populate_ok (env := env) (v := alloy t a z) (n := n) rfl rfl hs hl
  have hi : (alloy t a z).interior env = Sphere.interior ⟨2, 0, 1 / 10 ^ 5⟩ := by
    funext p
    simp [Vol.interior, alloy, Alg.interior]
  rw [hi] at hp
  rw [Item.populate, VTree.populate, hp]
  rfl

theorem alloy_priority (t : Post ℝ) (a : Option (List (V3 ℝ))) (z : Option (List ℤ)) :
    (Item.vol (.vol (alloy t a z))).priority = 0 := rfl

theorem alloy_held (t : Post ℝ) (a : List (V3 ℝ)) (z : List ℤ) :
    (Item.vol (.vol (alloy t (some a) (some z)))).held = some (a, z) := rfl

/-- Two empty scenes and a ball. -/
def fresh (t : Post ℝ) (b : V3 ℝ × V3 ℝ) : Studio := ⟨fun _ => .vol (.vol (alloy t none none)), fun _ => ⟨none, none, b⟩, 0⟩

/-- Random numbers that are large the first time and small afterwards. -/
def drawEnv : Env := { exactEnv with rng := fun n _ _ _ => if n = 0 then 1 else 0 }

/-- Half of the carbon is replaced by nitrogen. -/
def doping : Post ℝ := .subst [6] [7] (1 / 2)

/-- Half of the carbon is taken away: it is marked by a substitution, and a function of the user drops what is marked. -/
def vacancies : Post ℝ := .seq [.subst [6] [7] (1 / 2), .arbitrary fun ps zs =>
  (((ps.zip zs).filter fun x => x.2 ≠ 7).map Prod.fst, ((ps.zip zs).filter fun x => x.2 ≠ 7).map Prod.snd)]

theorem doping_none (k : ℕ) : Post.replaceSpecies [6] [7] (1 / 2 : ℝ) (fun _ _ => 1) (List.replicate k 6) = List.replicate k 6 := by
  simp only [Post.replaceSpecies, List.zip_cons_cons, List.zip_nil_left, Post.substLoop, Post.substPass]
  refine List.eq_replicate_iff.mpr ⟨by simp, fun z hz => ?_⟩
  obtain ⟨⟨x, i⟩, hx, rfl⟩ := List.mem_map.mp hz
  have h1 := List.fst_mem_of_mem_zipIdx hx
  have h2 := (List.mem_replicate.mp (List.of_mem_zip (a := x.1) (b := x.2) h1).2).2
  norm_num [h2]

theorem doping_all (k : ℕ) : Post.replaceSpecies [6] [7] (1 / 2 : ℝ) (fun _ _ => 0) (List.replicate k 6) = List.replicate k 7 := by
  simp only [Post.replaceSpecies, List.zip_cons_cons, List.zip_nil_left, Post.substLoop, Post.substPass]
  refine List.eq_replicate_iff.mpr ⟨by simp, fun z hz => ?_⟩
  obtain ⟨⟨x, i⟩, hx, rfl⟩ := List.mem_map.mp hz
  have h1 := List.fst_mem_of_mem_zipIdx hx
  have h2 := (List.mem_replicate.mp (List.of_mem_zip (a := x.1) (b := x.2) h1).1).2
  norm_num [h2]

/-- The sites inside the ball. -/
def alloyAtoms : List (V3 ℝ) := maskSel (alloySites.map (Sphere.interior ⟨2, 0, 1 / 10 ^ 5⟩)) alloySites

theorem alloyAtoms_ne : alloyAtoms ≠ [] := by
  obtain ⟨as, -, -, -, h⟩ := alloy_raw
  have h2 : (0 : V3 ℝ) ∈ alloyAtoms := by
    unfold alloyAtoms
    have := maskSel_map_map (Sphere.interior ⟨2, 0, 1 / 10 ^ 5⟩) id alloySites
    simp only [List.map_id_fun, id, List.map_id] at this
    rw [this, List.mem_filter]
    refine ⟨h, ?_⟩
    simp [Sphere.interior, V3.normSq, V3.dot]
    norm_num
  exact List.ne_nil_of_mem h2

theorem maskSel_replicate {α β : Type} (f : α → Bool) (l : List α) (z : β) :
    maskSel (l.map f) (List.replicate l.length z) = List.replicate (maskSel (l.map f) l).length z := by
  have h1 := maskSel_map_map f (fun _ => z) l
  have h2 := maskSel_map_map f id l
  simp only [List.map_id_fun, id, List.map_id] at h2
  rw [List.map_const'] at h1
  rw [h1, h2, List.map_const']

theorem doped (a : Option (List (V3 ℝ))) (z : Option (List ℤ)) (n : ℕ) : Item.populate drawEnv (.vol (.vol (alloy doping a z))) n =
    (.vol (.vol (alloy doping (some alloyAtoms) (some (List.replicate alloyAtoms.length (if n = 0 then 6 else 7))))), n + 1, .ok ()) := by
  rw [alloy_populate drawEnv doping a z n alloySites (List.replicate alloySites.length (if n = 0 then 6 else 7)) ?_ (by simp)]
  · rw [maskSel_replicate]; rfl
  · rw [doping, Post.run]
    by_cases hn : n = 0
    · simp only [drawEnv, hn, if_true, doping_none]
    · simp only [drawEnv, hn, if_false, doping_all]

theorem thinned (a : Option (List (V3 ℝ))) (z : Option (List ℤ)) (n : ℕ) : Item.populate drawEnv (.vol (.vol (alloy vacancies a z))) n =
    (.vol (.vol (alloy vacancies (some (if n = 0 then alloyAtoms else []))
      (some (if n = 0 then List.replicate alloyAtoms.length 6 else [])))), n + 1, .ok ()) := by
  have hz : ∀ (z : ℤ) (l : List (V3 ℝ)), ∀ x ∈ l.zip (List.replicate l.length z), x.2 = z := by
    intro z l x hx
    exact (List.mem_replicate.mp (List.of_mem_zip (a := x.1) (b := x.2) hx).2).2
  by_cases hn : n = 0
  · rw [alloy_populate drawEnv vacancies a z n alloySites (List.replicate alloySites.length 6) ?_ (by simp)]
    · rw [maskSel_replicate]; simp only [hn, if_true]; rfl
    · rw [vacancies, Post.run, Post.runList, Post.run, Post.runList, Post.run, Post.runList]
      simp only [drawEnv, hn, if_true, doping_none]
      have : (alloySites.zip (List.replicate alloySites.length (6 : ℤ))).filter (fun x => decide (x.2 ≠ 7)) =
          alloySites.zip (List.replicate alloySites.length 6) :=
        List.filter_eq_self.mpr fun x hx => by rw [hz 6 _ x hx]; decide
      rw [this, List.map_fst_zip (by simp), List.map_snd_zip (by simp)]
  · rw [alloy_populate drawEnv vacancies a z n [] [] ?_ rfl]
    · simp only [hn, if_false]; rfl
    · rw [vacancies, Post.run, Post.runList, Post.run, Post.runList, Post.run, Post.runList]
      simp only [drawEnv, hn, if_false, doping_all]
      have : (alloySites.zip (List.replicate alloySites.length (7 : ℤ))).filter (fun x => decide (x.2 ≠ 7)) = [] :=
        List.filter_eq_nil_iff.mpr fun x hx => by rw [hz 7 _ x hx]; decide
      rw [this]; rfl

theorem maskSel_true {α : Type} (l : List α) (k : ℕ) (hk : k = l.length) : maskSel (List.replicate k true) l = l := by
  subst hk
  induction l with
  | nil => rfl
  | cons x l ih => rw [List.length_cons, List.replicate_succ, maskSel_cons, ih]; rfl

/-- **C120, finding.** With random post transformations the scenes are not independent.  The same ball of a crystal with a
ChemicalSubstitution is added to two scenes and the first scene is populated; populating the second scene changes the species the first
one reports (every atom was carbon, now every atom is nitrogen). -/
theorem C120_random_refuted (b : V3 ℝ × V3 ℝ) : ∃ (env : Env) (k : ℕ), 0 < k ∧
    let s := (fresh doping b).run env [.add 0 0, .add 1 0, .populate 0]
    s.allSpecies env 0 = .ok (List.replicate k 6) ∧ (s.run env [.populate 1]).allSpecies env 0 = .ok (List.replicate k 7) := by
  refine ⟨drawEnv, alloyAtoms.length, List.length_pos_iff.mpr alloyAtoms_ne, ?_, ?_⟩ <;>
  simp [run, step, add, populate, populateRefs, fresh, doped, stableSort, insertByKey, Precedence.checks, Precedence.getPriorities,
    npUniqueIdx, Precedence.relLevels, Precedence.checkOne, Precedence.checkAgainst, pyGet, bind, Except.bind, pure, Except.pure, List.range_succ, allSpecies, world, World.allSpecies, World.view,
    Scene.allSpecies, Scene.gather, Scene.maskedOf, Item.view, alloy_held, alloy_priority, npMask, Scene.toObj, maskSel_true, alloyAtoms_ne]

/-- **C120, finding.** If the post transformation goes on to drop the substituted atoms, populating the second scene makes the first
one raise IndexError, because its masks no longer fit the atoms of the ball. -/
theorem C120_vacancies_refuted (b : V3 ℝ × V3 ℝ) : ∃ (env : Env) (as : List (V3 ℝ)), as ≠ [] ∧
    let s := (fresh vacancies b).run env [.add 0 0, .add 1 0, .populate 0]
    s.allAtoms env 0 = .ok as ∧ (s.run env [.populate 1]).allAtoms env 0 = .error .index := by
  refine ⟨drawEnv, alloyAtoms, alloyAtoms_ne, ?_, ?_⟩ <;>
  simp [run, step, add, populate, populateRefs, fresh, thinned, stableSort, insertByKey, Precedence.checks, Precedence.getPriorities,
    npUniqueIdx, Precedence.relLevels, Precedence.checkOne, Precedence.checkAgainst, pyGet, bind, Except.bind, pure, Except.pure, List.range_succ, allAtoms, world, World.allAtoms, World.view,
    Scene.allAtoms, Scene.gather, Scene.maskedOf, Item.view, alloy_held, alloy_priority, npMask, Scene.toObj, maskSel_true, alloyAtoms_ne]

end

/-- Concrete case: two scenes share a ball and a MultiVolume; the hypotheses of the theorems above hold, and a program that populates
the other scene, the ball itself and the first scene again is among those allowed. -/
example (env : Env) (b : V3 ℝ × V3 ℝ) : ∃ s s' : Studio, (s.scene 0).objects = some [0, 1] ∧ (s.scene 1).objects = some [1, 0, 1] ∧
    (∀ r ∈ [0, 1], Made CertainGen (s.item r)) ∧ s.populate env 0 = (s', .ok ()) ∧
    ∀ o ∈ [Op.populate 1, .touch 0, .add 2 1, .populate 2, .transform 7 (.translation 0 true false), .populate 0], Aside 0 [0, 1] o := by
  let t : VTree := .multi [.vol (ballVol 0 2 1 [⟨0, 0, 0⟩, ⟨1, 0, 0⟩]), .vol (ballVol ⟨1, 0, 0⟩ 1 0 [⟨1, 0, 0⟩])] 0 none
  let s : Studio := ⟨fun r => if r = 0 then .vol (.vol (ballVol 0 1 0 [0])) else .vol t,
    fun k => if k = 0 then ⟨some [0, 1], none, b⟩ else ⟨some [1, 0, 1], none, b⟩, 0⟩
  have hball : ∀ c r pr ps, Leaves CertainGen (.vol (ballVol c r pr ps)) := by
    intro c r pr ps
    refine .vol _ fun g hg => ?_
    simp only [ballVol, Option.some.injEq] at hg
    subst hg
    trivial
  have hS : Supplying env t := by
    refine .multi _ _ _ (by simp) ?_
    simp only [List.mem_cons, List.not_mem_nil, or_false, forall_eq_or_imp, forall_eq]
    exact ⟨ballVol_supplying _ _ _ _ _, ballVol_supplying _ _ _ _ _⟩
  obtain ⟨w, n, hw⟩ := C95_populate_succeeds env (s.world 0) s.calls [.vol (.vol (ballVol 0 1 0 [0])), .vol t] rfl
    (by intro m hm; simp at hm) (by
      intro u hu
      simp only [List.mem_cons, Item.vol.injEq, List.not_mem_nil, or_false] at hu
      rcases hu with rfl | rfl
      · exact ballVol_supplying _ _ _ _ _
      · exact hS)
  obtain ⟨s', h3⟩ := alone_ok env s 0 [0, 1] rfl (by simp) hw
  refine ⟨s, s', rfl, rfl, ?_, h3, ?_⟩
  · intro r hr
    simp only [List.mem_cons, List.not_mem_nil, or_false] at hr
    rcases hr with rfl | rfl
    · exact hball _ _ _ _
    · refine .multi _ _ _ ?_
      simp only [List.mem_cons, List.not_mem_nil, or_false, forall_eq_or_imp, forall_eq]
      exact ⟨hball _ _ _ _, hball _ _ _ _⟩
  · simp [Aside]

end Studio

end CZ
