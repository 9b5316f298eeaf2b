import Verif.Props.WorldMotion
import Verif.Props.StrainMotion

/-!
# Property C96 for translations: strained crystals and crystals with sites at the surface
-/

namespace CZ
open Spec

/-! ## families of Volumes -/

/-- Every Volume of the family can be populated, which leaves it in the family and does not change what it contains. -/
def Fillable (env : Env) (Q : Vol → Prop) : Prop :=
  ∀ v, Q v → ∀ n, ∃ v', v.populate env n = (v', .ok ()) ∧ Q v' ∧ Image env id (.vol v) (.vol v')

/-- `t` takes every Volume of the family `Q` to its image, which is in the family `Q'`. -/
def MovesTo (env : Env) (t : Tr ℝ) (Q Q' : Vol → Prop) : Prop :=
  ∀ v, Q v → ∃ v', v.transform env t = (v', .ok ()) ∧ Q' v' ∧ Image env t.apply (.vol v) (.vol v')

/-- Nested volumes with all leaves in a family. -/
inductive TreeOf (Q : Vol → Prop) : VTree → Prop
  | vol (v : Vol) (h : Q v) : TreeOf Q (.vol v)
  | multi (vs : List VTree) (pr : ℤ) (h : Option (List (V3 ℝ) × List ℤ)) (hne : vs ≠ []) (hv : ∀ t ∈ vs, TreeOf Q t) :
      TreeOf Q (.multi vs pr h)

theorem TreeOf.supplying {env : Env} {Q : Vol → Prop} (hQ : Fillable env Q) {t : VTree} (h : TreeOf Q t) : Supplying env t := by
  induction h with
  | vol v h =>
    refine .vol v fun n => ?_
    obtain ⟨v', h1, -⟩ := hQ v h n
    obtain ⟨b, g, g', cs, zs, h2, h3, h4, h5, -⟩ := Vol.populate_inv h1
    exact ⟨b, g, g', cs, zs, h2, h3, h4, h5⟩
  | multi vs pr h hne hv ih => exact .multi vs pr h hne ih

/-- Populating changes nothing but the arrays held and the order of members. -/
theorem TreeOf.populate {env : Env} {Q : Vol → Prop} (hQ : Fillable env Q) {t : VTree} (h : TreeOf Q t) : ∀ n t' n', t.populate env n = (t', n', .ok ()) →
    TreeOf Q t' ∧ Image env id t t' := by
  induction h with
  | vol v h =>
    intro n t' n' hp
    obtain ⟨v', h1, h2, h3⟩ := hQ v h n
    rw [VTree.populate, h1] at hp
    simp only [Prod.mk.injEq] at hp
    obtain ⟨rfl, -, -⟩ := hp
    exact ⟨.vol _ h2, h3⟩
  | multi vs pr hd hne hv ih =>
    have loop : ∀ ws : List VTree, (∀ t ∈ ws, ∀ n t' n', VTree.populate env t n = (t', n', .ok ()) → TreeOf Q t' ∧ Image env id t t') →
        ∀ n ws' n', VTree.populateList env ws n = (ws', n', .ok ()) → ∃ pairs : List (VTree × VTree), pairs.map Prod.fst = ws ∧
          pairs.map Prod.snd = ws' ∧ ∀ x ∈ pairs, TreeOf Q x.2 ∧ Image env id x.1 x.2 := by
      intro ws hws
      induction ws with
      | nil =>
        intro n ws' n' h
        rw [VTree.populateList] at h
        simp only [Prod.mk.injEq] at h
        exact ⟨[], rfl, h.1, by simp⟩
      | cons w ws ihw =>
        intro n ws' n' h
        rw [VTree.populateList] at h
        rcases hp : w.populate env n with ⟨w', m, r⟩
        rw [hp] at h
        cases r with
        | error e => simp at h
        | ok u =>
          simp only [Prod.mk.injEq] at h
          obtain ⟨rfl, h2⟩ := h
          obtain ⟨pairs, h3, h4, h5⟩ := ihw (fun t ht => hws t (List.mem_cons_of_mem _ ht)) m
            (VTree.populateList env ws m).1 n' (Prod.ext rfl h2)
          refine ⟨(w, w') :: pairs, by simp [h3], by simp [h4], ?_⟩
          intro x hx
          rcases List.mem_cons.mp hx with rfl | hx
          · exact hws w List.mem_cons_self n w' m hp
          · exact h5 x hx
    intro n t' n' hp
    rw [VTree.populate] at hp
    rcases hl : VTree.populateList env vs n with ⟨vs', m, r⟩
    rw [hl] at hp
    cases r with
    | error e => simp at hp
    | ok u =>
      obtain ⟨pairs, rfl, rfl, h3⟩ := loop vs ih n vs' m hl
      have hperm := stableSort_perm VTree.priority (pairs.map Prod.snd)
      simp only at hp
      cases hr : VTree.resolve env (stableSort VTree.priority (pairs.map Prod.snd)) with
      | error e => rw [hr] at hp; simp at hp
      | ok r =>
        rw [hr] at hp
        simp only [Prod.mk.injEq] at hp
        obtain ⟨rfl, -, -⟩ := hp
        refine ⟨.multi _ _ _ ?_ ?_, .multi pairs pr _ _ _ hperm fun x hx => (h3 x hx).2⟩
        · intro h0
          rw [h0] at hperm
          apply hne
          simpa using hperm.symm.eq_nil
        · intro t ht
          obtain ⟨x, hx, rfl⟩ := List.mem_map.mp (hperm.mem_iff.mp ht)
          exact (h3 x hx).1

/-- A motion that takes every leaf to its image takes a nested volume to its image. -/
theorem TreeOf.transform {env : Env} {Q Q' : Vol → Prop} {t : Tr ℝ} (hT : MovesTo env t Q Q') {u : VTree}
    (h : TreeOf Q u) : ∃ u', u.transform env t = (u', .ok ()) ∧ TreeOf Q' u' ∧ Image env t.apply u u' := by
  induction h with
  | vol v h =>
    obtain ⟨v', h1, h2, h3⟩ := hT v h
    exact ⟨.vol v', by rw [VTree.transform, h1], .vol _ h2, h3⟩
  | multi vs pr hd hne hv ih =>
    have loop : ∀ ws : List VTree, (∀ u ∈ ws, ∃ u', u.transform env t = (u', .ok ()) ∧ TreeOf Q' u' ∧ Image env t.apply u u') →
        ∃ pairs : List (VTree × VTree), pairs.map Prod.fst = ws ∧ VTree.transformList env t ws = (pairs.map Prod.snd, .ok ()) ∧
          ∀ x ∈ pairs, TreeOf Q' x.2 ∧ Image env t.apply x.1 x.2 := by
      intro ws hws
      induction ws with
      | nil => exact ⟨[], rfl, by rw [VTree.transformList]; rfl, by simp⟩
      | cons w ws ihw =>
        obtain ⟨w', h1, h2⟩ := hws w List.mem_cons_self
        obtain ⟨pairs, h3, h4, h5⟩ := ihw fun u hu => hws u (List.mem_cons_of_mem _ hu)
        refine ⟨(w, w') :: pairs, by simp [h3], by rw [VTree.transformList, h1]; simp [h4], ?_⟩
        intro x hx
        rcases List.mem_cons.mp hx with rfl | hx
        · exact h2
        · exact h5 x hx
    obtain ⟨pairs, rfl, h2, h3⟩ := loop vs ih
    refine ⟨.multi (pairs.map Prod.snd) pr hd, by rw [VTree.transform, h2], .multi _ _ _ (by simpa using hne) ?_,
      .multi pairs pr _ _ _ (.refl _) fun x hx => (h3 x hx).2⟩
    intro u hu
    obtain ⟨x, hx, rfl⟩ := List.mem_map.mp hu
    exact (h3 x hx).1

/-! ## scenes -/

/-- Objects of a scene: molecules whose origin can be read, nested volumes with all leaves in a family. -/
inductive ItemOf (Q : Vol → Prop) : Item → Prop
  | vol (t : VTree) (h : TreeOf Q t) : ItemOf Q (.vol t)
  | mol (m : Mol ℝ) (o : V3 ℝ) (h : m.species.length = m.atoms.length) (ho : m.origin = .ok o) : ItemOf Q (.mol m)

theorem ItemOf.balanced {Q : Vol → Prop} {xs : List Item} (h : ∀ x ∈ xs, ItemOf Q x) : Balanced xs := by
  intro m hm
  cases h _ hm with
  | mol _ o h ho => exact h

theorem ItemOf.supplying {env : Env} {Q : Vol → Prop} (hQ : Fillable env Q) {xs : List Item} (h : ∀ x ∈ xs, ItemOf Q x) : ∀ t, Item.vol t ∈ xs → Supplying env t := by
  intro t ht
  cases h _ ht with
  | vol _ h => exact h.supplying hQ

theorem ItemOf.populate {env : Env} {Q : Vol → Prop} (hQ : Fillable env Q) {x : Item} (h : ItemOf Q x) {n : ℕ} {x' : Item} {n' : ℕ} (hp : x.populate env n = (x', n', .ok ())) :
    ItemOf Q x' ∧ ItemImage env id x x' := by
  cases h with
  | vol t h =>
    simp only [Item.populate] at hp
    rcases hp' : t.populate env n with ⟨t', m, r⟩
    rw [hp'] at hp
    simp only [Prod.mk.injEq] at hp
    obtain ⟨rfl, rfl, rfl⟩ := hp
    obtain ⟨h1, h2⟩ := h.populate hQ n t' m hp'
    exact ⟨.vol _ h1, .vol _ _ h2⟩
  | mol m o h ho =>
    simp only [Item.populate, Prod.mk.injEq] at hp
    obtain ⟨rfl, -, -⟩ := hp
    exact ⟨.mol m o h ho, .mol _ _ rfl rfl (by simp)⟩

theorem ItemOf.transform {env : Env} {Q Q' : Vol → Prop} {t : Tr ℝ} (hT : MovesTo env t Q Q') {x : Item}
    (h : ItemOf Q x) : ∃ x', x.transform env t = (x', .ok ()) ∧ ItemOf Q' x' ∧ ItemImage env t.apply x x' := by
  cases h with
  | vol u h =>
    obtain ⟨u', h1, h2, h3⟩ := h.transform hT
    exact ⟨.vol u', by simp [Item.transform, h1], .vol _ h2, .vol _ _ h3⟩
  | mol m o h ho =>
    obtain ⟨m', h1, h2, h3, h4, h5, h6⟩ := Mol.C75_origin_moves m h o ho t
    exact ⟨.mol m', by simp [Item.transform, h1], .mol m' _ (by rw [h2, h3, h]; simp) h6, .mol _ _ h4 h3 h2⟩

/-- The scene after populating: its objects are those before, in another order and with other arrays. -/
theorem World.populate_itemOf {env : Env} {Q : Vol → Prop} (hQ : Fillable env Q) {w w' : World} {n n' : ℕ} {xs : List Item} (hx : w.objects = some xs) (hm : ∀ x ∈ xs, ItemOf Q x)
    (h : w.populate env n = (w', n', .ok ())) : ∃ (pairs : List (Item × Item)) (ys : List Item), pairs.map Prod.fst = xs ∧ w'.objects = some ys ∧
      ys.Perm (pairs.map Prod.snd) ∧ ∀ x ∈ pairs, ItemOf Q x.2 ∧ ItemImage env id x.1 x.2 := by
  have loop : ∀ ws : List Item, (∀ x ∈ ws, ItemOf Q x) → ∀ n ws' n', Item.populateList env ws n = (ws', n', .ok ()) →
      ∃ pairs : List (Item × Item), pairs.map Prod.fst = ws ∧ pairs.map Prod.snd = ws' ∧ ∀ x ∈ pairs, ItemOf Q x.2 ∧ ItemImage env id x.1 x.2 := by
    intro ws hws
    induction ws with
    | nil =>
      intro n ws' n' h
      simp only [Item.populateList, Prod.mk.injEq] at h
      exact ⟨[], rfl, h.1, by simp⟩
    | cons w ws ihw =>
      intro n ws' n' h
      rw [Item.populateList] at h
      rcases hp : w.populate env n with ⟨w', m, r⟩
      rw [hp] at h
      cases r with
      | error e => simp at h
      | ok u =>
        simp only [Prod.mk.injEq] at h
        obtain ⟨rfl, h2⟩ := h
        obtain ⟨pairs, h3, h4, h5⟩ := ihw (fun t ht => hws t (List.mem_cons_of_mem _ ht)) m (Item.populateList env ws m).1 n' (Prod.ext rfl h2)
        refine ⟨(w, w') :: pairs, by simp [h3], by simp [h4], ?_⟩
        intro x hx
        rcases List.mem_cons.mp hx with rfl | hx
        · exact (hws w List.mem_cons_self).populate hQ hp
        · exact h5 x hx
  unfold World.populate at h
  rw [hx] at h
  simp only at h
  rcases hl : Item.populateList env xs n with ⟨xs', m, r⟩
  rw [hl] at h
  cases r with
  | error e => simp at h
  | ok u =>
    obtain ⟨pairs, h1, rfl, h3⟩ := loop xs hm n xs' m hl
    simp only at h
    split at h
    · simp at h
    · simp only [Prod.mk.injEq] at h
      obtain ⟨rfl, -, -⟩ := h
      exact ⟨pairs, _, h1, rfl, stableSort_perm _ _, h3⟩

theorem World.transform_itemOf {env : Env} {Q Q' : Vol → Prop} {t : Tr ℝ} (hT : MovesTo env t Q Q') {w : World}
    {xs : List Item} (hx : w.objects = some xs) (hm : ∀ x ∈ xs, ItemOf Q x) :
    ∃ (w' : World) (pairs : List (Item × Item)), w.transform env t = (w', .ok ()) ∧ pairs.map Prod.fst = xs ∧ w'.objects = some (pairs.map Prod.snd) ∧
      ∀ x ∈ pairs, ItemOf Q' x.2 ∧ ItemImage env t.apply x.1 x.2 := by
  have loop : ∀ ws : List Item, (∀ x ∈ ws, ItemOf Q x) → ∃ pairs : List (Item × Item), pairs.map Prod.fst = ws ∧
      Item.transformList env t ws = (pairs.map Prod.snd, .ok ()) ∧ ∀ x ∈ pairs, ItemOf Q' x.2 ∧ ItemImage env t.apply x.1 x.2 := by
    intro ws hws
    induction ws with
    | nil => exact ⟨[], rfl, rfl, by simp⟩
    | cons w ws ihw =>
      obtain ⟨w', h1, h2⟩ := (hws w List.mem_cons_self).transform hT
      obtain ⟨pairs, h3, h4, h5⟩ := ihw fun u hu => hws u (List.mem_cons_of_mem _ hu)
      refine ⟨(w, w') :: pairs, by simp [h3], by rw [Item.transformList, h1]; simp [h4], ?_⟩
      intro x hx
      rcases List.mem_cons.mp hx with rfl | hx
      · exact h2
      · exact h5 x hx
  obtain ⟨pairs, h1, h2, h3⟩ := loop xs hm
  refine ⟨{ w with objects := some (pairs.map Prod.snd) }, pairs, ?_, h1, rfl, h3⟩
  unfold World.transform
  rw [hx]
  simp only [h2]

theorem World.moves (env : Env) {Q Q' : Vol → Prop} (hQ : Fillable env Q) (hQ' : Fillable env Q') (w : World) (xs : List Item) (hx : w.objects = some xs) (hm : ∀ x ∈ xs, ItemOf Q x)
    (t : Tr ℝ) (hT : MovesTo env t Q Q') (n n' : ℕ) :
    ∃ w1 w2 w3 n1 n3 as ss as' ss', w.populate env n = (w1, n1, .ok ()) ∧ w1.allAtoms env = .ok as ∧ w1.allSpecies env = .ok ss ∧
      w1.transform env t = (w2, .ok ()) ∧ w2.populate env n' = (w3, n3, .ok ()) ∧ w3.allAtoms env = .ok as' ∧ w3.allSpecies env = .ok ss' ∧
      as.length = ss.length ∧ as'.length = ss'.length ∧ (as'.zip ss').Perm ((as.zip ss).map fun a => (t.apply a.1, a.2)) := by
  obtain ⟨w1, n1, hp1⟩ := C95_populate_succeeds env w n xs hx (ItemOf.balanced hm) (ItemOf.supplying hQ hm)
  obtain ⟨pairs, ys, rfl, hy, hys, hpairs⟩ := World.populate_itemOf hQ hx hm hp1
  have hmy : ∀ y ∈ ys, ItemOf Q y := by
    intro y hy'
    obtain ⟨x, hx', rfl⟩ := List.mem_map.mp (hys.mem_iff.mp hy')
    exact (hpairs x hx').1
  obtain ⟨w2, q, ht1, hq, hw2, hqp⟩ := World.transform_itemOf hT hy hmy
  have hm2 : ∀ z ∈ q.map Prod.snd, ItemOf Q' z := by
    intro z hz
    obtain ⟨x, hx', rfl⟩ := List.mem_map.mp hz
    exact (hqp x hx').1
  obtain ⟨w3, n3, hp3⟩ := C95_populate_succeeds env w2 n' _ hw2 (ItemOf.balanced hm2) (ItemOf.supplying hQ' hm2)
  -- the scene populated twice, as an intermediate step
  obtain ⟨w1', n1', hp1'⟩ := C95_populate_succeeds env w1 n1 ys hy (ItemOf.balanced hmy) (ItemOf.supplying hQ hmy)
  obtain ⟨as, ss, bs, rs, a1, a2, b1, b2, a3, b3, hab⟩ := C96_images env id pairs (fun x hx => (hpairs x hx).2) w w1 w1 w1' n n1 n1 n1' ys hx hy hys
    (ItemOf.balanced hm) (ItemOf.balanced hmy) hp1 hp1'
  obtain ⟨bs', rs', as', ss', b1', b2', c1, c2, -, c3, hbc⟩ := C96_images env t.apply q (fun x hx => (hqp x hx).2) w1 w2 w1' w3 n1 n' n1' n3 _ (by rw [hq]; exact hy) hw2
    (.refl _) (by rw [hq]; exact ItemOf.balanced hmy) (ItemOf.balanced hm2) hp1' hp3
  rw [b1] at b1'; injection b1' with b1'; subst b1'
  rw [b2] at b2'; injection b2' with b2'; subst b2'
  refine ⟨w1, w2, w3, n1, n3, as, ss, as', ss', hp1, a1, a2, ht1, hp3, c1, c2, a3, c3, ?_⟩
  rw [movePos_id, List.map_id] at hab
  exact hbc.trans (hab.map _)


/-! ## crystals under translations -/

/-- A Volume without points whose crystal, strained about its own origin or unstrained and without substitutions, supplies the sites
`ps` with species `zs` to the bounding box. -/
structure Stocked (env : Env) (v : Vol) (c : Gen ℝ) (x : Voxel ℝ) (box ps : List (V3 ℝ)) (zs : List ℤ) : Prop where
  points : v.points = none
  tri : v.tri = none
  gen : v.gen = some (.crystal c)
  voxel : c.voxel = some x
  bases : x.bases.det ≠ 0
  det : x.sbases.det ≠ 0
  post : c.post = none
  strain : ∀ st, c.strain = some st → st.fromGenerator = true
  bbox : v.boundingBox env = .ok (.rows box)
  supply : ∀ rng, (c.supply rng box).2 = .ok (ps, zs)
  length : ps.length = zs.length

theorem Stocked.genSupply {env : Env} {v : Vol} {c : Gen ℝ} {x : Voxel ℝ} {box ps : List (V3 ℝ)} {zs : List ℤ} (h : Stocked env v c x box ps zs)
    (n : ℕ) : GenObj.supply env n (.crystal c) (.rows box) =
      (.crystal { c with strain := c.strain.map fun st => st.scrape x.sbases x.origin }, .ok (ps, zs)) := by
  unfold GenObj.supply
  simp only [h.voxel]
  have h1 := h.supply (env.rng n)
  have h2 := supply_after h.voxel (c1 := (c.supply (env.rng n) box).1) (Prod.ext rfl h1)
  refine Prod.ext ?_ h1
  show GenObj.crystal (c.supply (env.rng n) box).1 = _
  rw [h2, h.voxel]

open Classical in
theorem Stocked.fills {env : Env} {v : Vol} {c : Gen ℝ} {x : Voxel ℝ} {box ps : List (V3 ℝ)} {zs : List ℤ} (h : Stocked env v c x box ps zs)
    {cs : List (V3 ℝ × ℤ)} (hf : Fills env (.vol v) cs) : cs = (ps.zip zs).filter fun a => decide (Inside env (.vol v) a.1) := by
  cases hf with
  | vol _ ds hd =>
    obtain ⟨n, b, g, qs, ys, h1, h2, h3, h4, rfl⟩ := hd
    rw [h.bbox] at h1; injection h1 with h1; subst h1
    rw [h.gen] at h2; injection h2 with h2; subst h2
    rw [h.genSupply n] at h3
    injection h3 with h3
    injection h3 with h5 h6
    rw [h5, h6]

theorem inside_of_eq {env : Env} {v v' : Vol} (h : v'.interior env = v.interior env) (p : V3 ℝ) :
    Inside env (.vol v') p ↔ Inside env (.vol v) p := by
  rw [← Vol.interior_iff, ← Vol.interior_iff, h]

open Classical in
theorem Stocked.populate {env : Env} {v : Vol} {c : Gen ℝ} {x : Voxel ℝ} {box ps : List (V3 ℝ)} {zs : List ℤ} (h : Stocked env v c x box ps zs)
    (n : ℕ) : ∃ v' c', v.populate env n = (v', .ok ()) ∧ Stocked env v' c' x box ps zs ∧ Image env id (.vol v) (.vol v') := by
  have hpop := Vol.populate_ok h.bbox h.gen (h.genSupply n) h.length
  have hst : Stocked env { v with
        gen := (some (.crystal { c with strain := c.strain.map fun st => st.scrape x.sbases x.origin }) : Option GenObj)
        atoms := some (maskSel (ps.map (v.interior env)) ps)
        species := some (maskSel (ps.map (v.interior env)) zs) } { c with strain := c.strain.map fun st => st.scrape x.sbases x.origin } x box ps zs := by
    refine ⟨h.points, h.tri, rfl, h.voxel, h.bases, h.det, h.post, ?_, h.bbox, fun rng => by rw [supply_scraped]; exact h.supply rng, h.length⟩
    intro st hst
    simp only [Option.map_eq_some_iff] at hst
    obtain ⟨st0, h0, rfl⟩ := hst
    have := h.strain st0 h0
    unfold HStrain.scrape
    split_ifs <;> simp_all
  refine ⟨_, _, hpop, hst, .vol _ _ rfl (fun p => by rw [← Vol.interior_iff, ← Vol.interior_iff]; rfl) ?_⟩
  intro cs cs' h1 h2
  rw [h.fills h1, hst.fills h2, movePos_id, List.map_id]
  have : (fun a : V3 ℝ × ℤ => decide (Inside env (.vol { v with
        gen := (some (.crystal { c with strain := c.strain.map fun st => st.scrape x.sbases x.origin }) : Option GenObj)
        atoms := some (maskSel (ps.map (v.interior env)) ps)
        species := some (maskSel (ps.map (v.interior env)) zs) }) a.1)) = fun a => decide (Inside env (.vol v) a.1) :=
    funext fun a => decide_eq_decide.mpr (by rw [← Vol.interior_iff, ← Vol.interior_iff]; rfl)
  rw [this]

open Classical in
theorem Stocked.translate {env : Env} {v : Vol} {c : Gen ℝ} {x : Voxel ℝ} {box ps : List (V3 ℝ)} {zs : List ℤ} (h : Stocked env v c x box ps zs)
    (s : V3 ℝ) : ∃ v' c' y, v.transform env (.translation s true false) = (v', .ok ()) ∧
      Stocked env v' c' y (box.map (· + s)) (ps.map (· + s)) zs ∧ Image env (· + s) (.vol v) (.vol v') := by
  let w : Voxel ℝ := ⟨x.bases, x.scale, x.origin + s⟩
  let c2 : Gen ℝ := { c with voxel := some w }
  let v2 : Vol := { v with algs := v.algs.map (shiftAlg s), gen := some (.crystal c2) }
  have htrans : v.transform env (.translation s true false) = (v2, .ok ()) := by
    unfold Vol.transform Vol.transformRest
    simp only [h.points, h.gen, transformAlgs_shift, Tr.locked, if_true, GenObj.transform, Gen.transform, h.voxel, Tr.bases,
      basesSet_of_det h.bases, Tr.basisOnly, Tr.apply, v2, c2, w]
    rfl
  have hin : ∀ p, Inside env (.vol v2) (p + s) ↔ Inside env (.vol v) p := by
    intro p
    rw [← Vol.interior_iff, ← Vol.interior_iff]
    unfold Vol.interior
    simp only [v2, h.tri, List.all_map]
    have : ((fun a => Alg.interior a (p + s)) ∘ shiftAlg s) = fun a => Alg.interior a p := funext fun a => shiftAlg_interior a p
    rw [this]
  have hst : Stocked env v2 c2 w (box.map (· + s)) (ps.map (· + s)) zs := by
    refine ⟨h.points, h.tri, rfl, rfl, h.bases, h.det, h.post, h.strain, boundingBox_shift (w := v2) (s := s) env h.points h.points rfl h.bbox, fun rng => ?_,
      by rw [List.length_map]; exact h.length⟩
    have := supply_covariant (g := c) (v := x) (w := w) (L := 1) (f := (· + s)) h.voxel h.det
      (by rw [M3.det_one]; exact one_ne_zero) (by rw [M3.one_mul']; rfl) rfl
      (by intro p q; rw [M3.mulVec_one, add_sub_add_right_eq_sub]) (by rw [h.post]; simp) (fun st hst => ⟨h.strain st hst, .inr rfl⟩) rng box
    rw [h.supply rng] at this
    exact this
  refine ⟨v2, c2, w, htrans, hst, .vol _ _ rfl hin ?_⟩
  intro cs cs' h1 h2
  rw [h.fills h1, hst.fills h2, List.zip_map_left, List.filter_map]
  have : ((fun a : V3 ℝ × ℤ => decide (Inside env (.vol v2) a.1)) ∘ Prod.map (· + s) id) = fun a => decide (Inside env (.vol v) a.1) := by
    funext a
    exact decide_eq_decide.mpr (hin a.1)
  rw [this]
  exact .refl _

/-- A Volume without points that can be populated and whose generator is a crystal, strained about its own origin or unstrained, without
substitutions.  There is no condition on the surfaces or on the sites. -/
structure Placed (env : Env) (v : Vol) : Prop where
  points : v.points = none
  tri : v.tri = none
  gen : ∃ c x, v.gen = some (.crystal c) ∧ c.voxel = some x ∧ x.bases.det ≠ 0 ∧ x.sbases.det ≠ 0 ∧ c.post = none ∧
    ∀ st, c.strain = some st → st.fromGenerator = true
  fits : ∃ n v', v.populate env n = (v', .ok ())

theorem Placed.stocked {env : Env} {v : Vol} (h : Placed env v) : ∃ c x box ps zs, Stocked env v c x box ps zs := by
  obtain ⟨c, x, h1, h2, h3, h4, h5, h6⟩ := h.gen
  obtain ⟨n, v', hp⟩ := h.fits
  obtain ⟨b, g, g', cs, zs, hbb, hg', hsup, hlen, -⟩ := Vol.populate_inv hp
  rw [h1] at hg'
  obtain rfl := Option.some.inj hg'
  unfold GenObj.supply at hsup
  simp only [h2] at hsup
  cases b with
  | cleared => simp at hsup
  | single p => simp at hsup
  | tuple p q => simp at hsup
  | none => simp at hsup
  | rows box =>
    simp only [Prod.mk.injEq] at hsup
    obtain ⟨rfl, hs2⟩ := hsup
    refine ⟨c, x, box, cs, zs, h.points, h.tri, h1, h2, h3, h4, h5, h6, hbb, fun rng => ?_, hlen⟩
    obtain ⟨zs', e1, -, e2⟩ := supply_positions c (by rw [h5]; simp) (env.rng n) rng box hs2
    rw [e1, e2 (.inl h5)]

theorem Stocked.placed {env : Env} {v : Vol} {c : Gen ℝ} {x : Voxel ℝ} {box ps : List (V3 ℝ)} {zs : List ℤ} (h : Stocked env v c x box ps zs) :
    Placed env v := by
  obtain ⟨v', -, h1, -⟩ := h.populate 0
  exact ⟨h.points, h.tri, ⟨c, x, h.gen, h.voxel, h.bases, h.det, h.post, h.strain⟩, 0, v', h1⟩

theorem placed_fillable (env : Env) : Fillable env (Placed env) := by
  intro v h n
  obtain ⟨c, x, box, ps, zs, h⟩ := h.stocked
  obtain ⟨v', c', h1, h2, h3⟩ := h.populate n
  exact ⟨v', h1, h2.placed, h3⟩

theorem placed_moves (env : Env) (s : V3 ℝ) : MovesTo env (.translation s true false) (Placed env) (Placed env) := by
  intro v h
  obtain ⟨c, x, box, ps, zs, h⟩ := h.stocked
  obtain ⟨v', c', y, h1, h2, h3⟩ := h.translate s
  exact ⟨v', h1, h2.placed, h3⟩

/-- **C96 (translations).** A scene of molecules and of nested volumes of crystal: `populate()`, then a translation of every object together with
its generator, then `populate()` again.  All succeed, and the scene then shows the shifted atoms with the same species.  Any combination of
spheres, planes and cylinders that can be populated is allowed, sites may lie on or near the surfaces, crystals may be strained about their
origin, and cylinders may have any axis for which there is a bounding box. -/
theorem C96_translation (env : Env) (w : World) (xs : List Item) (hx : w.objects = some xs) (hm : ∀ x ∈ xs, ItemOf (Placed env) x)
    (s : V3 ℝ) (n n' : ℕ) :
    ∃ w1 w2 w3 n1 n3 as ss as' ss', w.populate env n = (w1, n1, .ok ()) ∧ w1.allAtoms env = .ok as ∧ w1.allSpecies env = .ok ss ∧
      w1.transform env (.translation s true false) = (w2, .ok ()) ∧ w2.populate env n' = (w3, n3, .ok ()) ∧
      w3.allAtoms env = .ok as' ∧ w3.allSpecies env = .ok ss' ∧ as.length = ss.length ∧ as'.length = ss'.length ∧
      (as'.zip ss').Perm ((as.zip ss).map fun a => (a.1 + s, a.2)) :=
  World.moves env (placed_fillable env) (placed_fillable env) w xs hx hm _ (placed_moves env s) n n'

/-! ## one object -/

theorem maskSel_all {α : Type} (xs : List α) : maskSel (List.replicate xs.length true) xs = xs := by
  induction xs with
  | nil => rfl
  | cons x xs ih => simp only [List.length_cons, List.replicate_succ, maskSel]; simpa [maskSel] using ih

/-- A scene of one Volume shows what the Volume holds. -/
theorem World.populate_one {env : Env} {v v' : Vol} {n : ℕ} {ps : List (V3 ℝ)} (h : v.populate env n = (v', .ok ())) (hp : v'.atoms = some ps)
    (c : Option (List (List Bool))) (b : V3 ℝ × V3 ℝ) :
    ∃ w' n', World.populate env ⟨some [.vol (.vol v)], c, b⟩ n = (w', n', .ok ()) ∧ w'.objects = some [.vol (.vol v')] ∧
      w'.allAtoms env = .ok ps := by
  have hh : ∃ zs, v'.species = some zs := by
    obtain ⟨_, _, _, cs, zs, -, -, -, -, rfl⟩ := Vol.populate_inv h
    exact ⟨_, rfl⟩
  obtain ⟨zs, hz⟩ := hh
  have hcur : (Item.view env (.vol (.vol v'))).cur = some (ps, zs) := by
    simp [Item.view, Item.held, VTree.held, hp, hz]
  have hc : Precedence.checks [Scene.toObj (Item.view env (.vol (.vol v')))] = .ok [List.replicate ps.length true] := by
    simp [Precedence.checks, Precedence.getPriorities, Precedence.relLevels, Precedence.checkOne, Precedence.checkAgainst, npUniqueIdx, stableSort,
      insertByKey, pyGet, Scene.toObj, hcur, bind, Except.bind, pure, Except.pure]
  refine ⟨⟨some [.vol (.vol v')], some [List.replicate ps.length true], b⟩, n + 1, ?_, rfl, ?_⟩
  · simp only [World.populate, Item.populateList, Item.populate, VTree.populate, h, stableSort, insertByKey, List.map, hc]
  · simp only [World.allAtoms, World.view, Scene.allAtoms, Scene.gather, Option.map, List.map, List.zipIdx, List.mapM_cons, Scene.maskedOf, pyGet,
      List.getElem?_cons_zero, hcur, npMask, List.length_replicate, if_true, List.mapM_nil]
    simp only [bind, Except.bind, pure, Except.pure, List.length_replicate, if_true, maskSel_all, List.flatten_cons, List.flatten_nil, List.append_nil]

theorem apply_injective {t : Tr ℝ} (ht : RigidMotion t) : Function.Injective t.apply := by
  intro p q h
  have h1 := C39_distances_preserved t (.motion t ht) p q
  rw [h] at h1
  have h2 : Spec.dist p q = 0 := by rw [← h1]; simp [Spec.dist]
  unfold Spec.dist at h2
  have h3 := (Real.sqrt_eq_zero (by positivity)).mp h2
  have hx : p.x - q.x = 0 := by nlinarith [sq_nonneg (p.x - q.x), sq_nonneg (p.y - q.y), sq_nonneg (p.z - q.z)]
  have hy : p.y - q.y = 0 := by nlinarith [sq_nonneg (p.x - q.x), sq_nonneg (p.y - q.y), sq_nonneg (p.z - q.z)]
  have hz : p.z - q.z = 0 := by nlinarith [sq_nonneg (p.x - q.x), sq_nonneg (p.y - q.y), sq_nonneg (p.z - q.z)]
  ext <;> linarith

theorem scene_of_one {env : Env} {t : Tr ℝ} (ht : RigidMotion t) {v v1 v2 v3 : Vol} {n n' : ℕ} {ps qs : List (V3 ℝ)} (h1 : v.populate env n = (v1, .ok ()))
    (hps : v1.atoms = some ps) (h2 : v1.transform env t = (v2, .ok ())) (h3 : v2.populate env n' = (v3, .ok ())) (hqs : v3.atoms = some qs)
    {p : V3 ℝ} (hp : p ∉ ps) (hq : t.apply p ∈ qs) (b : V3 ℝ × V3 ℝ) :
    ∃ w1 w2 w3 n1 n3, World.populate env ⟨some [.vol (.vol v)], none, b⟩ n = (w1, n1, .ok ()) ∧ w1.allAtoms env = .ok ps ∧
      w1.transform env t = (w2, .ok ()) ∧ w2.populate env n' = (w3, n3, .ok ()) ∧ w3.allAtoms env = .ok qs ∧ ¬ qs.Perm (ps.map t.apply) := by
  obtain ⟨w1, n1, e1, e2, e3⟩ := World.populate_one h1 hps none b
  obtain ⟨w3, n3, e4, -, e5⟩ := World.populate_one h3 hqs w1.checks w1.bounds
  refine ⟨w1, ⟨some [.vol (.vol v2)], w1.checks, w1.bounds⟩, w3, n1, n3, e1, e3, ?_, e4, e5, ?_⟩
  · simp only [World.transform, e2, Item.transformList, Item.transform, VTree.transform, h2]
  · intro hperm
    obtain ⟨q, h4, h5⟩ := List.mem_map.mp (hperm.mem_iff.mp hq)
    exact hp (apply_injective ht h5 ▸ h4)

/-- **C96 is false for rotations when sites lie in the tolerance shell.** A scene with one ball of crystal that has a site between the nominal
radius and the tolerance: after a locked rotation of the ball about its centre the populated scene shows atoms that are not the rotated ones. -/
theorem C96_refuted (env : Env) (b : V3 ℝ × V3 ℝ) (n n' : ℕ) :
    ∃ t w1 w2 w3 n1 n3 as as', RigidMotion t ∧ t.locked = true ∧ t.basisOnly = false ∧
      World.populate env ⟨some [.vol (.vol (unitBall ⟨99 / 100, 0, 0⟩))], none, b⟩ n = (w1, n1, .ok ()) ∧ w1.allAtoms env = .ok as ∧
      w1.transform env t = (w2, .ok ()) ∧ w2.populate env n' = (w3, n3, .ok ()) ∧ w3.allAtoms env = .ok as' ∧
      ¬ as'.Perm (as.map t.apply) := by
  obtain ⟨t, v1, v2, v3, ps, qs, h1, h2, h3, h4, h5, h6, h7, h8, p, h9, h10⟩ := C17_tolerance_shell_refuted env n n'
  obtain ⟨w1, w2, w3, n1, n3, e1, e2, e3, e4, e5, e6⟩ := scene_of_one h1 h4 h5 h6 h7 h8 h9 h10 b
  exact ⟨t, w1, w2, w3, n1, n3, ps, qs, h1, h2, h3, e1, e2, e3, e4, e5, e6⟩

/-- **C96 is false for rotations of compressed crystals.** -/
theorem C96_strained_refuted (env : Env) (b : V3 ℝ × V3 ℝ) (n n' : ℕ) :
    ∃ t w1 w2 w3 n1 n3 as as', RigidMotion t ∧ t.locked = true ∧ t.basisOnly = false ∧
      World.populate env ⟨some [.vol (.vol squeezedBall)], none, b⟩ n = (w1, n1, .ok ()) ∧ w1.allAtoms env = .ok as ∧
      w1.transform env t = (w2, .ok ()) ∧ w2.populate env n' = (w3, n3, .ok ()) ∧ w3.allAtoms env = .ok as' ∧
      ¬ as'.Perm (as.map t.apply) := by
  obtain ⟨t, v1, v2, v3, ps, qs, h1, h2, h3, h4, h5, h6, h7, h8, p, h9, h10⟩ := C17_strained_refuted env n n'
  obtain ⟨w1, w2, w3, n1, n3, e1, e2, e3, e4, e5, e6⟩ := scene_of_one h1 h4 h5 h6 h7 h8 h9 h10 b
  exact ⟨t, w1, w2, w3, n1, n3, ps, qs, h1, h2, h3, e1, e2, e3, e4, e5, e6⟩

/-- The scene of the refutations and a nested volume with the compressed ball: after a translation it shows the shifted atoms. -/
example (env : Env) (b : V3 ℝ × V3 ℝ) (s : V3 ℝ) (n n' : ℕ) :
    ∃ w1 w2 w3 n1 n3 as ss as' ss', World.populate env ⟨some [.vol (.vol (unitBall ⟨99 / 100, 0, 0⟩)), .vol (.multi [.vol squeezedBall] 2 none)], none, b⟩ n =
        (w1, n1, .ok ()) ∧ w1.allAtoms env = .ok as ∧ w1.allSpecies env = .ok ss ∧
      w1.transform env (.translation s true false) = (w2, .ok ()) ∧ w2.populate env n' = (w3, n3, .ok ()) ∧
      w3.allAtoms env = .ok as' ∧ w3.allSpecies env = .ok ss' ∧ as.length = ss.length ∧ as'.length = ss'.length ∧
      (as'.zip ss').Perm ((as.zip ss).map fun a => (a.1 + s, a.2)) := by
  refine C96_translation env _ _ rfl ?_ s n n'
  intro x hx
  have hd : (1 : M3 ℝ).det ≠ 0 := by rw [M3.det_one]; norm_num
  simp only [List.mem_cons, List.not_mem_nil, or_false] at hx
  rcases hx with rfl | rfl
  · obtain ⟨v1, ps, zs, h1, -⟩ := unitBall_atoms env ⟨99 / 100, 0, 0⟩ 0
    exact .vol _ (.vol _ ⟨rfl, rfl, ⟨_, unitVoxel, rfl, rfl, hd, by rw [unitVoxel_sbases]; exact hd, rfl, by simp⟩, 0, v1, h1⟩)
  · obtain ⟨v1, ps, zs, h1, -⟩ := squeezedBall_atoms env 0
    refine .vol _ (.multi _ _ _ (by simp) fun u hu => ?_)
    rw [List.mem_singleton] at hu
    subst hu
    exact .vol _ ⟨rfl, rfl, ⟨_, unitVoxel, rfl, rfl, hd, by rw [unitVoxel_sbases]; exact hd, rfl, by simp [halving]⟩, 0, v1, h1⟩

end CZ
