import Verif.PrefabLemmas
import Verif.Props.Transform
import Verif.Props.Generator

/-!
# Properties C69, C70: layered defect structures
-/

namespace CZ
open Spec

noncomputable section
open Classical

namespace Prefab

/-- Transforming a generator transforms its crystal. -/
theorem crystal_image {g g' : Gen ℝ} {t : Tr ℝ} {v : Voxel ℝ} (hv : g.voxel = some v) (hs : ColumnScale v.scale)
    (h : g.fromGenerator [t] = .ok g') (hb : t.basisOnly = false) (L : M3 ℝ) (hL : ∀ B, t.bases B = L * B)
    (ha : ∀ x y, t.apply x - t.apply y = L.mulVec (x - y)) :
    (∃ v', g'.voxel = some v' ∧ v'.scale = v.scale ∧ v'.sbases = L * v.sbases ∧ v'.bases = L * v.bases ∧ v'.origin = t.apply v.origin) ∧
    g'.struct = g.struct ∧ g'.strain = g.strain ∧ g'.post = g.post ∧
    ∀ a, a ∈ CrystalOf g' ↔ ∃ b ∈ CrystalOf g, a = (t.apply b.1, b.2) := by
  simp only [Gen.fromGenerator, Gen.transform, hv, hL] at h
  cases hset : Voxel.basesSet (L * v.bases) with
  | error e => rw [hset] at h; cases h
  | ok B =>
    have hB : B = L * v.bases := by
      unfold Voxel.basesSet at hset
      split_ifs at hset
      cases hset; rfl
    subst hB
    rw [hset] at h
    simp only [hb] at h
    cases h
    have hw : (⟨L * v.bases, v.scale, t.apply v.origin⟩ : Voxel ℝ).sbases = L * v.sbases := sbases_mul hs L _
    refine ⟨⟨_, rfl, rfl, hw, rfl, rfl⟩, rfl, rfl, rfl, ?_⟩
    have hsite : ∀ n f, siteAt (L * v.sbases) (t.apply v.origin) n f = t.apply (siteAt v.sbases v.origin n f) := by
      intro n f
      have := ha (siteAt v.sbases v.origin n f) v.origin
      rw [sub_eq_iff_eq_add] at this
      rw [this, siteAt_eq, siteAt_eq, M3.mulVec_mul, M3.mulVec_mul, add_sub_cancel_right, M3.mulVec_add]
    intro a
    constructor
    · rintro ⟨v', s, e1, e2, n, f, hf, rfl⟩
      cases e1
      refine ⟨(siteAt v.sbases v.origin n f.1, f.2), ⟨v, s, hv, e2, n, f, hf, rfl⟩, ?_⟩
      show (siteAt (⟨L * v.bases, v.scale, t.apply v.origin⟩ : Voxel ℝ).sbases (t.apply v.origin) n f.1, f.2) = _
      rw [hw, hsite]
    · rintro ⟨b, ⟨v', s, e1, e2, n, f, hf, rfl⟩, rfl⟩
      rw [hv] at e1
      cases e1
      refine ⟨_, s, rfl, e2, n, f, hf, ?_⟩
      show _ = (siteAt (⟨L * v.bases, v.scale, t.apply v.origin⟩ : Voxel ℝ).sbases (t.apply v.origin) n f.1, f.2)
      rw [hw, hsite]

theorem M3_one_mul (B : M3 ℝ) : 1 * B = B := by ext <;> simp [M3.mul_def, M3.one_def]

theorem displaced_of {g g' : Gen ℝ} {b : V3 ℝ} {v : Voxel ℝ} (hv : g.voxel = some v) (hs : ColumnScale v.scale)
    (h : g.fromGenerator [.translation b true false] = .ok g') :
    (∃ v', g'.voxel = some v' ∧ v'.scale = v.scale ∧ v'.sbases = v.sbases ∧ v'.bases = v.bases ∧ v'.origin = v.origin + b) ∧
    g'.struct = g.struct ∧ Displaced b g g' := by
  obtain ⟨⟨v', h1, h2, h3, h4, h5⟩, h6, -, -, h7⟩ := crystal_image hv hs h rfl 1 (fun B => (M3_one_mul B).symm)
    (fun x y => by rw [M3.mulVec_one]; simp only [Tr.apply]; ext <;> simp)
  rw [M3_one_mul] at h3 h4
  refine ⟨⟨v', h1, h2, h3, h4, h5⟩, h6, fun a => ?_⟩
  rw [h7]
  constructor
  · rintro ⟨c, hc, rfl⟩; exact ⟨c, hc, rfl, rfl⟩
  · rintro ⟨c, hc, e1, e2⟩; exact ⟨c, hc, Prod.ext e2 e1⟩

theorem mirrored_of {g g' : Gen ℝ} {pl : Plane} (hn : norm3 pl.normal = 1) {v : Voxel ℝ} (hv : g.voxel = some v)
    (hs : ColumnScale v.scale) (h : g.fromGenerator [Tr.mkReflection pl true false] = .ok g') :
    (∃ v', g'.voxel = some v' ∧ v'.scale = v.scale ∧ v'.sbases = Tr.reflMatrix pl.normal * v.sbases ∧
      v'.bases = Tr.reflMatrix pl.normal * v.bases) ∧
    g'.struct = g.struct ∧ Mirrored pl.normal (height pl.normal pl.point) g g' := by
  have h1 : pl.normal.normSq = 1 := norm3_eq_one.mp hn
  obtain ⟨⟨v', e1, e2, e3, e4, -⟩, e6, -, -, e7⟩ := crystal_image hv hs h rfl (Tr.reflMatrix pl.normal) (fun B => rfl)
    (fun x y => by
      simp only [Tr.mkReflection, Tr.apply, Tr.matApply]
      rw [add_sub_add_right_eq_sub, ← M3.mulVec_sub]
      congr 1; ext <;> simp)
  refine ⟨⟨v', e1, e2, e3, e4⟩, e6, fun a => ?_⟩
  rw [e7]
  have hq : ∀ q x y : V3 ℝ, height pl.normal q = height pl.normal pl.point →
      (MirrorImage pl.normal q x y ↔ y = (Tr.mkReflection pl true false).apply x) := by
    intro q x y hq
    have hP : ∀ z : V3 ℝ, Perp (z - q) pl.normal ↔ Perp (z - pl.point) pl.normal := by
      intro z
      unfold Perp
      unfold height at hq
      simp only [V3.sub_x, V3.sub_y, V3.sub_z]
      constructor <;> intro h <;> linarith
    have hm := (C41_reflection_is_mirror pl (by rw [len_eq]; exact hn) true false x).1
    constructor
    · rintro ⟨m1, s, m2⟩
      rw [hP] at m1
      obtain ⟨k1, s', k2⟩ := hm
      have ey : y = x + s • pl.normal := by rw [← m2]; ext <;> simp
      have ez : (Tr.mkReflection pl true false).apply x = x + s' • pl.normal := by rw [← k2]; ext <;> simp
      rw [ey] at m1
      rw [ez] at k1
      rw [ey, ez]
      have hs' : s = s' := by
        unfold Perp at m1 k1
        have hns : pl.normal.x * pl.normal.x + pl.normal.y * pl.normal.y + pl.normal.z * pl.normal.z = 1 := h1
        simp only [V3.sub_x, V3.sub_y, V3.sub_z, V3.add_x, V3.add_y, V3.add_z, V3.smul_x, V3.smul_y, V3.smul_z] at m1 k1
        linear_combination 2 * m1 - 2 * k1 + (s' - s) * hns
      rw [hs']
    · rintro rfl
      exact ⟨(hP _).mpr hm.1, hm.2⟩
  constructor
  · rintro ⟨c, hc, rfl⟩
    exact ⟨c, hc, rfl, pl.point, rfl, (hq pl.point _ _ rfl).mpr rfl⟩
  · rintro ⟨c, hc, f1, q, f2, f3⟩
    exact ⟨c, hc, Prod.ext ((hq q _ _ f2).mp f3) f1⟩

/-- Number of twins among the first `k` defects. -/
def twinsBefore (p : Fcc) (rand : ℕ → ℝ) (k : ℕ) : ℕ := ((List.range k).filter fun i => decide (¬ rand i < p.ratio)).length

theorem twinsBefore_succ (p : Fcc) (rand : ℕ → ℝ) (k : ℕ) :
    twinsBefore p rand (k + 1) = twinsBefore p rand k + if rand k < p.ratio then 0 else 1 := by
  unfold twinsBefore
  rw [List.range_succ, List.filter_append, List.length_append]
  by_cases h : rand k < p.ratio
  · simp [h]
  · rw [if_neg h, List.filter_cons, if_pos (by simpa using h)]; simp

theorem splits_spec {n m l : ℤ} {rng : ℕ → ℕ} {fuel : ℕ} {xs : List ℤ} (hn : 0 ≤ n) (h : Splits.getNSplits n m l rng fuel = some (.ok xs)) :
    Splitting n m l xs := by
  rcases hn.lt_or_eq with h1 | h1
  · exact Splits.C55_separation n m l (by omega) rng fuel xs h
  · subst h1
    unfold Splits.getNSplits Splits.start at h
    rw [if_pos rfl] at h
    cases h
    exact ⟨rfl, by simp, List.Pairwise.nil⟩

theorem fcc_build_inv {env : Env} {p : Fcc} {g : Gen ℝ} {v : Vol} {x : Voxel ℝ} (hg : p.gen = some g) (hv : p.vol = some (.vol v))
    (hx : g.voxel = some x) (hN : 0 ≤ p.N) {split : ℕ → ℕ} {fuel : ℕ} {rand : ℕ → ℝ} {t : VTree} {tw sf : Bool}
    (h : p.build env split fuel rand = some (.ok (t, tw, sf))) :
    ∃ (n0 : V3 ℝ) (b : BBox) (se : V3 ℝ × V3 ℝ) (sp ep : Plane) (s : Struct ℝ) (d : ℝ) (L : ℕ) (xs : List ℤ) (st : State),
      unitOrNan (x.bases.mulVec (millerV p.plane)) = .ok n0 ∧ v.boundingBox env = .ok b ∧ boxSpan n0 b = .ok se ∧
      snapPlane (sphereSpan n0 v.algs se).1 g p.plane "floor" = .ok sp ∧ snapPlane (sphereSpan n0 v.algs se).2 g p.plane "ceil" = .ok ep ∧
      g.struct = some s ∧ dHkl s p.plane = .ok d ∧ L = (npRound (ep.distFrom sp.point / d)).toNat + 1 ∧
      Splitting p.N p.minSep L xs ∧
      assemble env g v p.N ((List.range L).map (rung sp.normal sp.point d)) xs.reverse (fun i => fccDefect p.plane p.ratio (rand i)) = .ok st ∧
      t = .multi st.vols 0 none ∧ tw = st.twin ∧ sf = st.fault := by
  unfold Fcc.build at h
  simp only [hg, hx] at h
  split at h
  · cases h
  rename_i n0 hn0
  split at h
  · cases h
  rename_i w planes hc
  split at h
  · cases h
  · cases h
  rename_i xs hsplit
  obtain ⟨e0, b, se, sp, ep, s, d, hb, hse, hsp, hep, hstr, hd, hpl⟩ := candidates_spec hc
  rw [hv] at e0
  cases e0
  cases ha : assemble env g v p.N planes xs.reverse (fun i => fccDefect p.plane p.ratio (rand i)) with
  | error e => rw [ha] at h; cases h
  | ok st =>
    rw [ha] at h
    rw [hpl] at ha
    have hspl := splits_spec hN hsplit
    rw [hpl, List.length_map, List.length_range] at hspl
    cases h
    exact ⟨n0, b, se, sp, ep, s, d, _, xs, st, hn0, hb, hse, hsp, hep, hstr, hd, rfl, hspl, ha, rfl, rfl, rfl⟩

theorem wurtzite_build_inv {env : Env} {p : Wurtzite} {g : Gen ℝ} {v : Vol} {x : Voxel ℝ} (hg : p.gen = some g) (hv : p.vol = some (.vol v))
    (hx : g.voxel = some x) (hN : 0 ≤ p.N) {split : ℕ → ℕ} {fuel : ℕ} {t : VTree} (h : p.build env split fuel = some (.ok t)) :
    ∃ (R : M3 ℝ) (n0 : V3 ℝ) (b : BBox) (se : V3 ℝ × V3 ℝ) (sp ep : Plane) (s : Struct ℝ) (d : ℝ) (L : ℕ) (xs : List ℤ) (st : State),
      x.reciprocalBases = .ok R ∧
      unitOrNan (R.mulVec (millerV ⟨0, 0, 2⟩)) = .ok n0 ∧ v.boundingBox env = .ok b ∧ boxSpan n0 b = .ok se ∧
      snapPlane (sphereSpan n0 v.algs se).1 g ⟨0, 0, 2⟩ "floor" = .ok sp ∧ snapPlane (sphereSpan n0 v.algs se).2 g ⟨0, 0, 2⟩ "ceil" = .ok ep ∧
      g.struct = some s ∧ dHkl s ⟨0, 0, 2⟩ = .ok d ∧ L = (npRound (ep.distFrom sp.point / d)).toNat + 1 ∧
      Splitting p.N p.minSep L xs ∧
      assemble env g v p.N ((List.range L).map (rung sp.normal sp.point d)) xs.reverse
        (fun _ => wurtziteDefect (((1 / 2 : ℝ) • x.sbases).mulVec ⟨0, 0, -1⟩)) = .ok st ∧
      t = .multi st.vols 0 none := by
  unfold Wurtzite.build at h
  simp only [hg, hx] at h
  split at h
  · cases h
  rename_i R hR
  split at h
  · cases h
  rename_i n0 hn0
  split at h
  · cases h
  rename_i w planes hc
  split at h
  · cases h
  · cases h
  rename_i xs hsplit
  obtain ⟨e0, b, se, sp, ep, s, d, hb, hse, hsp, hep, hstr, hd, hpl⟩ := candidates_spec hc
  rw [hv] at e0
  cases e0
  cases ha : assemble env g v p.N planes xs.reverse (fun _ => wurtziteDefect (((1 / 2 : ℝ) • x.sbases).mulVec ⟨0, 0, -1⟩)) with
  | error e => rw [ha] at h; cases h
  | ok st =>
    rw [ha] at h
    rw [hpl] at ha
    have hspl := splits_spec hN hsplit
    rw [hpl, List.length_map, List.length_range] at hspl
    cases h
    exact ⟨R, n0, b, se, sp, ep, s, d, _, xs, st, hR, hn0, hb, hse, hsp, hep, hstr, hd, rfl, hspl, ha, rfl⟩

/-! ## C69 -/

/-- Contents of a list of bodies given by a function. -/
theorem contents_range {P S : Type} (f : ℕ → Body P S) (m : ℕ) :
    contents ((List.range m).map f) = (List.range m).flatMap fun i => (f i).sites.filter fun q =>
      decide (∀ j, j < m → j ≠ i → (f j).priority ≤ (f i).priority → ¬ (f j).inside q.1) := by
  unfold contents
  have hlen : ((List.range m).map f).length = m := by simp
  have : ∀ (r l : ℕ) (hl : r = l) (F : Fin r → List (P × S)) (G : ℕ → List (P × S)),
      (∀ i : Fin r, F i = G i.val) → (List.finRange r).flatMap F = (List.range l).flatMap G := by
    intro r l hl F G hFG
    subst hl
    rw [← List.map_coe_finRange_eq_range, List.flatMap_map]
    exact List.flatMap_congr fun i _ => hFG i
  refine this _ m hlen _ _ fun i => ?_
  unfold contributed
  have hg : ((List.range m).map f)[i] = f i.val := by simp
  rw [hg]
  congr 1
  funext q
  apply decide_eq_decide.mpr
  constructor
  · intro h j hj hne hp
    have := h ⟨j, by omega⟩ (by intro e; exact hne (congrArg Fin.val e))
    simp only [Fin.getElem_fin, List.getElem_map, List.getElem_range] at this
    exact this hp
  · intro h j hne hp
    simp only [Fin.getElem_fin, List.getElem_map, List.getElem_range] at hp ⊢
    exact h j.val (by have := j.isLt; omega) (by intro e; exact hne (Fin.ext e)) hp

/-- Atoms of a MultiVolume of Volumes: every grain keeps the supplied sites it owns. -/
theorem populate_owned {env : Env} {ws : ℕ → Vol} {m : ℕ} {n n' : ℕ} {t' : VTree} {pr : ℤ} {hd : Option (List (V3 ℝ) × List ℤ)}
    (h : VTree.populate env (.multi ((List.range m).map fun k => .vol (ws k)) pr hd) n = (t', n', .ok ())) :
    ∃ as ss, t'.held = some (as, ss) ∧ as.length = ss.length ∧ ∃ sites : ℕ → List (V3 ℝ × ℤ),
      (∀ k, k < m → Supplied env (ws k) (sites k)) ∧
      (as.zip ss).Perm ((List.range m).flatMap fun k => (sites k).filter fun a => decide (Owns env ws m k a.1)) := by
  obtain ⟨as, ss, cs, h1, h2, h3, h4⟩ := C12_nested_resolution env _ _ _ _ h
  refine ⟨as, ss, h1, h2, ?_⟩
  generalize hts : (List.range m).map (fun k => VTree.vol (ws k)) = ts at h3
  obtain ⟨parts, hparts, hall, hcs⟩ : ∃ parts : List (VTree × List (V3 ℝ × ℤ)), parts.map Prod.fst = ts ∧ (∀ x ∈ parts, Fills env x.1 x.2) ∧
      cs = contents (parts.map fun x => ⟨x.1.priority, x.2, Inside env x.1⟩) := by
    cases h3 with
    | multi parts pr held h => exact ⟨parts, rfl, h, rfl⟩
  have hl : parts.length = m := by
    have := congrArg List.length hparts
    rw [← hts] at this
    simpa using this
  have hfst : ∀ k (hk : k < m), (parts[k]'(by omega)).1 = .vol (ws k) := by
    intro k hk
    have : (parts.map Prod.fst)[k]? = some (.vol (ws k)) := by
      rw [hparts, ← hts, List.getElem?_map, List.getElem?_range hk]; rfl
    rw [List.getElem?_map, List.getElem?_eq_getElem (by omega)] at this
    exact Option.some.inj this
  have hsup : ∀ k, ∃ sites : List (V3 ℝ × ℤ), ∀ hk : k < m, Supplied env (ws k) sites ∧
      (parts[k]'(by omega)).2 = sites.filter fun a => decide (Inside env (.vol (ws k)) a.1) := by
    intro k
    by_cases hk : k < m
    · have hf := hall _ (List.getElem_mem (by omega : k < parts.length))
      have e := hfst k hk
      suffices hsuf : ∃ sites : List (V3 ℝ × ℤ), Supplied env (ws k) sites ∧
          (parts[k]'(by omega)).2 = sites.filter fun a => decide (Inside env (.vol (ws k)) a.1) from
        ⟨hsuf.choose, fun _ => hsuf.choose_spec⟩
      generalize parts[k]'(by omega) = x at hf e ⊢
      obtain ⟨x1, x2⟩ := x
      simp only at e
      subst e
      cases hf with
      | vol v cs hs => exact ⟨cs, hs, rfl⟩
    · exact ⟨[], fun hk' => absurd hk' hk⟩
  choose sites hsites using hsup
  refine ⟨sites, fun k hk => (hsites k hk).1, ?_⟩
  refine h4.trans (List.Perm.of_eq ?_)
  have hp : (parts.map fun x => (⟨x.1.priority, x.2, Inside env x.1⟩ : Body (V3 ℝ) ℤ)) = (List.range m).map fun k =>
      (⟨(ws k).priority, (sites k).filter fun a => decide (Inside env (.vol (ws k)) a.1), Inside env (.vol (ws k))⟩ : Body (V3 ℝ) ℤ) := by
    apply List.ext_getElem
    · simp [hl]
    · intro k h1 h2
      have hk : k < m := by simpa using h2
      simp only [List.getElem_map, List.getElem_range]
      rw [hfst k hk, (hsites k hk).2]
      rfl
  rw [hcs, hp, contents_range]
  refine List.flatMap_congr fun k hk => ?_
  rw [List.filter_filter]
  congr 1
  funext a
  rw [← Bool.decide_and]
  apply decide_eq_decide.mpr
  unfold Owns
  tauto

/-- The layered structure of C69: `t` is a MultiVolume of `N + 1` Volumes; there are `N` planes with a common unit normal at
descending heights; every point of `v` is owned by exactly one grain, grain `k` owns the points of layer `k`; and when the
MultiVolume is populated it holds exactly the sites supplied for grain `k` that lie in layer `k`, for each `k`. -/
def Layered (env : Env) (v : Vol) (N : ℕ) (t : VTree) : Prop :=
  ∃ (n : V3 ℝ) (c : ℕ → ℝ) (ws : ℕ → Vol), len n = 1 ∧ (∀ i j, i < j → j < N → c j ≤ c i) ∧
    t = .multi ((List.range (N + 1)).map fun k => .vol (ws k)) 0 none ∧
    (∀ q, Inside env (.vol v) q → ∃! k, k ≤ N ∧ Owns env ws (N + 1) k q) ∧
    (∀ k, k ≤ N → ∀ q, Owns env ws (N + 1) k q ↔ Inside env (.vol v) q ∧ InLayer n c (1 / 10 ^ 5) N k q) ∧
    ∀ m t' m', t.populate env m = (t', m', .ok ()) → ∃ as ss, t'.held = some (as, ss) ∧ as.length = ss.length ∧
      ∃ sites : ℕ → List (V3 ℝ × ℤ), (∀ k, k ≤ N → Supplied env (ws k) (sites k)) ∧
        (as.zip ss).Perm ((List.range (N + 1)).flatMap fun k => (sites k).filter fun a =>
          decide (Inside env (.vol v) a.1 ∧ InLayer n c (1 / 10 ^ 5) N k a.1))

theorem layered_of_assemble {env : Env} {g : Gen ℝ} {v : Vol} {N m : ℤ} {n q : V3 ℝ} {d : ℝ} (hd : 0 < d) {L : ℕ} {xs : List ℤ}
    {defect : ℕ → Py Plane → Gen ℝ → ℤ → Py (Tr ℝ × ℤ × Bool)} {st : State} (hi : Intact env v) (hN : 0 ≤ N) (hm : 0 ≤ m) (hn : norm3 n = 1)
    (hsp : Splitting N m L xs)
    (h : assemble env g v N ((List.range L).map (rung n q d)) xs.reverse defect = .ok st) : Layered env v N.toNat (.multi st.vols 0 none) := by
  obtain ⟨gs, ss, ts, bs, ws, X, k1, k2, k3, k4, k5, k6, k7, k8, k9, k10, k11, -, -, -⟩ := assemble_layers hi hN hm hn hsp h
  have hmono : ∀ i j, i < j → j < N.toNat → height n q + X j * d ≤ height n q + X i * d := by
    intro i j hij hj
    have := k7 i j hij hj
    have : (X j : ℝ) ≤ X i := by exact_mod_cast (by omega : X j ≤ X i)
    nlinarith
  have ho := owns_iff (fun k hk => (k8 k hk).1) k9 k10 hmono
  refine ⟨n, fun k => height n q + X k * d, ws, by rw [len_eq]; exact hn, hmono, by rw [k5], ?_, ho, ?_⟩
  · intro z hz
    obtain ⟨k, hk, hl⟩ := inLayer_exists (n := n) (c := fun k => height n q + X k * d) (tol := 1 / 10 ^ 5) (N := N.toNat) z
    refine ⟨k, ⟨hk, (ho k hk z).mpr ⟨hz, hl⟩⟩, ?_⟩
    rintro k' ⟨hk', ho'⟩
    exact inLayer_unique hmono hk' hk ((ho k' hk' z).mp ho').2 hl
  · intro m t' m' hp
    rw [k5] at hp
    obtain ⟨as, ss, h1, h2, sites, h3, h4⟩ := populate_owned hp
    refine ⟨as, ss, h1, h2, sites, fun k hk => h3 k (by omega), h4.trans (List.Perm.of_eq ?_)⟩
    refine List.flatMap_congr fun k hk => ?_
    congr 1
    funext a
    exact decide_eq_decide.mpr (ho k (by have := List.mem_range.mp hk; omega) a.1)

/-- **C69 (fcc).** Whenever `build_object` of the fcc prefabs returns for an intact Volume and a minimum separation that is not
negative, the result is layered: each point of the volume belongs to exactly one grain. -/
theorem C69_fcc_layers (env : Env) (p : Fcc) (v : Vol) (hv : p.vol = some (.vol v)) (hi : Intact env v) (hN : 0 ≤ p.N)
    (hm : 0 ≤ p.minSep) (split : ℕ → ℕ) (fuel : ℕ) (rand : ℕ → ℝ) (t : VTree) (tw sf : Bool)
    (h : p.build env split fuel rand = some (.ok (t, tw, sf))) : Layered env v p.N.toNat t := by
  cases hg : p.gen with
  | none => unfold Fcc.build at h; rw [hg] at h; cases h
  | some g =>
    cases hx : g.voxel with
    | none => unfold Fcc.build at h; simp only [hg, hx] at h; cases h
    | some x =>
      obtain ⟨n0, b, se, sp, ep, s, d, L, xs, st, -, -, -, hsp, -, -, hd, -, hspl, ha, rfl, -, -⟩ := fcc_build_inv hg hv hx hN h
      exact layered_of_assemble (dHkl_pos hd) hi hN hm (snapPlane_unit hsp).1 hspl ha

/-- **C69 (wurtzite).** The same for wurtziteStackingFault. -/
theorem C69_wurtzite_layers (env : Env) (p : Wurtzite) (v : Vol) (hv : p.vol = some (.vol v)) (hi : Intact env v) (hN : 0 ≤ p.N)
    (hm : 0 ≤ p.minSep) (split : ℕ → ℕ) (fuel : ℕ) (t : VTree) (h : p.build env split fuel = some (.ok t)) :
    Layered env v p.N.toNat t := by
  cases hg : p.gen with
  | none => unfold Wurtzite.build at h; rw [hg] at h; cases h
  | some g =>
    cases hx : g.voxel with
    | none => unfold Wurtzite.build at h; simp only [hg, hx] at h; cases h
    | some x =>
      obtain ⟨R, n0, b, se, sp, ep, s, d, L, xs, st, -, -, -, -, hsp, -, -, hd, -, hspl, ha, rfl⟩ := wurtzite_build_inv hg hv hx hN h
      exact layered_of_assemble (dHkl_pos hd) hi hN hm (snapPlane_unit hsp).1 hspl ha

/-- **C69, finding.** With a MultiVolume as `volume` (allowed by the setter) `build_object` always raises AttributeError. -/
theorem C69_multivolume_raises (env : Env) (p : Fcc) (g : Gen ℝ) (x : Voxel ℝ) (hg : p.gen = some g) (hx : g.voxel = some x)
    (hn : x.bases.mulVec (millerV p.plane) ≠ 0) (vs : List VTree) (pr : ℤ) (hd : Option (List (V3 ℝ) × List ℤ))
    (hv : p.vol = some (.multi vs pr hd)) (split : ℕ → ℕ) (fuel : ℕ) (rand : ℕ → ℝ) :
    p.build env split fuel rand = some (.error .attribute) := by
  unfold Fcc.build
  simp only [hg, hx, unitOrNan]
  rw [if_neg (by rw [norm3_eq_zero]; exact hn)]
  simp only [hv, candidates]

/-! ## C70 -/

/-- The grains made for given planes and splits. -/
theorem fcc_grains_of {env : Env} {p : Fcc} {g : Gen ℝ} {v : Vol} {x : Voxel ℝ}
    (hx : g.voxel = some x) (hs : ColumnScale x.scale) (hi : Intact env v) (hN : 0 ≤ p.N) (hm : 0 ≤ p.minSep) {rand : ℕ → ℝ}
    {n q0 : V3 ℝ} {d : ℝ} {L : ℕ} {xs : List ℤ} {st : State} (h1 : norm3 n = 1) (hd0 : 0 < d) (hspl : Splitting p.N p.minSep L xs)
    (ha : assemble env g v p.N ((List.range L).map (rung n q0 d)) xs.reverse (fun i => fccDefect p.plane p.ratio (rand i)) = .ok st) :
    ∃ (X : ℕ → ℕ) (ws : ℕ → Vol) (gs : ℕ → Gen ℝ) (B : ℕ → M3 ℝ),
      (∀ i, i < p.N.toNat → p.minSep ≤ X i ∧ (X i : ℤ) < L - p.minSep) ∧
      (∀ i j, i < j → j < p.N.toNat → X j + p.minSep ≤ X i) ∧
      (∀ i j, i < j → j < p.N.toNat → height n q0 + X j * d ≤ height n q0 + X i * d) ∧
      VTree.multi st.vols 0 none = .multi ((List.range (p.N.toNat + 1)).map fun k => .vol (ws k)) 0 none ∧
      (∀ k, k ≤ p.N.toNat → (ws k).gen = some (.crystal (gs k)) ∧
        (∃ y, (gs k).voxel = some y ∧ y.sbases = B k) ∧
        ∀ q, Owns env ws (p.N.toNat + 1) k q ↔ Inside env (.vol v) q ∧ InLayer n (fun k => height n q0 + X k * d) (1 / 10 ^ 5) p.N.toNat k q) ∧
      gs 0 = g ∧
      (∀ k, k < p.N.toNat → ¬ rand k < p.ratio → Mirrored n (height n q0 + X k * d) (gs k) (gs (k + 1)) ∧ B (k + 1) = Tr.reflMatrix n * B k) ∧
      (∀ k, k < p.N.toNat → rand k < p.ratio → Displaced (((-1) ^ twinsBefore p rand k : ℝ) •
        cart (B k) 0 ⟨p.plane.x.sign / 3, p.plane.y.sign / 3, -2 * p.plane.z.sign / 3⟩) (gs k) (gs (k + 1)) ∧ B (k + 1) = B k) ∧
      (st.twin = true ↔ ∃ k, k < p.N.toNat ∧ ¬ rand k < p.ratio) ∧ (st.fault = true ↔ ∃ k, k < p.N.toNat ∧ rand k < p.ratio) := by
  obtain ⟨gs, ss, ts, bs, ws, X, k1, k2, k3, k4, k5, k6, k7, k8, k9, k10, k11, -, -, -⟩ := assemble_layers hi hN hm h1 hspl ha
  have hcell : ∀ k, k ≤ p.N.toNat → (∃ y, (gs k).voxel = some y ∧ ColumnScale y.scale) ∧ ss k = (-1) ^ twinsBefore p rand k := by
    intro k
    induction k with
    | zero => intro _; rw [k3]; exact ⟨⟨x, hx, hs⟩, by rw [k4]; rfl⟩
    | succ k ih =>
      intro hk
      obtain ⟨⟨y, y1, y2⟩, y3⟩ := ih (by omega)
      obtain ⟨d1, d2⟩ := k11 k (by omega)
      unfold fccDefect at d1
      rw [twinsBefore_succ]
      split_ifs at d1 ⊢ with hr
      · rw [y1] at d1
        injection d1 with d1
        injection d1 with d1 d3
        injection d3 with d3 d4
        rw [← d1] at d2
        obtain ⟨⟨v', z1, z2, -⟩, -⟩ := displaced_of y1 y2 d2
        exact ⟨⟨v', z1, z2 ▸ y2⟩, by rw [← d3, y3]; rfl⟩
      · simp only [bind, Except.bind, pure, Except.pure] at d1
        injection d1 with d1
        injection d1 with d1 d3
        injection d3 with d3 d4
        rw [← d1] at d2
        obtain ⟨⟨v', z1, z2, -⟩, -⟩ := mirrored_of (pl := rung n q0 d (X k)) h1 y1 y2 d2
        exact ⟨⟨v', z1, z2 ▸ y2⟩, by rw [← d3, y3, pow_succ]⟩
  have hbs : ∀ k, k < p.N.toNat → (bs k = true ↔ ¬ rand k < p.ratio) := by
    intro k hk
    obtain ⟨⟨y, y1, y2⟩, y3⟩ := hcell k (by omega)
    obtain ⟨d1, d2⟩ := k11 k hk
    unfold fccDefect at d1
    split_ifs at d1 with hr
    · rw [y1] at d1
      injection d1 with d1
      injection d1 with d1 d3
      injection d3 with d3 d4
      rw [← d4]; simp [hr]
    · simp only [bind, Except.bind, pure, Except.pure] at d1
      injection d1 with d1
      injection d1 with d1 d3
      injection d3 with d3 d4
      rw [← d4]; simp [hr]
  have hmono : ∀ i j, i < j → j < p.N.toNat → height n q0 + X j * d ≤ height n q0 + X i * d := by
    intro i j hij hj
    have := k7 i j hij hj
    have : (X j : ℝ) ≤ X i := by exact_mod_cast (by omega : X j ≤ X i)
    nlinarith
  refine ⟨X, ws, gs, fun k => ((gs k).voxel.map Voxel.sbases).getD 1, k6, k7, hmono, by rw [k5], ?_, k3, ?_, ?_, ?_, ?_⟩
  · intro k hk
    obtain ⟨⟨y, y1, -⟩, -⟩ := hcell k hk
    refine ⟨(k8 k hk).2, ⟨y, y1, by simp only [y1, Option.map_some, Option.getD_some]⟩, fun q => ?_⟩
    exact owns_iff (fun k hk => (k8 k hk).1) k9 k10 hmono k hk q
  · intro k hk hr
    obtain ⟨⟨y, y1, y2⟩, y3⟩ := hcell k (by omega)
    obtain ⟨d1, d2⟩ := k11 k hk
    unfold fccDefect at d1
    rw [if_neg hr] at d1
    simp only [bind, Except.bind, pure, Except.pure] at d1
    injection d1 with d1
    injection d1 with d1 d3
    rw [← d1] at d2
    have hmir := (mirrored_of (pl := rung n q0 d (X k)) h1 y1 y2 d2).2.2
    have hh : height (rung n q0 d (X k)).normal (rung n q0 d (X k)).point = height n q0 + X k * d := by
      have h11 : n.x * n.x + n.y * n.y + n.z * n.z = 1 := norm3_eq_one.mp h1
      unfold rung height
      simp only [V3.add_x, V3.add_y, V3.add_z, V3.smul_x, V3.smul_y, V3.smul_z]
      linear_combination (X k * d) * h11
    rw [hh] at hmir
    obtain ⟨⟨v', z1, -, z3, -⟩, -⟩ := mirrored_of (pl := rung n q0 d (X k)) h1 y1 y2 d2
    refine ⟨hmir, ?_⟩
    simp only [y1, z1, Option.map_some, Option.getD_some]
    exact z3
  · intro k hk hr
    obtain ⟨⟨y, y1, y2⟩, y3⟩ := hcell k (by omega)
    obtain ⟨d1, d2⟩ := k11 k hk
    unfold fccDefect at d1
    rw [if_pos hr, y1] at d1
    injection d1 with d1
    injection d1 with d1 d3
    rw [← d1] at d2
    have hdis := (displaced_of y1 y2 d2).2.2
    obtain ⟨⟨v', z1, -, z3, -⟩, -⟩ := displaced_of y1 y2 d2
    simp only [y1, z1, Option.map_some, Option.getD_some]
    rw [y3] at hdis
    refine ⟨?_, z3⟩
    convert hdis using 1
    rw [cart_eq, add_zero]
    push_cast
    ext <;> simp [M3.mulVec, M3.smul_def] <;> ring
  · rw [k1]
    exact exists_congr fun k => and_congr_right fun hk => hbs k hk
  · rw [k2]
    refine exists_congr fun k => and_congr_right fun hk => ?_
    have := hbs k hk
    rw [← Bool.not_eq_true, this, not_not]

/-- **C69, C70 (fcc prefabs).** Whenever `build_object` returns, the result is a MultiVolume of N + 1 grains, separated by N
parallel planes at descending heights `c 0 ≥ c 1 ≥ …`.  After conflict resolution grain `k` owns exactly the points of the volume
in the k-th layer.  The crystal of grain 0 is that of the given generator; the crystal of grain k+1 is that of grain k
either mirrored in the plane between them (twin, when the random number is not below the ratio) or displaced by a third of [1,1,-2]
(with the signs of the Miller indices, and reversed after an odd number of twins) of the cell of grain k. -/
theorem C70_fcc_grains (env : Env) (p : Fcc) (g : Gen ℝ) (v : Vol) (x : Voxel ℝ) (hg : p.gen = some g) (hv : p.vol = some (.vol v))
    (hx : g.voxel = some x) (hs : ColumnScale x.scale) (hi : Intact env v) (hN : 0 ≤ p.N) (hm : 0 ≤ p.minSep)
    (split : ℕ → ℕ) (fuel : ℕ) (rand : ℕ → ℝ) (t : VTree) (tw sf : Bool) (h : p.build env split fuel rand = some (.ok (t, tw, sf))) :
    ∃ (n : V3 ℝ) (c : ℕ → ℝ) (ws : ℕ → Vol) (gs : ℕ → Gen ℝ) (B : ℕ → M3 ℝ), len n = 1 ∧
      (∀ i j, i < j → j < p.N.toNat → c j ≤ c i) ∧
      t = .multi ((List.range (p.N.toNat + 1)).map fun k => .vol (ws k)) 0 none ∧
      (∀ k, k ≤ p.N.toNat → (ws k).gen = some (.crystal (gs k)) ∧
        (∃ y, (gs k).voxel = some y ∧ y.sbases = B k) ∧
        ∀ q, Owns env ws (p.N.toNat + 1) k q ↔ Inside env (.vol v) q ∧ InLayer n c (1 / 10 ^ 5) p.N.toNat k q) ∧
      gs 0 = g ∧
      (∀ k, k < p.N.toNat → ¬ rand k < p.ratio → Mirrored n (c k) (gs k) (gs (k + 1))) ∧
      (∀ k, k < p.N.toNat → rand k < p.ratio → Displaced (((-1) ^ twinsBefore p rand k : ℝ) •
        cart (B k) 0 ⟨p.plane.x.sign / 3, p.plane.y.sign / 3, -2 * p.plane.z.sign / 3⟩) (gs k) (gs (k + 1))) ∧
      (tw = true ↔ ∃ k, k < p.N.toNat ∧ ¬ rand k < p.ratio) ∧ (sf = true ↔ ∃ k, k < p.N.toNat ∧ rand k < p.ratio) := by
  obtain ⟨n0, b, se, sp, ep, s, d, L, xs, st, -, -, -, hsp, -, -, hd, -, hspl, ha, rfl, rfl, rfl⟩ := fcc_build_inv hg hv hx hN h
  obtain ⟨h1, h2⟩ := snapPlane_unit hsp
  obtain ⟨X, ws, gs, B, e1, e2, e3, e4, e5, e6, e7, e8, e9, e10⟩ := fcc_grains_of hx hs hi hN hm h1 (dHkl_pos hd) hspl ha
  exact ⟨sp.normal, _, ws, gs, B, by rw [len_eq]; exact h1, e3, e4, e5, e6, fun k hk hr => (e7 k hk hr).1,
    fun k hk hr => (e8 k hk hr).1, e9, e10⟩

/-- **C70 (kinds of defects).** fccTwin and fccStackingFault produce only twins and only stacking faults, since `np.random.rand()` is in
[0, 1); fccMixedTwinSF keeps its arguments and refuses a ratio outside [0, 1].  A generator that is not crystalline is refused. -/
theorem C70_kinds (env : Env) (gen : Option GenObj) (vol : Option VTree) (N m : ℤ) (pl : V3 ℤ) :
    (∀ ratio, (∃ p, Fcc.make gen vol ratio N m pl = .ok p) ↔ (0 ≤ ratio ∧ ratio ≤ 1) ∧ (gen = none ∨ ∃ g, gen = some (.crystal g))) ∧
    (∀ ratio p, Fcc.make gen vol ratio N m pl = .ok p → p.gen.map .crystal = gen ∧ p.vol = vol ∧ p.ratio = ratio ∧ p.N = N ∧ p.minSep = m ∧ p.plane = pl) ∧
    (∀ p, Fcc.twins gen vol N m pl = .ok p → ∀ (split : ℕ → ℕ) (fuel : ℕ) (rand : ℕ → ℝ) (t : VTree) (tw sf : Bool), (∀ k, 0 ≤ rand k ∧ rand k < 1) →
      (∀ (g : Gen ℝ) (v : Vol) (x : Voxel ℝ), gen = some (.crystal g) → vol = some (.vol v) → g.voxel = some x → ColumnScale x.scale → Intact env v → 0 ≤ N → 0 ≤ m →
        p.build env split fuel rand = some (.ok (t, tw, sf)) → sf = false ∧ (tw = true ↔ 0 < N))) ∧
    (∀ p, Fcc.stackingFault gen vol N m pl = .ok p → ∀ (split : ℕ → ℕ) (fuel : ℕ) (rand : ℕ → ℝ) (t : VTree) (tw sf : Bool), (∀ k, 0 ≤ rand k ∧ rand k < 1) →
      (∀ (g : Gen ℝ) (v : Vol) (x : Voxel ℝ), gen = some (.crystal g) → vol = some (.vol v) → g.voxel = some x → ColumnScale x.scale → Intact env v → 0 ≤ N → 0 ≤ m →
        p.build env split fuel rand = some (.ok (t, tw, sf)) → tw = false ∧ (sf = true ↔ 0 < N))) := by
  have hmk : ∀ ratio p, Fcc.make gen vol ratio N m pl = .ok p → (0 ≤ ratio ∧ ratio ≤ 1) ∧ (gen = none ∨ ∃ g, gen = some (.crystal g)) ∧
      p.gen.map .crystal = gen ∧ p.vol = vol ∧ p.ratio = ratio ∧ p.N = N ∧ p.minSep = m ∧ p.plane = pl := by
    intro ratio p h
    unfold Fcc.make at h
    by_cases hr : 0 ≤ ratio ∧ ratio ≤ 1
    · rw [if_neg (by simpa using hr)] at h
      rcases gen with _ | g
      · cases h; exact ⟨hr, .inl rfl, rfl, rfl, rfl, rfl, rfl, rfl⟩
      · cases g with
        | crystal g => cases h; exact ⟨hr, .inr ⟨g, rfl⟩, rfl, rfl, rfl, rfl, rfl, rfl⟩
        | _ => cases h
    · rw [if_pos hr] at h; cases h
  refine ⟨fun ratio => ⟨fun ⟨p, h⟩ => ⟨(hmk _ p h).1, (hmk _ p h).2.1⟩, ?_⟩, fun ratio p h => (hmk _ p h).2.2, ?_, ?_⟩
  · rintro ⟨hr, rfl | ⟨g, rfl⟩⟩ <;> unfold Fcc.make <;> rw [if_neg (by simpa using hr)] <;> exact ⟨_, rfl⟩
  · intro p hp split fuel rand t tw sf hr g v x hg hv hx hs hi hN hm h
    obtain ⟨-, -, e1, e2, e3, e4, e5, -⟩ := hmk _ p hp
    rw [hg] at e1
    have hg' : p.gen = some g := by
      cases hpg : p.gen with
      | none => rw [hpg] at e1; cases e1
      | some g' => rw [hpg] at e1; cases e1; rfl
    obtain ⟨n, c, ws, gs, B, -, -, -, -, -, -, -, k1, k2⟩ := C70_fcc_grains env p g v x hg' (e2.trans hv) hx hs hi (by omega) (by omega) split fuel rand t tw sf h
    rw [e3] at k1 k2
    refine ⟨?_, k1.trans ⟨fun ⟨k, hk, _⟩ => by omega, fun h0 => ⟨0, by omega, not_lt.mpr (hr 0).1⟩⟩⟩
    rw [← Bool.not_eq_true, k2]
    rintro ⟨k, -, hk⟩
    exact absurd (hr k).1 (not_le.mpr hk)
  · intro p hp split fuel rand t tw sf hr g v x hg hv hx hs hi hN hm h
    obtain ⟨-, -, e1, e2, e3, e4, e5, -⟩ := hmk _ p hp
    rw [hg] at e1
    have hg' : p.gen = some g := by
      cases hpg : p.gen with
      | none => rw [hpg] at e1; cases e1
      | some g' => rw [hpg] at e1; cases e1; rfl
    obtain ⟨n, c, ws, gs, B, -, -, -, -, -, -, -, k1, k2⟩ := C70_fcc_grains env p g v x hg' (e2.trans hv) hx hs hi (by omega) (by omega) split fuel rand t tw sf h
    rw [e3] at k1 k2
    refine ⟨?_, k2.trans ⟨fun ⟨k, hk, _⟩ => by omega, fun h0 => ⟨0, by omega, (hr 0).2⟩⟩⟩
    rw [← Bool.not_eq_true, k1]
    rintro ⟨k, -, hk⟩
    exact hk (hr k).2

/-- A ratio of 2 is refused and fccTwin with two defects is constructed. -/
example (env : Env) (g : Gen ℝ) (v : Vol) : (¬ ∃ p, Fcc.make (some (.crystal g)) (some (.vol v)) 2 2 5 ⟨1, 1, 1⟩ = .ok p) ∧
    ∃ p, Fcc.twins (some (.crystal g)) (some (.vol v)) 2 5 ⟨1, 1, 1⟩ = .ok p ∧ p.ratio = 0 := by
  refine ⟨fun h => ?_, ?_⟩
  · have := (((C70_kinds env (some (.crystal g)) (some (.vol v)) 2 5 ⟨1, 1, 1⟩).1 2).1 h).1.2
    norm_num at this
  · have k := C70_kinds env (some (.crystal g)) (some (.vol v)) 2 5 ⟨1, 1, 1⟩
    obtain ⟨p, hp⟩ := (k.1 0).2 ⟨⟨le_rfl, zero_le_one⟩, .inr ⟨g, rfl⟩⟩
    exact ⟨p, hp, (k.2.1 0 p hp).2.2.1⟩

end Prefab

end
end CZ
