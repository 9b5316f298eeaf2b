import Verif.Props.PrefabDistance
import Verif.Props.PrefabHexagonal
import Verif.Props.World
import Verif.Props.VolumeCylinder
import Verif.Props.Boundary

/-!
# Property C131: what the fcc and wurtzite prefabs hold after `populate_atoms`
-/

namespace CZ
open Spec

noncomputable section
open Classical

namespace Prefab

/-- The sites an unstrained crystal supplies for the box of its Volume: only sites of the crystal, and all of them in the region of the box. -/
theorem crystal_supplied {env : Env} {w : Vol} {g : Gen ℝ} {x : Voxel ℝ} {sites : List (V3 ℝ × ℤ)} {box : List (V3 ℝ)} {as : List (V3 ℝ × ℤ)}
    (hb : w.boundingBox env = .ok (.rows box)) (hbox : box ≠ []) (hg : w.gen = some (.crystal g)) (hP : Gen.Plain g x sites) (hd : x.sbases.det ≠ 0)
    (h : Supplied env w as) :
    (∀ a ∈ as, a ∈ CrystalOf g) ∧ (FracNearCell sites → ∀ a ∈ CrystalOf g, a.1 ∈ Region box → a ∈ as) := by
  obtain ⟨n0, b, g', ps, zs, hb', hg', hsup, -, rfl⟩ := h
  rw [hb] at hb'
  cases hb'
  rw [hg] at hg'
  cases hg'
  obtain ⟨⟨lo, hi⟩, he⟩ := Voxel.getExtents_ok hd hbox
  simp only [GenObj.supply, hP.1, Gen.supply_plain hP, Gen.rawAtoms_eq _ _ _ _ _ he, Except.map] at hsup
  cases hsup
  rw [List.zip_map']
  obtain ⟨L, hL⟩ := hP.2.1
  constructor
  · intro a ha
    obtain ⟨c, hc, rfl⟩ := List.mem_map.mp ha
    obtain ⟨m, -, hc⟩ := List.mem_flatMap.mp hc
    obtain ⟨f, hf, rfl⟩ := List.mem_map.mp hc
    exact ⟨x, _, hP.1, hL, m, f, hf, rfl⟩
  · rintro hs a ⟨x', s', e1, e2, m, f, hf, rfl⟩ hin
    rw [hP.1] at e1
    cases e1
    rw [hL] at e2
    cases e2
    refine List.mem_map.mpr ⟨⟨siteAt x.sbases x.origin m f.1, f.2⟩, List.mem_flatMap.mpr ⟨m, cell_mem he (hs f hf) hin, ?_⟩, rfl⟩
    exact List.mem_map.mpr ⟨f, hf, rfl⟩

/-- No two sites of the cell are equal up to a lattice vector. -/
def DistinctSites (sites : List (V3 ℝ × ℤ)) : Prop :=
  sites.Pairwise fun f f' => ¬ ∃ m : V3 ℤ, f.1 = f'.1 + ⟨(m.x : ℝ), (m.y : ℝ), (m.z : ℝ)⟩

/-- An unstrained crystal supplies no position twice. -/
theorem crystal_distinct {env : Env} {w : Vol} {g : Gen ℝ} {x : Voxel ℝ} {sites : List (V3 ℝ × ℤ)} {box : List (V3 ℝ)} {as : List (V3 ℝ × ℤ)}
    (hb : w.boundingBox env = .ok (.rows box)) (hg : w.gen = some (.crystal g)) (hP : Gen.Plain g x sites) (hd : x.sbases.det ≠ 0)
    (hs : DistinctSites sites) (h : Supplied env w as) : as.Pairwise fun a b => a.1 ≠ b.1 := by
  obtain ⟨n0, b, g', ps, zs, hb', hg', hsup, -, rfl⟩ := h
  rw [hb] at hb'
  cases hb'
  rw [hg] at hg'
  cases hg'
  simp only [GenObj.supply, hP.1] at hsup
  obtain ⟨lo, hi, -, idx, hnd, -, rfl, rfl⟩ := C29_enumerates_once g x sites hP _ _ _ _ hsup
  rw [List.zip_map', List.pairwise_map]
  refine hnd.imp ?_
  rintro ⟨m, i⟩ ⟨m', i'⟩ hne e
  simp only [siteAt, cart_eq] at e
  have e := mulVec_inj hd (add_right_cancel e)
  have hx := congrArg V3.x e
  have hy := congrArg V3.y e
  have hz := congrArg V3.z e
  simp only at hx hy hz
  have hps := List.pairwise_iff_getElem.mp hs
  rcases lt_trichotomy i i' with hlt | rfl | hlt
  · refine hps i i' i.2 i'.2 hlt ⟨m' - m, ?_⟩
    simp only [List.get_eq_getElem] at hx hy hz
    ext <;> simp <;> linarith
  · apply hne
    have h1 : (m.x : ℝ) = m'.x := by linarith
    have h2 : (m.y : ℝ) = m'.y := by linarith
    have h3 : (m.z : ℝ) = m'.z := by linarith
    have : m = m' := by ext <;> [exact_mod_cast h1; exact_mod_cast h2; exact_mod_cast h3]
    rw [this]
  · refine hps i' i i'.2 i.2 hlt ⟨m - m', ?_⟩
    simp only [List.get_eq_getElem] at hx hy hz
    ext <;> simp <;> linarith

/-- What a MultiVolume of Volumes holds, if each is filled by an unstrained crystal and has a box of corners. -/
theorem grains_held {env : Env} {ws : ℕ → Vol} {gs : ℕ → Gen ℝ} {N : ℕ} {box : ℕ → List (V3 ℝ)} {sites : List (V3 ℝ × ℤ)}
    (hgen : ∀ k, k ≤ N → (ws k).gen = some (.crystal (gs k))) (hbox : ∀ k, k ≤ N → (ws k).boundingBox env = .ok (.rows (box k)) ∧ box k ≠ [])
    (hP : ∀ k, k ≤ N → ∃ x, Gen.Plain (gs k) x sites ∧ x.sbases.det ≠ 0) (pr : ℤ) (hd : Option (List (V3 ℝ) × List ℤ)) (n0 : ℕ) :
    ∃ t' n1 as ss, (VTree.multi ((List.range (N + 1)).map fun k => .vol (ws k)) pr hd).populate env n0 = (t', n1, .ok ()) ∧
      t'.held = some (as, ss) ∧ as.length = ss.length ∧
      (∀ a ∈ as.zip ss, ∃ k, k ≤ N ∧ a ∈ CrystalOf (gs k) ∧ Owns env ws (N + 1) k a.1) ∧
      (FracNearCell sites → ∀ k, k ≤ N → ∀ a ∈ CrystalOf (gs k), Owns env ws (N + 1) k a.1 → a.1 ∈ Region (box k) → a ∈ as.zip ss) ∧
      (DistinctSites sites → as.Nodup) := by
  have hsupp : Supplying env (VTree.multi ((List.range (N + 1)).map fun k => .vol (ws k)) pr hd) := by
    refine .multi _ _ _ (by simp) fun t ht => ?_
    obtain ⟨k, hk, rfl⟩ := List.mem_map.mp ht
    have hk' : k ≤ N := by have := List.mem_range.mp hk; omega
    obtain ⟨x, p1, p2⟩ := hP k hk'
    exact supplying_crystal (hbox k hk').1 (hbox k hk').2 (hgen k hk') p1 p2
  obtain ⟨t', n1, ht⟩ := C12_populate_succeeds env _ hsupp n0
  obtain ⟨as, ss, cs, e1, e2, e3, e4⟩ := C12_nested_resolution env _ t' n0 n1 ht
  refine ⟨t', n1, as, ss, ht, e1, e2, ?_⟩
  obtain ⟨parts, f1, f2, rfl⟩ := fills_multi e3
  have hlen : parts.length = N + 1 := by
    have := congrArg List.length f1
    simpa using this
  have hpart : ∀ k (hk : k < parts.length), (parts[k]).1 = .vol (ws k) := by
    intro k hk
    have := congrArg (fun l => l[k]?) f1
    simp only [List.getElem?_map, List.getElem?_range (show k < N + 1 by omega), Option.map_some, List.getElem?_eq_getElem hk,
      Option.some.injEq] at this
    exact this
  have hsup : ∀ k (hk : k < parts.length), ∃ as, Supplied env (ws k) as ∧ (parts[k]).2 = as.filter fun a => decide (Inside env (.vol (ws k)) a.1) := by
    intro k hk
    have := f2 _ (List.getElem_mem hk)
    rw [hpart k hk] at this
    exact fills_vol this
  have howns : ∀ (i : Fin (parts.map fun x => (⟨x.1.priority, x.2, Inside env x.1⟩ : Body (V3 ℝ) ℤ)).length) (q : V3 ℝ),
      Inside env (.vol (ws i)) q → (Survives (parts.map fun x => ⟨x.1.priority, x.2, Inside env x.1⟩) i q ↔ Owns env ws (N + 1) i q) := by
    intro i q hq
    have hi' : i.1 < parts.length := lt_of_lt_of_eq i.2 (List.length_map _)
    constructor
    · refine fun hsv => ⟨hq, fun j hj hji hpr hin => ?_⟩
      have hj' : j < parts.length := by omega
      have := hsv ⟨j, by rw [List.length_map]; exact hj'⟩ (fun e => hji (congrArg Fin.val e))
      simp only [Fin.getElem_fin, List.getElem_map, hpart _ hj', hpart _ hi'] at this
      exact this hpr hin
    · rintro ⟨-, ho⟩ j hji hpr hin
      have hj' : j.1 < parts.length := lt_of_lt_of_eq j.2 (List.length_map _)
      simp only [Fin.getElem_fin, List.getElem_map, hpart _ hj', hpart _ hi'] at hpr hin
      exact ho j (by omega) (fun e => hji (Fin.ext e)) hpr hin
  refine ⟨?_, ?_, ?_⟩
  · intro a ha
    have ha := e4.mem_iff.mp ha
    simp only [contents, contributed, List.mem_flatMap, List.mem_filter, decide_eq_true_eq, List.mem_finRange, true_and] at ha
    obtain ⟨i, m1, m2⟩ := ha
    have hi' : i.1 < parts.length := lt_of_lt_of_eq i.2 (List.length_map _)
    simp only [Fin.getElem_fin, List.getElem_map] at m1
    obtain ⟨bs, b1, b2⟩ := hsup i hi'
    rw [b2, List.mem_filter, decide_eq_true_eq] at m1
    have hk' : i.1 ≤ N := by omega
    obtain ⟨x, p1, p2⟩ := hP i hk'
    exact ⟨i, hk', (crystal_supplied (hbox i hk').1 (hbox i hk').2 (hgen i hk') p1 p2 b1).1 a m1.1, (howns i a.1 m1.2).mp m2⟩
  · intro hs k hk a ha ho hr
    refine e4.mem_iff.mpr ?_
    have hk' : k < parts.length := by omega
    obtain ⟨bs, b1, b2⟩ := hsup k hk'
    obtain ⟨x, p1, p2⟩ := hP k hk
    have hm := (crystal_supplied (hbox k hk).1 (hbox k hk).2 (hgen k hk) p1 p2 b1).2 hs a ha hr
    simp only [contents, contributed, List.mem_flatMap, List.mem_filter, decide_eq_true_eq, List.mem_finRange, true_and]
    refine ⟨⟨k, by rw [List.length_map]; exact hk'⟩, ?_, (howns _ a.1 ho.1).mpr ho⟩
    simp only [Fin.getElem_fin, List.getElem_map]
    rw [b2, List.mem_filter, decide_eq_true_eq]
    exact ⟨hm, ho.1⟩
  · intro hs
    have hpw : (as.zip ss).Pairwise fun a b => a.1 ≠ b.1 := by
      refine (e4.pairwise_iff fun h => h.symm).mpr (contents_pairwise _ ?_ ?_)
      · intro i
        have hi' : i.1 < parts.length := lt_of_lt_of_eq i.2 (List.length_map _)
        have hk' : i.1 ≤ N := by omega
        simp only [Fin.getElem_fin, List.getElem_map]
        obtain ⟨bs, b1, b2⟩ := hsup i hi'
        obtain ⟨x, p1, p2⟩ := hP i hk'
        rw [b2]
        exact ((crystal_distinct (hbox i hk').1 (hgen i hk') p1 p2 hs b1).filter _).imp fun h _ _ => h
      · intro i j hij q hq q' hq' s1 s2 e
        have hi' : i.1 < parts.length := lt_of_lt_of_eq i.2 (List.length_map _)
        have hj' : j.1 < parts.length := lt_of_lt_of_eq j.2 (List.length_map _)
        simp only [Fin.getElem_fin, List.getElem_map] at hq hq'
        obtain ⟨bs, -, b2⟩ := hsup i hi'
        obtain ⟨bs', -, b2'⟩ := hsup j hj'
        rw [b2, List.mem_filter, decide_eq_true_eq] at hq
        rw [b2', List.mem_filter, decide_eq_true_eq] at hq'
        have o1 := (howns i q.1 hq.2).mp s1
        have o2 := (howns j q'.1 hq'.2).mp s2
        rw [e] at o1
        rcases le_total (ws i).priority (ws j).priority with hle | hle
        · exact o2.2 i (by omega) (Fin.val_ne_of_ne hij.ne) hle o1.1
        · exact o1.2 j (by omega) (Fin.val_ne_of_ne hij.ne') hle o2.1
    have := List.pairwise_map.mpr hpw
    rwa [List.map_fst_zip (le_of_eq e2)] at this

/-! ## boxes of the grains -/

/-- One more plane does not change the box of a Volume with points, with spheres, or with fewer than three planes. -/
theorem boundingBox_plane {env : Env} {v w : Vol} {pl : Plane} (hp : w.points = v.points) (ha : w.algs = v.algs ++ [.plane pl])
    (hv : v.points ≠ none ∨ v.spheres ≠ [] ∨ v.planes.length < 3) : w.boundingBox env = v.boundingBox env := by
  have h1 : w.spheres = v.spheres := by simp [Vol.spheres, ha]
  have h2 : w.cylinders = v.cylinders := by simp [Vol.cylinders, ha]
  have h3 : w.planes = v.planes ++ [pl] := by simp [Vol.planes, ha]
  unfold Vol.boundingBox
  rw [hp, h1, h2, h3]
  cases hq : v.points with
  | some a => cases a <;> rfl
  | none =>
    cases hs : v.spheres with
    | cons s ss => rfl
    | nil =>
      have h4 : v.planes.length < 3 := by simpa [hq, hs] using hv
      simp only [List.length_append, List.length_singleton]
      rw [if_neg (by omega), if_neg (by omega)]

theorem boundingBox_same {env : Env} {v w : Vol} (hp : w.points = v.points) (ha : w.algs = v.algs) : w.boundingBox env = v.boundingBox env := by
  unfold Vol.boundingBox Vol.spheres Vol.planes Vol.cylinders
  rw [hp, ha]

/-- The grains of a run of the loop shared by the fcc and wurtzite prefabs: their boxes are those of the body. -/
theorem assemble_boxes {env : Env} {g : Gen ℝ} {v : Vol} {N : ℤ} {planes : List Plane} {splits : List ℤ}
    {defect : ℕ → Py Plane → Gen ℝ → ℤ → Py (Tr ℝ × ℤ × Bool)} {st : State} (hi : Intact env v)
    (h : assemble env g v N planes splits defect = .ok st) (hv : v.points ≠ none ∨ v.spheres ≠ [] ∨ v.planes.length < 3) :
    ∃ ws : ℕ → Vol, st.vols = (List.range (N.toNat + 1)).map (fun k => .vol (ws k)) ∧
      ∀ k, k ≤ N.toNat → (ws k).boundingBox env = v.boundingBox env ∧ ∃ g', (ws k).gen = some (.crystal g') ∧ SameRecipe g g' := by
  obtain ⟨gs, ss, ts, bs, ws, w0, -, -, h1, -, h3, h4, h5, h6⟩ := assemble_spec h
  have hs : ∀ k, k ≤ N.toNat → SameRecipe g (gs k) := by
    intro k
    induction k with
    | zero => intro _; rw [h1]; exact ⟨rfl, rfl, rfl⟩
    | succ k ih => intro hk; exact (ih (by omega)).trans (fromGenerator_rest (h6 k (by omega)).gen)
  refine ⟨ws, h5, fun k hk => ?_⟩
  cases k with
  | zero =>
    obtain ⟨-, c2, c3, c4⟩ := copy_spec hi h3
    rw [h4]
    exact ⟨boundingBox_same c4 c3, g, c2, ⟨rfl, rfl, rfl⟩⟩
  | succ k =>
    obtain ⟨w, p, q, e1, -, -, e4⟩ := (h6 k (by omega)).vol
    obtain ⟨-, c2, c3, c4⟩ := copy_spec hi e1
    rw [e4]
    exact ⟨boundingBox_plane (pl := q) c4 (by show w.algs ++ _ = _; rw [c3]) hv, gs (k + 1), c2, hs (k + 1) hk⟩

theorem vols_inj {ws ws' : ℕ → Vol} {N : ℕ} {pr pr' : ℤ} {hd hd' : Option (List (V3 ℝ) × List ℤ)}
    (h : VTree.multi ((List.range (N + 1)).map fun k => .vol (ws k)) pr hd = .multi ((List.range (N + 1)).map fun k => .vol (ws' k)) pr' hd') (k : ℕ)
    (hk : k ≤ N) : ws k = ws' k := by
  simp only [VTree.multi.injEq] at h
  have := congrArg (fun l => l[k]?) h.1
  simpa only [List.getElem?_map, List.getElem?_range (show k < N + 1 by omega), Option.map_some, Option.some.injEq, VTree.vol.injEq] using this

theorem refl_det {n : V3 ℝ} (h : norm3 n = 1) : (Tr.reflMatrix n).det = -1 := by
  have h1 : n.dot n = 1 := norm3_eq_one.mp h
  unfold Tr.reflMatrix
  rw [h1]
  simp only [V3.dot] at h1
  simp only [M3.det, M3.sub_def, M3.smul_def, M3.one_def, Tr.outer]
  linear_combination (-2) * h1

/-- What the fcc prefab holds, grain by grain. -/
theorem fcc_populates (env : Env) (p : Fcc) (g : Gen ℝ) (v : Vol) (x : Voxel ℝ) (s : Struct ℝ) (hg : p.gen = some g) (hv : p.vol = some (.vol v))
    (hx : g.voxel = some x) (hst : g.struct = some s) (hn : g.strain = none) (hp : g.post = none) (hs : ColumnScale x.scale) (hd : x.sbases.det ≠ 0)
    (hf : FracNearCell s.sites) (hi : Intact env v) (box : List (V3 ℝ)) (hb : v.boundingBox env = .ok (.rows box)) (hne : box ≠ [])
    (hpl : v.points ≠ none ∨ v.spheres ≠ [] ∨ v.planes.length < 3) (hN : 0 ≤ p.N) (hm : 0 ≤ p.minSep)
    (split : ℕ → ℕ) (fuel : ℕ) (rand : ℕ → ℝ) (t : VTree) (tw sf : Bool) (h : p.build env split fuel rand = some (.ok (t, tw, sf))) :
    ∀ (ws : ℕ → Vol) (gs : ℕ → Gen ℝ), t = .multi ((List.range (p.N.toNat + 1)).map fun k => .vol (ws k)) 0 none → (∀ k, k ≤ p.N.toNat → (ws k).gen = some (.crystal (gs k))) →
      ∀ n0, ∃ t' n1 as ss, t.populate env n0 = (t', n1, .ok ()) ∧ t'.held = some (as, ss) ∧ as.length = ss.length ∧
        (DistinctSites s.sites → as.Nodup) ∧
        (∀ a ∈ as.zip ss, ∃ k, k ≤ p.N.toNat ∧ a ∈ CrystalOf (gs k) ∧ Owns env ws (p.N.toNat + 1) k a.1) ∧
        ∀ k, k ≤ p.N.toNat → ∀ a ∈ CrystalOf (gs k), Owns env ws (p.N.toNat + 1) k a.1 → a.1 ∈ Region box → a ∈ as.zip ss := by
  intro ws0 gs0 ht0 hgs0 n0
  obtain ⟨n00, b, se, sp, ep, s', d, L, xs, st, -, -, -, hsp, -, -, hdd, -, hspl, ha, rfl, rfl, rfl⟩ := fcc_build_inv hg hv hx hN h
  obtain ⟨h1, h2⟩ := snapPlane_unit hsp
  obtain ⟨X, ws, gs, B, e1, e2, e3, e4, e5, e6, e7, e8, e9, e10⟩ := fcc_grains_of hx hs hi hN hm h1 (dHkl_pos hdd) hspl ha
  have hws0 := vols_inj (ht0.symm.trans e4)
  have hgs : ∀ k, k ≤ p.N.toNat → gs0 k = gs k := by
    intro k hk
    have e := hgs0 k hk
    rw [hws0 k hk, (e5 k hk).1] at e
    injection e with e
    injection e with e
    exact e.symm
  obtain ⟨ws', w1, w2⟩ := assemble_boxes hi ha hpl
  have hws := vols_inj ((congrArg (fun l => VTree.multi l 0 none) w1).symm.trans ht0)
  have hB0 : B 0 = x.sbases := by
    obtain ⟨-, ⟨y, y1, y2⟩, -⟩ := e5 0 (Nat.zero_le _)
    rw [e6, hx] at y1
    cases y1
    exact y2.symm
  have hdet : ∀ k, k ≤ p.N.toNat → (B k).det ≠ 0 := by
    intro k
    induction k with
    | zero => intro _; rw [hB0]; exact hd
    | succ k ih =>
      intro hk
      by_cases hr : rand k < p.ratio
      · rw [(e8 k (by omega) hr).2]; exact ih (by omega)
      · rw [(e7 k (by omega) hr).2, M3.det_mul, refl_det h1]
        exact mul_ne_zero (by norm_num) (ih (by omega))
  have hgen : ∀ k, k ≤ p.N.toNat → SameRecipe g (gs0 k) := by
    intro k hk
    obtain ⟨-, g', r1, r2⟩ := w2 k hk
    rw [hws k hk, hgs0 k hk] at r1
    cases r1
    exact r2
  obtain ⟨t', n1, as, ss, r1, r2, r3, r4, r5, r6⟩ := grains_held (env := env) (ws := ws0) (gs := gs0) (N := p.N.toNat) (box := fun _ => box) (sites := s.sites)
    hgs0 (fun k hk => ⟨by rw [← hws k hk, (w2 k hk).1, hb], hne⟩)
    (fun k hk => by
      obtain ⟨-, ⟨y, y1, y2⟩, -⟩ := e5 k hk
      obtain ⟨q1, q2, q3⟩ := hgen k hk
      exact ⟨y, ⟨by rw [hgs k hk]; exact y1, ⟨s.latticeMatrix, q1.trans hst⟩, q2.trans hn, q3.trans hp⟩, by rw [y2]; exact hdet k hk⟩) 0 none n0
  exact ⟨t', n1, as, ss, by rw [ht0]; exact r1, r2, r3, r6, r4, r5 hf⟩

/-- **C131.** The fcc prefab on a body whose box consists of corners (a body with points, with spheres, or with fewer than three planes) and
an unstrained crystal: after every run of `build_object`, `populate_atoms` of the built MultiVolume succeeds.  What it then holds are sites of the crystals
`gs 0, gs 1, …` (the first is that of the generator, each next one is the last one mirrored in a plane or displaced along it), and each of these atoms is in
the body and in the layer between the planes of its own crystal.  Conversely every site of a crystal in its layer of the body is held, if it is in the region
spanned by the corners, and none is held twice. -/
theorem C131_fcc (env : Env) (p : Fcc) (g : Gen ℝ) (v : Vol) (x : Voxel ℝ) (s : Struct ℝ) (hg : p.gen = some g) (hv : p.vol = some (.vol v))
    (hx : g.voxel = some x) (hst : g.struct = some s) (hn : g.strain = none) (hp : g.post = none) (hs : ColumnScale x.scale) (hd : x.sbases.det ≠ 0)
    (hf : FracNearCell s.sites) (hi : Intact env v) (box : List (V3 ℝ)) (hb : v.boundingBox env = .ok (.rows box)) (hne : box ≠ [])
    (hpl : v.points ≠ none ∨ v.spheres ≠ [] ∨ v.planes.length < 3) (hN : 0 ≤ p.N) (hm : 0 ≤ p.minSep)
    (split : ℕ → ℕ) (fuel : ℕ) (rand : ℕ → ℝ) (t : VTree) (tw sf : Bool) (h : p.build env split fuel rand = some (.ok (t, tw, sf))) :
    ∃ (n : V3 ℝ) (c : ℕ → ℝ) (gs : ℕ → Gen ℝ) (B : ℕ → M3 ℝ), len n = 1 ∧ (∀ i j, i < j → j < p.N.toNat → c j ≤ c i) ∧ gs 0 = g ∧ B 0 = x.sbases ∧
      (∀ k, k < p.N.toNat → ¬ rand k < p.ratio → Mirrored n (c k) (gs k) (gs (k + 1)) ∧ B (k + 1) = Tr.reflMatrix n * B k) ∧
      (∀ k, k < p.N.toNat → rand k < p.ratio → Displaced (((-1) ^ twinsBefore p rand k : ℝ) •
        cart (B k) 0 ⟨p.plane.x.sign / 3, p.plane.y.sign / 3, -2 * p.plane.z.sign / 3⟩) (gs k) (gs (k + 1)) ∧ B (k + 1) = B k) ∧
      ∀ n0, ∃ t' n1 as ss, t.populate env n0 = (t', n1, .ok ()) ∧ t'.held = some (as, ss) ∧ as.length = ss.length ∧
        (DistinctSites s.sites → as.Nodup) ∧
        (∀ a ∈ as.zip ss, ∃ k, k ≤ p.N.toNat ∧ a ∈ CrystalOf (gs k) ∧ Inside env (.vol v) a.1 ∧ InLayer n c (1 / 10 ^ 5) p.N.toNat k a.1) ∧
        ∀ k, k ≤ p.N.toNat → ∀ a ∈ CrystalOf (gs k), Inside env (.vol v) a.1 → InLayer n c (1 / 10 ^ 5) p.N.toNat k a.1 → a.1 ∈ Region box →
          a ∈ as.zip ss := by
  have hpop := fcc_populates env p g v x s hg hv hx hst hn hp hs hd hf hi box hb hne hpl hN hm split fuel rand t tw sf h
  obtain ⟨n0, b, se, sp, ep, s', d, L, xs, st, -, -, -, hsp, -, -, hdd, -, hspl, ha, rfl, rfl, rfl⟩ := fcc_build_inv hg hv hx hN h
  obtain ⟨h1, h2⟩ := snapPlane_unit hsp
  obtain ⟨X, ws, gs, B, e1, e2, e3, e4, e5, e6, e7, e8, e9, e10⟩ := fcc_grains_of hx hs hi hN hm h1 (dHkl_pos hdd) hspl ha
  have hB0 : B 0 = x.sbases := by
    obtain ⟨-, ⟨y, y1, y2⟩, -⟩ := e5 0 (Nat.zero_le _)
    rw [e6, hx] at y1
    cases y1
    exact y2.symm
  refine ⟨sp.normal, fun k => height sp.normal sp.point + X k * d, gs, B, by rw [len_eq]; exact h1, e3, e6, hB0, e7, e8, fun n0 => ?_⟩
  obtain ⟨t', n1, as, ss, r1, r2, r3, r4, r5, r6⟩ := hpop ws gs e4 (fun k hk => (e5 k hk).1) n0
  refine ⟨t', n1, as, ss, r1, r2, r3, r4, ?_, ?_⟩
  · intro a ha
    obtain ⟨k, m1, m2, m3⟩ := r5 a ha
    exact ⟨k, m1, m2, ((e5 k m1).2.2 a.1).mp m3⟩
  · intro k hk a ha i1 i2 i3
    exact r6 k hk a ha (((e5 k hk).2.2 a.1).mpr ⟨i1, i2⟩) i3

/-- **C131 (wurtzite).** The same for the wurtzite prefab; each next crystal is the last one displaced by half a cell along the axis and a third or two
thirds of a cell across it. -/
theorem C131_wurtzite (env : Env) (p : Wurtzite) (g : Gen ℝ) (v : Vol) (x : Voxel ℝ) (s : Struct ℝ) (hg : p.gen = some g) (hv : p.vol = some (.vol v))
    (hx : g.voxel = some x) (hst : g.struct = some s) (hn : g.strain = none) (hp : g.post = none) (hs : ColumnScale x.scale) (hd : x.sbases.det ≠ 0)
    (hf : FracNearCell s.sites) (hi : Intact env v) (box : List (V3 ℝ)) (hb : v.boundingBox env = .ok (.rows box)) (hne : box ≠ [])
    (hpl : v.points ≠ none ∨ v.spheres ≠ [] ∨ v.planes.length < 3) (hN : 0 ≤ p.N) (hm : 0 ≤ p.minSep)
    (split : ℕ → ℕ) (fuel : ℕ) (t : VTree) (h : p.build env split fuel = some (.ok t)) :
    ∃ (n : V3 ℝ) (c : ℕ → ℝ) (gs : ℕ → Gen ℝ), len n = 1 ∧ (∀ i j, i < j → j < p.N.toNat → c j ≤ c i) ∧ gs 0 = g ∧
      (∀ k, k < p.N.toNat → ∃ b : ℕ, (b = 1 ∨ b = 2) ∧
        Displaced (((-1) ^ k : ℝ) • cart x.sbases 0 ⟨(b : ℝ) / 3, -(b : ℝ) / 3, 0⟩ + cart x.sbases 0 ⟨0, 0, -1 / 2⟩) (gs k) (gs (k + 1))) ∧
      ∀ n0, ∃ t' n1 as ss, t.populate env n0 = (t', n1, .ok ()) ∧ t'.held = some (as, ss) ∧ as.length = ss.length ∧
        (DistinctSites s.sites → as.Nodup) ∧
        (∀ a ∈ as.zip ss, ∃ k, k ≤ p.N.toNat ∧ a ∈ CrystalOf (gs k) ∧ Inside env (.vol v) a.1 ∧ InLayer n c (1 / 10 ^ 5) p.N.toNat k a.1) ∧
        ∀ k, k ≤ p.N.toNat → ∀ a ∈ CrystalOf (gs k), Inside env (.vol v) a.1 → InLayer n c (1 / 10 ^ 5) p.N.toNat k a.1 → a.1 ∈ Region box →
          a ∈ as.zip ss := by
  obtain ⟨n, c, ws, gs, h1, h2, h3, h4, h5, h6⟩ := C70_wurtzite_grains env p g v x hg hv hx hs hi hN hm split fuel t h
  obtain ⟨v', planes, xs, defect, st, a1, a2, rfl⟩ := wurtzite_assembled hg h
  rw [hv] at a1
  cases a1
  obtain ⟨ws', w1, w2⟩ := assemble_boxes hi a2 hpl
  rw [w1] at h3
  have hws := vols_inj h3
  refine ⟨n, c, gs, h1, h2, h5, h6, fun n0 => ?_⟩
  obtain ⟨t', n1, as, ss, r1, r2, r3, r4, r5, r6⟩ := grains_held (env := env) (ws := ws) (gs := gs) (N := p.N.toNat) (box := fun _ => box) (sites := s.sites)
    (fun k hk => (h4 k hk).1) (fun k hk => ⟨by rw [← hws k hk, (w2 k hk).1, hb], hne⟩)
    (fun k hk => by
      obtain ⟨q0, ⟨y, y1, y2⟩, -⟩ := h4 k hk
      obtain ⟨-, g', z1, q1, q2, q3⟩ := w2 k hk
      rw [hws k hk, q0] at z1
      cases z1
      exact ⟨y, ⟨y1, ⟨s.latticeMatrix, q1.trans hst⟩, q2.trans hn, q3.trans hp⟩, by rw [y2]; exact hd⟩) 0 none n0
  refine ⟨t', n1, as, ss, ?_, r2, r3, r6, ?_, ?_⟩
  · rw [w1, h3]; exact r1
  · intro a ha
    obtain ⟨k, m1, m2, m3⟩ := r4 a ha
    exact ⟨k, m1, m2, ((h4 k m1).2.2 a.1).mp m3⟩
  · intro k hk a ha i1 i2 i3
    exact r5 hf k hk a ha (((h4 k hk).2.2 a.1).mpr ⟨i1, i2⟩) i3

/-- **C131 (grain boundary).** What `build_object` of a SimpleGrainBoundary makes of a body whose box consists of corners and of an unstrained crystal can be
populated.  It then holds the sites of the crystal turned for the first zone axis below the plane, and those of the crystal turned for the second one not below
it, in the body: only these, and all of them in the region spanned by the corners; none is held twice. -/
theorem C131_boundary (env : Env) (b : Boundary) (g : Gen ℝ) (v : Vol) (x : Voxel ℝ) (s : Struct ℝ) (pl : Plane) (hg : b.gen = some (.crystal g))
    (hv : b.vol = some (.vol v)) (hpl : b.plane = .plane pl) (hx : g.voxel = some x) (hst : g.struct = some s) (hn : g.strain = none) (hp : g.post = none)
    (hs : ColumnScale x.scale) (hd : x.sbases.det ≠ 0) (hf : FracNearCell s.sites) (hi : Intact env v) (h1 : GoodAxis x.sbases b.z1)
    (h2 : GoodAxis x.sbases b.z2) (box : List (V3 ℝ)) (hb : v.boundingBox env = .ok (.rows box)) (hne : box ≠ [])
    (hv3 : v.points ≠ none ∨ v.spheres ≠ [] ∨ v.planes.length < 3) :
    ∃ (t : VTree) (g1 g2 : Gen ℝ) (R1 R2 : M3 ℝ), b.build env = .ok t ∧ ProperRotation R1 ∧ ProperRotation R2 ∧ Turned R1 g g1 ∧ Turned R2 g g2 ∧
      Spec.dist ((len (cart x.sbases 0 b.z1))⁻¹ • cart R1 0 (cart x.sbases 0 b.z1)) ⟨0, 0, 1⟩ < 2 * machEps ∧
      Spec.dist ((len (cart x.sbases 0 b.z2))⁻¹ • cart R2 0 (cart x.sbases 0 b.z2)) ⟨0, 0, 1⟩ < 2 * machEps ∧
      ∀ n0, ∃ t' n1 as ss, t.populate env n0 = (t', n1, .ok ()) ∧ t'.held = some (as, ss) ∧ as.length = ss.length ∧
        (DistinctSites s.sites → as.Nodup) ∧
        (∀ a ∈ as.zip ss, Inside env (.vol v) a.1 ∧
          (if height pl.normal a.1 < height pl.normal pl.point + pl.tol then a ∈ CrystalOf g1 else a ∈ CrystalOf g2)) ∧
        ∀ a, Inside env (.vol v) a.1 → (if height pl.normal a.1 < height pl.normal pl.point + pl.tol then a ∈ CrystalOf g1 else a ∈ CrystalOf g2) →
          a.1 ∈ Region box → a ∈ as.zip ss := by
  obtain ⟨ws, g1, g2, R1, R2, k1, k2, k3, k4, k5, k6, k7, k8, k9, k10, k11⟩ := C71_split env b g v x pl hg hv hpl hx hs hd hi h1 h2
  obtain ⟨Q1, a1, a2, a3⟩ := goodAxis_rot h1
  obtain ⟨Q2, b1, b2, b3⟩ := goodAxis_rot h2
  have hdb := bases_det_ne hs hd
  obtain ⟨c1, d1, -, y1, y2, y3⟩ := turned_of a2 hx hs hdb
  obtain ⟨c2, d2, -, z1, z2, z3⟩ := turned_of b2 hx hs hdb
  obtain ⟨w1, e1⟩ := copy_ok c1 hi
  obtain ⟨w2, e2⟩ := copy_ok c2 hi
  obtain ⟨-, i2, i3, i4⟩ := copy_spec hi e1
  obtain ⟨-, j2, j3, j4⟩ := copy_spec hi e2
  have hbuild : b.build env = .ok (.multi [.vol (w1.addAlg (.plane pl)), .vol { w2 with priority := w2.priority + 1 }] 0 none) := by
    unfold Boundary.build
    simp only [hg, hx, hv, hpl, a1, b1, Tr.mkRotationOf, bind, Except.bind, mkRotation_ok a2, mkRotation_ok b2, d1, d2, VTree.fromVolume, e1, e2,
      Except.map, addPlane, bump, pure, Except.pure]
  have hws := k1.symm.trans hbuild
  simp only [List.range_succ, List.range_zero, List.nil_append, List.cons_append, List.map_cons, List.map_nil, Except.ok.injEq, VTree.multi.injEq,
    List.cons.injEq, VTree.vol.injEq, and_true] at hws
  obtain ⟨u1, u2⟩ := hws
  have hg1 : g1 = c1 := by
    rw [u1] at k2
    have := k2.symm.trans i2
    injection this with this
    injection this
  have hg2 : g2 = c2 := by
    rw [u2] at k3
    have := k3.symm.trans j2
    injection this with this
    injection this
  subst hg1 hg2
  obtain ⟨q1, q2, q3⟩ := fromGenerator_rest d1
  obtain ⟨q1', q2', q3'⟩ := fromGenerator_rest d2
  refine ⟨_, g1, g2, R1, R2, k1, k4, k5, k6, k7, k8, k9, fun n0 => ?_⟩
  obtain ⟨t', n1, as, ss, r1, r2, r3, r4, r5, r6⟩ := grains_held (env := env) (ws := ws) (gs := fun | 0 => g1 | _ => g2) (N := 1) (box := fun _ => box)
    (sites := s.sites) (fun k hk => by
      obtain rfl | rfl : k = 0 ∨ k = 1 := by omega
      · exact k2
      · exact k3) (fun k hk => by
      refine ⟨?_, hne⟩
      obtain rfl | rfl : k = 0 ∨ k = 1 := by omega
      · rw [u1, ← hb]; exact boundingBox_plane (pl := pl) i4 (by show w1.algs ++ _ = _; rw [i3]) hv3
      · rw [u2, ← hb]; exact boundingBox_same j4 j3) (fun k hk => by
      obtain rfl | rfl : k = 0 ∨ k = 1 := by omega
      · exact ⟨y1, ⟨y2, ⟨s.latticeMatrix, q1.trans hst⟩, q2.trans hn, q3.trans hp⟩, by rw [y3, M3.det_mul, a2.2, one_mul]; exact hd⟩
      · exact ⟨z1, ⟨z2, ⟨s.latticeMatrix, q1'.trans hst⟩, q2'.trans hn, q3'.trans hp⟩, by rw [z3, M3.det_mul, b2.2, one_mul]; exact hd⟩) 0 none n0
  refine ⟨t', n1, as, ss, r1, r2, r3, r6, ?_, ?_⟩
  · intro a ha
    obtain ⟨k, m1, m2, m3⟩ := r4 a ha
    obtain rfl | rfl : k = 0 ∨ k = 1 := by omega
    · obtain ⟨n1, n2⟩ := (k10 _).mp m3
      exact ⟨n1, by rw [if_pos n2]; exact m2⟩
    · obtain ⟨n1, n2⟩ := (k11 _).mp m3
      exact ⟨n1, by rw [if_neg n2]; exact m2⟩
  · intro a hin ha hr
    split_ifs at ha with hlt
    · exact r5 hf 0 (by norm_num) a ha ((k10 _).mpr ⟨hin, hlt⟩) hr
    · exact r5 hf 1 le_rfl a ha ((k11 _).mpr ⟨hin, hlt⟩) hr

/-! ## concrete balls -/

theorem ball_inside (env : Env) {q : V3 ℝ} (h : q.normSq ≤ 100) : Inside env (.vol (ball 0 10)) q ∧ q ∈ Region (Vol.sphereBox ⟨10, 0, 1 / 10 ^ 5⟩) := by
  have h1 : norm3 q ≤ 10 := by
    rw [← norm3_sq] at h
    nlinarith [norm3_nonneg q]
  constructor
  · refine .vol _ _ (by intro t ht; cases ht) fun b hb => ?_
    simp only [ball, List.mem_singleton] at hb
    subst hb
    show Sphere.interior _ _ = true
    rw [Sphere.interior_iff, ← norm3_sq, sub_zero]
    exact pow_lt_pow_left₀ (lt_of_le_of_lt h1 (by norm_num)) (norm3_nonneg _) (by norm_num)
  · refine ball_in_box _ (by norm_num) _ ?_
    rw [dist_eq, sub_zero]
    exact h1

theorem fccGen_near : FracNearCell [((⟨0, 0, 0⟩ : V3 ℝ), (79 : ℤ)), (⟨1 / 2, 1 / 2, 0⟩, 79), (⟨1 / 2, 0, 1 / 2⟩, 79), (⟨0, 1 / 2, 1 / 2⟩, 79)] := by
  intro f hf
  simp only [List.mem_cons, List.not_mem_nil, or_false] at hf
  rcases hf with rfl | rfl | rfl | rfl <;> norm_num

/-! ## bodies with three planes -/

theorem populate_planes {env : Env} {w : Vol} {g : Gen ℝ} {x : Voxel ℝ} (hp : w.points = none) (hs : w.spheres = []) (h3 : 3 < w.planes.length)
    (hg : w.gen = some (.crystal g)) (hx : g.voxel = some x) (n : ℕ) : ∃ w', w.populate env n = (w', .error .value) := by
  unfold Vol.populate Vol.boundingBox
  simp only [hp, hs, if_pos h3, hg, GenObj.supply, hx]
  exact ⟨_, rfl⟩

/-- **C131 (three planes).** The fcc prefab on a body without points and spheres that has three planes and a cylinder: if `build_object` succeeds with
at least one defect, `populate_atoms` of what it built always raises ValueError. -/
theorem C131_three_planes (env : Env) (p : Fcc) (g : Gen ℝ) (v : Vol) (x : Voxel ℝ) (s : Struct ℝ) (hg : p.gen = some g) (hv : p.vol = some (.vol v))
    (hx : g.voxel = some x) (hst : g.struct = some s) (hn : g.strain = none) (hp : g.post = none) (hd : x.sbases.det ≠ 0) (hi : Intact env v)
    (box : List (V3 ℝ)) (hb : v.boundingBox env = .ok (.rows box)) (hne : box ≠ []) (hpt : v.points = none) (hsp : v.spheres = []) (hpl : v.planes.length = 3)
    (hN : 1 ≤ p.N) (split : ℕ → ℕ) (fuel : ℕ) (rand : ℕ → ℝ) (t : VTree) (tw sf : Bool) (h : p.build env split fuel rand = some (.ok (t, tw, sf))) (n0 : ℕ) :
    ∃ t' n1, t.populate env n0 = (t', n1, .error .value) := by
  obtain ⟨v', planes, xs, defect, st, a1, a2, rfl, -, -⟩ := fcc_assembled hg h
  rw [hv] at a1
  cases a1
  obtain ⟨gs, ss, ts, bs, ws, w0, -, -, h1, -, h3, h4, h5, h6⟩ := assemble_spec a2
  obtain ⟨m, hm⟩ : ∃ m, p.N.toNat = m + 1 := ⟨p.N.toNat - 1, by omega⟩
  obtain ⟨-, c2, c3, c4⟩ := copy_spec hi h3
  obtain ⟨w, pl, q, e1, -, -, e4⟩ := (h6 0 (by omega)).vol
  obtain ⟨-, d2, d3, d4⟩ := copy_spec hi e1
  have hb0 : (ws 0).boundingBox env = .ok (.rows box) := by rw [h4, ← hb]; exact boundingBox_same c4 c3
  obtain ⟨⟨lo, hi'⟩, he⟩ := Voxel.getExtents_ok hd hne
  have p0 := populate_crystal hb0 (by rw [h4]; exact c2) ⟨hx, ⟨s.latticeMatrix, hst⟩, hn, hp⟩ he n0
  obtain ⟨y, hy⟩ : ∃ y, (gs 1).voxel = some y := by
    have := (h6 0 (by omega)).gen
    rw [h1] at this
    simp only [Gen.fromGenerator, Gen.transform, hx] at this
    split at this
    · rename_i g1 e
      cases this
      split at e
      · cases e
      · have e := (Prod.mk.inj e).1
        rw [Nat.zero_add] at e
        exact ⟨_, by rw [← e]⟩
    · cases this
  have halg : (ws 1).algs = v.algs ++ [.plane q] := by rw [e4]; show w.algs ++ _ = _; rw [d3]
  obtain ⟨w1, p1⟩ := populate_planes (env := env) (w := ws 1) (g := gs 1) (x := y) (by rw [e4]; exact d4.trans hpt)
    (by simpa [Vol.spheres, halg] using hsp) (by
      have : (ws 1).planes = v.planes ++ [q] := by simp [Vol.planes, halg]
      rw [this]; simp [hpl]) (by rw [e4]; exact d2) hy (n0 + 1)
  rw [h5, hm, List.range_succ_eq_map, List.range_succ_eq_map]
  simp only [List.map_cons, List.map_map, VTree.populate, VTree.populateList, p0, p1]
  exact ⟨_, _, rfl⟩

/-- The heights of a list of corners are between those of two of them. -/
theorem span_exists {box : List (V3 ℝ)} (hne : box ≠ []) (n : V3 ℝ) :
    ∃ lo hi, (∃ p ∈ box, height n p = lo) ∧ (∃ p ∈ box, height n p = hi) ∧ ∀ p ∈ box, lo ≤ height n p ∧ height n p ≤ hi := by
  obtain ⟨q, hq⟩ := List.exists_mem_of_ne_nil _ hne
  have h0 : box.toFinset.Nonempty := ⟨q, List.mem_toFinset.mpr hq⟩
  obtain ⟨p, p1, p2⟩ := box.toFinset.exists_min_image (height n) h0
  obtain ⟨p', p1', p2'⟩ := box.toFinset.exists_max_image (height n) h0
  simp only [List.mem_toFinset] at p1 p2 p1' p2'
  exact ⟨_, _, ⟨p, p1, rfl⟩, ⟨p', p1', rfl⟩, fun r hr => ⟨p2 r hr, p2' r hr⟩⟩

/-- A cylinder of radius 5 and length 20 along z, cut by three planes. -/
def cutRod : Vol := ⟨none, none, none, [.cyl ⟨⟨0, 0, 1⟩, 0, 5, 20, 1 / 10 ^ 5⟩, .plane ⟨⟨1, 0, 0⟩, ⟨4, 0, 0⟩, 1 / 10 ^ 5⟩,
  .plane ⟨⟨0, 1, 0⟩, ⟨0, 4, 0⟩, 1 / 10 ^ 5⟩, .plane ⟨⟨0, -1, 0⟩, ⟨0, -4, 0⟩, 1 / 10 ^ 5⟩], none, 0, 1 / 10 ^ 10, none, none⟩

/-- **C131 (three planes, refuted).** A built prefab cannot always be populated: for a rod cut by three planes and one twin or fault, `build_object` succeeds,
whatever the choice between twin and fault, and `populate_atoms` of what it built raises ValueError. -/
theorem C131_three_planes_refuted (env : Env) : ∃ split fuel, ∀ rand, ∃ t tw sf,
    (⟨some (unitGen 0), some (.vol cutRod), 1 / 2, 1, 3, ⟨0, 0, 1⟩⟩ : Fcc).build env split fuel rand = some (.ok (t, tw, sf)) ∧
    ∀ n0, ∃ t' n1, t.populate env n0 = (t', n1, .error .value) := by
  have hcyl : ∀ c, Alg.cyl c ∈ cutRod.algs → c = ⟨⟨0, 0, 1⟩, 0, 5, 20, 1 / 10 ^ 5⟩ := by
    intro c hc
    simpa [cutRod] using hc
  obtain ⟨box, hb, hne, hin⟩ := cylinder_box env cutRod rfl rfl (by simp [Vol.planes, cutRod]) (by simp [Vol.cylinders, cutRod]) (by
    intro c hc
    rw [hcyl c hc]
    refine ⟨by rw [← len_eq, len_e3], by norm_num, by norm_num, ?_⟩
    rintro (⟨c, hc⟩ | ⟨c, hc⟩)
    · have := congrArg V3.x hc; simp at this
    · have h1 := congrArg V3.x hc
      have h2 := congrArg V3.z hc
      simp at h1 h2
      rw [← h1] at h2
      norm_num at h2)
  have hax : ∀ z : ℝ, |z| < 10 → (⟨0, 0, z⟩ : V3 ℝ) ∈ Region box := by
    intro z hz
    refine hin _ fun c hc => ?_
    rw [hcyl c hc]
    refine ⟨z, by norm_num; exact hz, ?_, ?_⟩
    · simp [Perp]
    · simp [Spec.dist]
  obtain ⟨lo, hi, l1, l2, l3⟩ := span_exists hne ⟨0, 0, 1⟩
  have hlin : ∀ (p q : V3 ℝ) (a b : ℝ), height ⟨0, 0, 1⟩ (a • p + b • q) = a * height ⟨0, 0, 1⟩ p + b * height ⟨0, 0, 1⟩ q := by
    intro p q a b
    simp [height]
  have hz : ∀ z : ℝ, height ⟨0, 0, 1⟩ ⟨0, 0, z⟩ = z := by intro z; simp [height]
  have hhi : 9 ≤ hi := by
    have := region_le (height ⟨0, 0, 1⟩) hlin (fun p hp => (l3 p hp).2) (hax 9 (by rw [abs_of_pos] <;> norm_num))
    rwa [hz] at this
  have hlo : lo ≤ -9 := by
    have := region_le (fun p => -height ⟨0, 0, 1⟩ p) (by intro p q a b; simp only [hlin]; ring) (fun p hp => neg_le_neg (l3 p hp).1)
      (hax (-9) (by rw [abs_of_neg] <;> norm_num))
    rw [hz] at this
    linarith
  have hI : Intact env cutRod := ⟨rfl, .inl ⟨rfl, rfl⟩⟩
  have hr : SearchRange env cutRod ((len (⟨0, 0, 1⟩ : V3 ℝ))⁻¹ • ⟨0, 0, 1⟩) lo hi := by
    rw [unit_e3]
    exact .inl ⟨box, hb, by simp [cutRod], l1, l2, l3⟩
  obtain ⟨-, split, fuel, h⟩ := C90_fcc_returns_partial env ⟨some (unitGen 0), some (.vol cutRod), 1 / 2, 1, 3, ⟨0, 0, 1⟩⟩ _ _ _ _ _ rfl rfl
    (unit_regular 0) trivial hI (by norm_num) (by norm_num) (unit_dir_e3 0) lo hi hr (by
      rw [len_e3]
      show (((1 + 1) * 3 + 2 * 1 - 1 : ℤ) : ℝ) ≤ _
      push_cast
      linarith)
  refine ⟨split, fuel, fun rand => ?_⟩
  obtain ⟨t, tw, sf, ht⟩ := h rand
  exact ⟨t, tw, sf, ht, C131_three_planes env _ _ cutRod _ _ rfl rfl rfl rfl rfl rfl (by rw [unit_sbases, M3.det_one]; norm_num) hI box hb hne rfl rfl
    (by simp [Vol.planes, cutRod]) (by norm_num) split fuel rand t tw sf ht⟩

/-- Concrete case of C131: two defects on the planes (111) of an fcc ball of radius 10 with cell 1.  The run exists for every sequence of random choices
between twin and fault, and the populated MultiVolume holds every site of the crystal of grain k which is at most 10 from the centre and in layer k. -/
example (env : Env) : ∃ split fuel, ∀ rand, ∃ t tw sf,
    (⟨some fccGen, some (.vol (ball 0 10)), 1 / 2, 2, 3, ⟨1, 1, 1⟩⟩ : Fcc).build env split fuel rand = some (.ok (t, tw, sf)) ∧
    ∃ (n : V3 ℝ) (c : ℕ → ℝ) (gs : ℕ → Gen ℝ), gs 0 = fccGen ∧ ∀ n0, ∃ t' n1 as ss, t.populate env n0 = (t', n1, .ok ()) ∧ t'.held = some (as, ss) ∧
      ∀ k, k ≤ 2 → ∀ a ∈ CrystalOf (gs k), Spec.dist a.1 0 ≤ 10 → InLayer n c (1 / 10 ^ 5) 2 k a.1 → a ∈ as.zip ss := by
  have hB : CubicCell 1 (⟨1, .scalar 1, 0⟩ : Voxel ℝ).sbases := by
    rw [unit_sbases]
    exact ⟨one_pos, by ext <;> simp [M3.mul_def, M3.transpose, M3.one_def, M3.smul_def],
      by ext <;> simp [M3.mul_def, M3.transpose, M3.one_def, M3.smul_def]⟩
  have hB' : CubicCell 1 (1 : M3 ℝ) := by rw [← unit_sbases 0]; exact hB
  have hl : 1 ≤ len (millerV ⟨1, 1, 1⟩) := by
    simp only [len, millerV]; rw [Real.one_le_sqrt]; norm_num
  have hnz : nonzeros ⟨1, 1, 1⟩ = 3 := by simp [nonzeros]
  have hi := ball_intact env 0 10
  have h2 : (0 : ℤ) ≤ 2 := by norm_num
  obtain ⟨-, split, fuel, h⟩ := C90_cubic_partial env ⟨some fccGen, some (.vol (ball 0 10)), 1 / 2, 2, 3, ⟨1, 1, 1⟩⟩ fccGen (ball 0 10) _ _ 1 1
    rfl rfl rfl rfl rfl one_pos rfl hB hB' (by rw [mul_one]; exact lt_of_lt_of_le machEps_lt_one hl) hi h2 (by rw [hnz]) (-10) 10
    (ball_range env 0 (by norm_num) _) (by rw [hnz]; push_cast; nlinarith)
  refine ⟨split, fuel, fun rand => ?_⟩
  obtain ⟨t, tw, sf, ht, -⟩ := h rand
  refine ⟨t, tw, sf, ht, ?_⟩
  obtain ⟨n, c, gs, B, -, -, k3, -, -, -, k7⟩ := C131_fcc env _ fccGen (ball 0 10) _ _ rfl rfl rfl rfl rfl rfl trivial
    (by rw [unit_sbases, M3.det_one]; norm_num) (by
      intro f hf
      simp only [List.mem_cons, List.not_mem_nil, or_false] at hf
      rcases hf with rfl | rfl | rfl | rfl <;> norm_num) hi (Vol.sphereBox ⟨10, 0, 1 / 10 ^ 5⟩) rfl (by simp [Vol.sphereBox, Vol.rectPrism])
    (.inr (.inl (by simp [Vol.spheres, ball]))) h2 (by norm_num) split fuel rand t tw sf ht
  refine ⟨n, c, gs, k3, fun n0 => ?_⟩
  obtain ⟨t', n1, as, ss, r1, r2, -, -, -, r5⟩ := k7 n0
  refine ⟨t', n1, as, ss, r1, r2, fun k hk a ha hd hl => r5 k hk a ha ?_ hl (ball_in_box _ (by norm_num) _ hd)⟩
  refine .vol _ _ (by intro t ht; cases ht) ?_
  intro b hb
  simp only [ball, List.mem_singleton] at hb
  subst hb
  show Sphere.interior _ _ = true
  rw [Sphere.interior_iff, ← norm3_sq]
  rw [dist_eq] at hd
  exact pow_lt_pow_left₀ (lt_of_le_of_lt hd (by norm_num)) (norm3_nonneg _) (by norm_num)

/-- Concrete case of C131 for a grain boundary: fcc with cell 1 in a ball of radius 10, zone axes [1,1,1] and [0,0,1], boundary plane x = 0. -/
example (env : Env) : ∃ (t : VTree) (g1 g2 : Gen ℝ),
    (⟨⟨1, 1, 1⟩, ⟨0, 0, 1⟩, .plane ⟨⟨1, 0, 0⟩, 0, 1 / 10 ^ 5⟩, some (.vol (ball 0 10)), some (.crystal fccGen)⟩ : Boundary).build env = .ok t ∧
    ∀ n0, ∃ t' n1 as ss, t.populate env n0 = (t', n1, .ok ()) ∧ t'.held = some (as, ss) ∧ as.Nodup ∧
      ∀ a : V3 ℝ × ℤ, a.1.normSq ≤ 100 → (if a.1.x < 1 / 10 ^ 5 then a ∈ CrystalOf g1 else a ∈ CrystalOf g2) → a ∈ as.zip ss := by
  have gd : ∀ z : V3 ℝ, 0 < z.z → GoodAxis (1 : M3 ℝ) z := by
    intro z hz
    unfold GoodAxis
    rw [cart_eq, add_zero, M3.mulVec_one]
    refine ⟨fun h => by rw [h] at hz; simp at hz, ?_⟩
    rintro ⟨c, hc, rfl⟩
    simp only at hz; linarith
  obtain ⟨t, g1, g2, R1, R2, k1, -, -, -, -, -, -, k8⟩ := C131_boundary env
    ⟨⟨1, 1, 1⟩, ⟨0, 0, 1⟩, .plane ⟨⟨1, 0, 0⟩, 0, 1 / 10 ^ 5⟩, some (.vol (ball 0 10)), some (.crystal fccGen)⟩ fccGen (ball 0 10) _ _ _ rfl rfl rfl rfl rfl rfl rfl
    trivial (by rw [unit_sbases, M3.det_one]; norm_num) fccGen_near (ball_intact env 0 10) (by rw [unit_sbases]; exact gd _ (by norm_num))
    (by rw [unit_sbases]; exact gd _ (by norm_num)) (Vol.sphereBox ⟨10, 0, 1 / 10 ^ 5⟩) rfl (by simp [Vol.sphereBox, Vol.rectPrism])
    (.inr (.inl (by simp [Vol.spheres, ball])))
  refine ⟨t, g1, g2, k1, fun n0 => ?_⟩
  obtain ⟨t', n1, as, ss, r1, r2, -, r4, -, r6⟩ := k8 n0
  refine ⟨t', n1, as, ss, r1, r2, r4 ?_, fun a ha hc => r6 a (ball_inside env ha).1 ?_ (ball_inside env ha).2⟩
  · have key : ∀ m : ℤ, (m : ℝ) ≠ 1 / 2 ∧ (m : ℝ) ≠ -(1 / 2) := by
      intro m
      constructor <;> intro h
      · have : (2 * m : ℝ) = 1 := by rw [h]; norm_num
        have : 2 * m = 1 := by exact_mod_cast this
        omega
      · have : (2 * m : ℝ) = -1 := by rw [h]; norm_num
        have : 2 * m = -1 := by exact_mod_cast this
        omega
    simp only [DistinctSites, List.pairwise_cons, List.mem_cons, List.not_mem_nil, or_false, forall_eq_or_imp, forall_eq, IsEmpty.forall_iff, implies_true,
      List.Pairwise.nil, and_true]
    refine ⟨⟨?_, ?_, ?_⟩, ⟨?_, ?_⟩, ?_⟩ <;> rintro ⟨m, hm⟩ <;>
      [have := congrArg V3.x hm; have := congrArg V3.x hm; have := congrArg V3.y hm; have := congrArg V3.y hm; have := congrArg V3.x hm;
        have := congrArg V3.x hm] <;>
      simp only [V3.add_x, V3.add_y] at this
    · exact (key m.x).2 (by linarith)
    · exact (key m.x).2 (by linarith)
    · exact (key m.y).2 (by linarith)
    · exact (key m.y).1 (by linarith)
    · exact (key m.x).1 (by linarith)
    · exact (key m.x).1 (by linarith)
  · have e : ∀ q : V3 ℝ, height ⟨1, 0, 0⟩ q = q.x := by intro q; simp [height]
    simpa only [e, V3.zero_x, zero_add] using hc

/-- Concrete case of C131 for the wurtzite prefab: two faults in a hexagonal ball of radius 10; it holds every site of grain k in layer k. -/
example (env : Env) : ∃ split fuel t, hexWurtzite.build env split fuel = some (.ok t) ∧
    ∃ (n : V3 ℝ) (c : ℕ → ℝ) (gs : ℕ → Gen ℝ), gs 0 = hexGen ∧ ∀ n0, ∃ t' n1 as ss, t.populate env n0 = (t', n1, .ok ()) ∧ t'.held = some (as, ss) ∧
      ∀ k, k ≤ 2 → ∀ a ∈ CrystalOf (gs k), a.1.normSq ≤ 100 → InLayer n c (1 / 10 ^ 5) 2 k a.1 → a ∈ as.zip ss := by
  have H := hex_regular
  have hi := ball_intact env 0 10
  have h2 : (0 : ℤ) ≤ hexWurtzite.N := by show (0 : ℤ) ≤ 2; norm_num
  have h3 : (0 : ℤ) ≤ hexWurtzite.minSep := by show (0 : ℤ) ≤ 3; norm_num
  have s3 : √3 ≠ 0 := by simp
  obtain ⟨-, split, fuel, t, ht⟩ := C90_wurtzite_returns_partial env hexWurtzite _ _ _ _ _ rfl rfl H (by rw [len_e3]; norm_num [machEps]) trivial hi h2 h3
    ⟨⟨1, 0, 0, 1 / √3, 2 / √3, 0, 0, 0, 1 / 2⟩, 1, by
      rw [hex_sbases]; ext <;> simp [hexCell, M3.mul_def, M3.one_def] <;> field_simp <;> norm_num, one_pos, by
      rw [cart_eq, add_zero]; ext <;> simp [M3.mulVec]⟩ (-10) 10 (ball_range env 0 (by norm_num) _) (by
      rw [len_e3]
      show (((2 + 1) * 3 + 1 : ℤ) : ℝ) ≤ _
      norm_num)
  refine ⟨split, fuel, t, ht, ?_⟩
  obtain ⟨n, c, gs, -, -, k3, -, k5⟩ := C131_wurtzite env hexWurtzite _ _ _ hexStruct rfl rfl rfl rfl rfl rfl trivial H.det (by
    intro f hf
    simp only [hexStruct, List.mem_cons, List.not_mem_nil, or_false] at hf
    rcases hf with rfl | rfl <;> norm_num) hi (Vol.sphereBox ⟨10, 0, 1 / 10 ^ 5⟩) rfl (by simp [Vol.sphereBox, Vol.rectPrism])
    (.inr (.inl (by simp [Vol.spheres, ball]))) h2 h3 split fuel t ht
  refine ⟨n, c, gs, k3, fun n0 => ?_⟩
  obtain ⟨t', n1, as, ss, r1, r2, -, -, -, r6⟩ := k5 n0
  exact ⟨t', n1, as, ss, r1, r2, fun k hk a ha hd hl => r6 k hk a ha (ball_inside env hd).1 hl (ball_inside env hd).2⟩

/-! ## C129 for other origins -/

/-- **C129 (refuted for other origins).** The ball of `C89_origin_refuted` (fcc, cell 1, radius 10, one twin, the lattice moved by a twelfth of the body
diagonal): what it holds after `populate_atoms` has two atoms only `1/(2√3)` apart, less than half of the `1/√2` between nearest neighbours. -/
theorem C129_origin_refuted (env : Env) : ∃ split fuel t tw sf,
    (⟨some movedFcc, some (.vol (ball 0 10)), 0, 1, 3, ⟨1, 1, 1⟩⟩ : Fcc).build env split fuel (fun _ => 0) = some (.ok (t, tw, sf)) ∧
    ∀ n0, ∃ t' n1 as ss, t.populate env n0 = (t', n1, .ok ()) ∧ t'.held = some (as, ss) ∧
      ∃ a ∈ as.zip ss, ∃ b ∈ as.zip ss, a.2 = 79 ∧ b.2 = 79 ∧ a.1 ≠ b.1 ∧ Spec.dist a.1 b.1 = 1 / (2 * √3) ∧ Spec.dist a.1 b.1 < 1 / √2 / 2 := by
  obtain ⟨split, fuel, t, tw, sf, ht, n, d, K, ws, g', k1, k2, k3, ⟨k4, k5⟩, k6, k7, k8, k9, k10, -, k12, -⟩ := C89_origin_refuted env
  refine ⟨split, fuel, t, tw, sf, ht, fun n0 => ?_⟩
  obtain ⟨t', n1, as, ss, r1, r2, -, -, -, r6⟩ := fcc_populates env ⟨some movedFcc, some (.vol (ball 0 10)), 0, 1, 3, ⟨1, 1, 1⟩⟩ movedFcc (ball 0 10) _ _
    rfl rfl rfl rfl rfl rfl trivial (by rw [unit_sbases, M3.det_one]; norm_num) (by
      intro f hf
      simp only [List.mem_cons, List.not_mem_nil, or_false] at hf
      rcases hf with rfl | rfl | rfl | rfl <;> norm_num) (ball_intact env 0 10) (Vol.sphereBox ⟨10, 0, 1 / 10 ^ 5⟩) rfl (by simp [Vol.sphereBox, Vol.rectPrism])
    (.inr (.inl (by simp [Vol.spheres, ball]))) (by norm_num) (by norm_num) split fuel _ t tw sf ht ws (fun | 0 => movedFcc | _ => g')
    (by rw [k6]; rfl) (fun k hk => by
      obtain rfl | rfl : k = 0 ∨ k = 1 := by simp at hk; omega
      · exact k7
      · exact k8) n0
  simp only [show (1 : ℤ).toNat = 1 from rfl] at r6
  refine ⟨t', n1, as, ss, r1, r2, ?_⟩
  have hd3 : d * √3 = 1 := by
    have h3 : (0 : ℝ) < √3 := by positivity
    have h33 : √3 ^ 2 = (3 : ℝ) := Real.sq_sqrt (by norm_num)
    have : (d * √3) ^ 2 = 1 := by rw [mul_pow, h33]; linarith
    nlinarith [mul_pos k1 h3]
  have hKb : -17 ≤ K ∧ K ≤ 17 := by
    have hq : (K : ℝ) ^ 2 < 300 := by
      have : (K * d) ^ 2 < 10 ^ 2 := by rw [sq_lt_sq, abs_of_pos (by norm_num : (0 : ℝ) < 10), abs_lt]; exact ⟨k4, k5⟩
      nlinarith
    have hq' : K ^ 2 < 300 := by exact_mod_cast hq
    constructor <;> nlinarith
  have hKr : (-17 : ℝ) ≤ K ∧ (K : ℝ) ≤ 17 := ⟨by exact_mod_cast hKb.1, by exact_mod_cast hKb.2⟩
  -- an atom a quarter of the spacing above the plane
  obtain ⟨f, hf, hsum, hsq⟩ : ∃ f : V3 ℝ, (f + ⟨1 / 12, 1 / 12, 1 / 12⟩, 79) ∈ CrystalOf movedFcc ∧ f.x + f.y + f.z = K ∧
      3 * f.normSq ≤ (K : ℝ) ^ 2 + 2 := by
    obtain ⟨m, hm⟩ : ∃ m : ℤ, K = 3 * m ∨ K = 3 * m + 1 ∨ K = 3 * m + 2 := ⟨K / 3, by omega⟩
    have hmem : ∀ (c : V3 ℤ) (f : V3 ℝ), (f, 79) ∈ [(⟨0, 0, 0⟩, 79), (⟨1 / 2, 1 / 2, 0⟩, 79), (⟨1 / 2, 0, 1 / 2⟩, 79), ((⟨0, 1 / 2, 1 / 2⟩ : V3 ℝ), (79 : ℤ))] →
        ((⟨c.x + f.x, c.y + f.y, c.z + f.z⟩ : V3 ℝ) + ⟨1 / 12, 1 / 12, 1 / 12⟩, (79 : ℤ)) ∈ CrystalOf movedFcc := by
      intro c f hf
      refine ⟨_, _, rfl, rfl, c, (f, 79), hf, ?_⟩
      simp only [siteAt, cart_eq, unit_sbases, M3.mulVec_one]
    rcases hm with hm | hm | hm
    · refine ⟨_, hmem ⟨m, m, m⟩ ⟨0, 0, 0⟩ (by simp), ?_, ?_⟩ <;> rw [hm] <;> push_cast
      · simp; ring
      · simp [V3.normSq, V3.dot]; nlinarith
    · refine ⟨_, hmem ⟨m, m, m⟩ ⟨1 / 2, 1 / 2, 0⟩ (by simp), ?_, ?_⟩ <;> rw [hm] <;> push_cast
      · simp; ring
      · simp [V3.normSq, V3.dot]; nlinarith
    · refine ⟨_, hmem ⟨m + 1, m + 1, m⟩ ⟨0, 0, 0⟩ (by simp), ?_, ?_⟩ <;> rw [hm] <;> push_cast
      · simp; ring
      · simp [V3.normSq, V3.dot]; nlinarith
  have hq1 : (f + ⟨1 / 12, 1 / 12, 1 / 12⟩).normSq = f.normSq + K / 6 + 1 / 48 := by
    rw [← hsum]; simp [V3.normSq, V3.dot]; ring
  have hq2 : (f + ⟨1 / 12, 1 / 12, 1 / 12⟩ - (d / 2) • n).normSq = f.normSq - K / 6 + 1 / 48 := by
    have e : f + ⟨1 / 12, 1 / 12, 1 / 12⟩ - (d / 2) • n = f - (⟨1 / 12, 1 / 12, 1 / 12⟩ : V3 ℝ) := by
      rw [k3]; ext <;> simp <;> linarith
    rw [e, ← hsum]; simp [V3.normSq, V3.dot]; ring
  have hh1 : height n (f + ⟨1 / 12, 1 / 12, 1 / 12⟩) = K * d + d / 4 := by
    rw [← hsum, k3]; simp [height]; ring
  have hh2 : height n (f + ⟨1 / 12, 1 / 12, 1 / 12⟩ - (d / 2) • n) = K * d - d / 4 := by
    rw [← hsum, k3]
    simp [height]
    linear_combination (-d / 2) * k2
  have hdb : 1 / 2 < d := by nlinarith
  obtain ⟨i1, i2⟩ := ball_inside env (q := f + ⟨1 / 12, 1 / 12, 1 / 12⟩) (by rw [hq1]; nlinarith [hKr.1, hKr.2])
  obtain ⟨i3, i4⟩ := ball_inside env (q := f + ⟨1 / 12, 1 / 12, 1 / 12⟩ - (d / 2) • n) (by rw [hq2]; nlinarith [hKr.1, hKr.2])
  have hdist : Spec.dist (f + ⟨1 / 12, 1 / 12, 1 / 12⟩) (f + ⟨1 / 12, 1 / 12, 1 / 12⟩ - (d / 2) • n) = 1 / (2 * √3) := by
    rw [dist_eq, sub_sub_cancel, norm3_smul, abs_of_pos (by positivity)]
    have : norm3 n = 1 := by
      rw [norm3_eq_one, k3]; simp [V3.normSq, V3.dot]; linarith
    rw [this]
    have h3 : (0 : ℝ) < √3 := by positivity
    field_simp
    linarith
  refine ⟨(_, 79), r6 0 (by norm_num) _ hf ((k9 _).mpr ⟨i1, by rw [hh1]; norm_num; linarith⟩) i2,
    (_, 79), r6 1 le_rfl _ (k12 _ hf hh1) ((k10 _).mpr ⟨i3, by rw [hh2]; norm_num; linarith⟩) i4, rfl, rfl, ?_, hdist, ?_⟩
  · intro e
    simp only at e
    rw [← e, hh1] at hh2
    linarith
  · simp only [hdist]
    have h2 : (0 : ℝ) < √2 := by positivity
    have h23 : √2 < √3 := Real.sqrt_lt_sqrt (by norm_num) (by norm_num)
    rw [div_div, div_lt_div_iff₀ (by positivity) (by positivity)]
    linarith

end Prefab
end
end CZ
