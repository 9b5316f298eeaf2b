import Verif.Props.PrefabContents

/-!
# Property C136: what fills a Volume is the crystal, not its description
-/

namespace CZ
open Spec

noncomputable section
open Classical

namespace Prefab

theorem inside_gen {env : Env} {v : Vol} {g : Option GenObj} {p : V3 ℝ} :
    Inside env (.vol { v with gen := g }) p ↔ Inside env (.vol v) p := by
  rw [← Vol.interior_iff, ← Vol.interior_iff]
  rfl

theorem box_gen {env : Env} {v : Vol} {g : Option GenObj} : ({ v with gen := g } : Vol).boundingBox env = v.boundingBox env := rfl

/-- What a Volume filled by an unstrained crystal holds: sites of the crystal inside the Volume, and all of those in the
region of its box. -/
theorem filled {env : Env} {v : Vol} {c : Gen ℝ} {x : Voxel ℝ} {sites : List (V3 ℝ × ℤ)} {box : List (V3 ℝ)}
    (hb : v.boundingBox env = .ok (.rows box)) (hbox : box ≠ []) (hg : v.gen = some (.crystal c)) (hP : Gen.Plain c x sites)
    (hd : x.sbases.det ≠ 0) (n : ℕ) :
    ∃ w as zs, v.populate env n = (w, .ok ()) ∧ w.atoms = some as ∧ w.species = some zs ∧ as.length = zs.length ∧
      (∀ a ∈ as.zip zs, a ∈ CrystalOf c ∧ Inside env (.vol v) a.1) ∧
      (FracNearCell sites → ∀ a ∈ CrystalOf c, a.1 ∈ Region box → Inside env (.vol v) a.1 → a ∈ as.zip zs) ∧
      (DistinctSites sites → as.Nodup) := by
  obtain ⟨⟨lo, hi⟩, he⟩ := Voxel.getExtents_ok hd hbox
  obtain ⟨L, hL⟩ := hP.2.1
  refine ⟨_, _, _, populate_crystal hb hg hP he n, rfl, rfl, by simp, ?_, ?_, ?_⟩
  · rw [List.zip_map']
    intro a ha
    obtain ⟨b, hb', rfl⟩ := List.mem_map.mp ha
    obtain ⟨m, -, hb'⟩ := List.mem_flatMap.mp hb'
    obtain ⟨⟨f, hf, rfl⟩, hin⟩ := mem_inCell.mp hb'
    exact ⟨⟨x, _, hP.1, hL, m, f, hf, rfl⟩, (Vol.interior_iff env v _).mp hin⟩
  · rintro hs _ ⟨x', s', e1, e2, m, f, hf, rfl⟩ hin hI
    rw [hP.1] at e1
    cases e1
    rw [hL] at e2
    cases e2
    rw [List.zip_map']
    refine List.mem_map.mpr ⟨⟨siteAt x.sbases x.origin m f.1, f.2⟩, ?_, rfl⟩
    rw [List.mem_flatMap]
    exact ⟨m, cell_mem he (hs f hf) hin, mem_inCell.mpr ⟨⟨f, hf, rfl⟩, (Vol.interior_iff env v _).mpr hI⟩⟩
  · intro hs
    have hsup : Supplied env v ((((Gen.cells lo hi).flatMap fun n => sites.map fun f => (⟨siteAt x.sbases x.origin n f.1, f.2⟩ : Atom ℝ)).map Atom.pos).zip
        (((Gen.cells lo hi).flatMap fun n => sites.map fun f => (⟨siteAt x.sbases x.origin n f.1, f.2⟩ : Atom ℝ)).map Atom.Z)) := by
      refine ⟨n, _, _, _, _, hb, hg, ?_, by simp, rfl⟩
      simp only [GenObj.supply, hP.1, Gen.supply_plain hP, Gen.rawAtoms_eq _ _ _ _ _ he, Except.map]
    have hpw := crystal_distinct hb hg hP hd hs hsup
    rw [List.zip_map', List.pairwise_map] at hpw
    have hsub : ((Gen.cells lo hi).flatMap (inCell (v.interior env) x sites)).Sublist
        ((Gen.cells lo hi).flatMap fun n => sites.map fun f => (⟨siteAt x.sbases x.origin n f.1, f.2⟩ : Atom ℝ)) := by
      have : (Gen.cells lo hi).flatMap (inCell (v.interior env) x sites) =
          ((Gen.cells lo hi).flatMap fun n => sites.map fun f => (⟨siteAt x.sbases x.origin n f.1, f.2⟩ : Atom ℝ)).filter
            (v.interior env ∘ Atom.pos) := by
        rw [List.filter_flatMap]; rfl
      rw [this]
      exact List.filter_sublist
    unfold List.Nodup
    rw [List.pairwise_map]
    exact hpw.sublist hsub

/-- **C136 (a Volume).** Two crystalline generators that describe the same infinite crystal fill a Volume with the same atoms
inside the region of the bounding box; if neither lists a site twice, each atom appears as often in one as in the
other, namely once. -/
theorem C136_same_crystal_partial (env : Env) (v : Vol) (c c' : Gen ℝ) (x x' : Voxel ℝ) (sites sites' : List (V3 ℝ × ℤ)) (box : List (V3 ℝ))
    (hb : v.boundingBox env = .ok (.rows box)) (hbox : box ≠ []) (hP : Gen.Plain c x sites) (hP' : Gen.Plain c' x' sites')
    (hd : x.sbases.det ≠ 0) (hd' : x'.sbases.det ≠ 0) (hs : FracNearCell sites) (hs' : FracNearCell sites')
    (hC : CrystalOf c = CrystalOf c') (n n' : ℕ) :
    ∃ w as zs w' as' zs', ({ v with gen := some (.crystal c) } : Vol).populate env n = (w, .ok ()) ∧ w.atoms = some as ∧ w.species = some zs ∧
      ({ v with gen := some (.crystal c') } : Vol).populate env n' = (w', .ok ()) ∧ w'.atoms = some as' ∧ w'.species = some zs' ∧
      (∀ a : V3 ℝ × ℤ, a.1 ∈ Region box → (a ∈ as.zip zs ↔ a ∈ as'.zip zs')) ∧
      (DistinctSites sites → DistinctSites sites' →
        ((as.zip zs).filter fun a => decide (a.1 ∈ Region box)).Perm ((as'.zip zs').filter fun a => decide (a.1 ∈ Region box))) := by
  obtain ⟨w, as, zs, h1, h2, h3, hl, h4, h5, h6⟩ := filled (v := { v with gen := some (.crystal c) }) (by rw [box_gen]; exact hb) hbox rfl hP hd n
  obtain ⟨w', as', zs', k1, k2, k3, kl, k4, k5, k6⟩ := filled (v := { v with gen := some (.crystal c') }) (by rw [box_gen]; exact hb) hbox rfl hP' hd' n'
  have key : ∀ a : V3 ℝ × ℤ, a.1 ∈ Region box → (a ∈ as.zip zs ↔ a ∈ as'.zip zs') := by
    intro a ha
    constructor
    · intro h
      obtain ⟨i1, i2⟩ := h4 a h
      exact k5 hs' a (hC ▸ i1) ha (inside_gen.mpr (inside_gen.mp i2))
    · intro h
      obtain ⟨i1, i2⟩ := k4 a h
      exact h5 hs a (hC ▸ i1) ha (inside_gen.mpr (inside_gen.mp i2))
  refine ⟨w, as, zs, w', as', zs', h1, h2, h3, k1, k2, k3, key, fun d d' => ?_⟩
  have nd : ∀ {l : List (V3 ℝ)} {m : List ℤ}, l.length = m.length → l.Nodup → (l.zip m).Nodup := by
    intro l m hlm hn
    refine List.Nodup.of_map Prod.fst ?_
    rw [List.map_fst_zip (by omega)]
    exact hn
  rw [List.perm_ext_iff_of_nodup ((nd hl (h6 d)).filter _) ((nd kl (k6 d')).filter _)]
  intro a
  simp only [List.mem_filter, decide_eq_true_eq]
  constructor
  · rintro ⟨i, j⟩; exact ⟨(key a j).mp i, j⟩
  · rintro ⟨i, j⟩; exact ⟨(key a j).mpr i, j⟩

/-! ## Descriptions of the same crystal -/

/-- A lattice vector added to the origin, and taken off the number of the cell. -/
theorem crystal_shift (B : M3 ℝ) (o : V3 ℝ) (m : V3 ℤ) (sites : List (V3 ℝ × ℤ)) :
    Crystal B (o + cart B 0 ⟨(m.x : ℝ), (m.y : ℝ), (m.z : ℝ)⟩) sites = Crystal B o sites := by
  have e : ∀ (n : V3 ℤ) (f : V3 ℝ), siteAt B (o + cart B 0 ⟨(m.x : ℝ), (m.y : ℝ), (m.z : ℝ)⟩) n f = siteAt B o (n + m) f := by
    intro n f
    simp only [siteAt, cart]
    ext <;> simp <;> ring
  ext a
  constructor
  · rintro ⟨n, f, hf, rfl⟩; exact ⟨n + m, f, hf, by rw [e]⟩
  · rintro ⟨n, f, hf, rfl⟩; exact ⟨n - m, f, hf, by rw [e, sub_add_cancel]⟩

/-- **C136 (lattice vectors).** Translating a generator by a lattice vector leaves its crystal unchanged. -/
theorem C136_lattice_vector {g g' : Gen ℝ} {x : Voxel ℝ} (hx : g.voxel = some x) (m : V3 ℤ) (l : Bool)
    (h : g.transform (.translation (cart x.sbases 0 ⟨m.x, m.y, m.z⟩) l false) = (g', .ok ())) : CrystalOf g' = CrystalOf g := by
  unfold Gen.transform at h
  rw [hx] at h
  simp only [Tr.bases, Tr.basisOnly, Tr.apply] at h
  cases hset : Voxel.basesSet x.bases with
  | error e => rw [hset] at h; cases h
  | ok B =>
    have hB : B = x.bases := by
      unfold Voxel.basesSet at hset
      split_ifs at hset
      cases hset; rfl
    subst hB
    rw [hset] at h
    simp only [Prod.mk.injEq, and_true] at h
    subst h
    ext a
    constructor
    · rintro ⟨v, s, e1, e2, ha⟩
      simp only [Bool.false_eq_true, if_false, Option.some.injEq] at e1
      subst e1
      simp only at ha
      rw [show ({ x with bases := x.bases, origin := x.origin + cart x.sbases 0 ⟨(m.x : ℝ), (m.y : ℝ), (m.z : ℝ)⟩ } : Voxel ℝ).sbases = x.sbases from rfl,
        crystal_shift] at ha
      exact ⟨x, s, hx, e2, ha⟩
    · rintro ⟨v, s, e1, e2, ha⟩
      rw [hx] at e1
      cases e1
      refine ⟨_, s, rfl, e2, ?_⟩
      simp only [Bool.false_eq_true, if_false]
      rw [show ({ x with bases := x.bases, origin := x.origin + cart x.sbases 0 ⟨(m.x : ℝ), (m.y : ℝ), (m.z : ℝ)⟩ } : Voxel ℝ).sbases = x.sbases from rfl,
        crystal_shift]
      exact ha

/-- **C136 (symmetries).** Transforming a generator by a symmetry of its crystal leaves its crystal unchanged. -/
theorem C136_symmetry {g g' : Gen ℝ} {x : Voxel ℝ} (hx : g.voxel = some x) (hs : ColumnScale x.scale) {t : Tr ℝ} (ht : InvertibleTr t)
    (hb : t.basisOnly = false) (h : g.transform t = (g', .ok ())) (hsym : ∀ a, a ∈ CrystalOf g ↔ (t.apply a.1, a.2) ∈ CrystalOf g) :
    CrystalOf g' = CrystalOf g := by
  obtain ⟨L, hL, hLb, hLa⟩ := ht.linearPart
  have h' : g.fromGenerator [t] = .ok g' := by simp only [Gen.fromGenerator, h]
  obtain ⟨-, -, -, -, himg⟩ := crystal_image hx hs h' hb L hLb hLa
  have hsurj : ∀ q, ∃ p, t.apply p = q := by
    intro q
    obtain ⟨e, he⟩ : ∃ e, L.mulVec e = q - t.apply 0 := ⟨_, (M3.solve_iff L _ _ hL).mp (M3.solve_ok L _ hL)⟩
    refine ⟨e, ?_⟩
    have := hLa e 0
    rw [sub_zero, he] at this
    exact sub_left_injective this
  ext a
  rw [himg]
  constructor
  · rintro ⟨b, hb', rfl⟩
    exact (hsym b).mp hb'
  · intro ha
    obtain ⟨p, hp⟩ := hsurj a.1
    refine ⟨(p, a.2), (hsym _).mpr (by simp only; rw [hp]; exact ha), by simp only; rw [hp]⟩

/-- Integer matrices. -/
def castM (U : M3 ℤ) : M3 ℝ := ⟨U.m00, U.m01, U.m02, U.m10, U.m11, U.m12, U.m20, U.m21, U.m22⟩

/-- **C136 (choice of the cell).** Other basis vectors of the same lattice (`B * U` with an integer matrix `U` that has an
integer inverse `W`), with the fractional coordinates converted accordingly, describe the same crystal. -/
theorem C136_cell (B : M3 ℝ) (o : V3 ℝ) (sites : List (V3 ℝ × ℤ)) (U W : M3 ℤ) (hUW : U * W = 1) :
    Crystal (B * castM U) o (sites.map fun f => ((castM W).mulVec f.1, f.2)) = Crystal B o sites := by
  have hUW' : castM U * castM W = 1 := by
    have h := hUW
    rw [M3.mul_def, M3.one_def] at h
    rw [M3.mul_def, M3.one_def]
    injection h with h0 h1 h2 h3 h4 h5 h6 h7 h8
    simp only [castM]
    congr 1 <;> assumption_mod_cast
  have e : ∀ (n : V3 ℤ) (f : V3 ℝ), siteAt (B * castM U) o n ((castM W).mulVec f) = siteAt B o (U.mulVec n) f := by
    intro n f
    rw [siteAt_eq, siteAt_eq, M3.mulVec_mul, M3.mulVec_mul, ← M3.mulVec_mul (castM U) (castM W), hUW', M3.mulVec_one]
    congr 3
    ext <;> simp [castM, Gen.castV, M3.mulVec]
  have hn : ∀ n : V3 ℤ, U.mulVec (W.mulVec n) = n := by
    intro n
    have h := hUW
    rw [M3.mul_def, M3.one_def] at h
    injection h with h0 h1 h2 h3 h4 h5 h6 h7 h8
    ext
    · simp only [M3.mulVec]; linear_combination n.x * h0 + n.y * h1 + n.z * h2
    · simp only [M3.mulVec]; linear_combination n.x * h3 + n.y * h4 + n.z * h5
    · simp only [M3.mulVec]; linear_combination n.x * h6 + n.y * h7 + n.z * h8
  ext a
  constructor
  · rintro ⟨n, f, hf, rfl⟩
    obtain ⟨f, hf', rfl⟩ := List.mem_map.mp hf
    exact ⟨U.mulVec n, f, hf', by rw [e]⟩
  · rintro ⟨n, f, hf, rfl⟩
    exact ⟨W.mulVec n, _, List.mem_map.mpr ⟨f, hf, rfl⟩, by simp only; rw [e, hn]⟩

/-! ## The tolerance shell -/

/-- **C136 (refuted for all atoms).** Between the radius and the radius plus the tolerance the description matters: a site
given with fractional coordinate 1/20 puts an atom there which the same site, given with fractional coordinate -19/20,
does not. -/
theorem C136_same_crystal_refuted : ¬ ∀ (env : Env) (v : Vol) (c c' : Gen ℝ) (x x' : Voxel ℝ) (sites sites' : List (V3 ℝ × ℤ)) (box : List (V3 ℝ)),
    v.boundingBox env = .ok (.rows box) → box ≠ [] → Gen.Plain c x sites → Gen.Plain c' x' sites' →
    x.sbases.det ≠ 0 → x'.sbases.det ≠ 0 → FracNearCell sites → FracNearCell sites' →
    CrystalOf c = CrystalOf c' → ∀ (n n' : ℕ) (w w' : Vol) (as as' : List (V3 ℝ)),
      ({ v with gen := some (.crystal c) } : Vol).populate env n = (w, .ok ()) → w.atoms = some as →
      ({ v with gen := some (.crystal c') } : Vol).populate env n' = (w', .ok ()) → w'.atoms = some as' →
      ∀ p, p ∈ as → p ∈ as' := by
  intro H
  let env : Env := ⟨fun _ _ _ => false, fun _ => false, fun _ => ([], 0), fun _ _ _ _ => 0, fun _ _ => []⟩
  let c : Gen ℝ := ⟨some ⟨1, [(⟨1 / 20, 0, 0⟩, 6)]⟩, some unitVoxel, none, none⟩
  let c' : Gen ℝ := ⟨some ⟨1, [(⟨-19 / 20, 0, 0⟩, 6)]⟩, some unitVoxel, none, none⟩
  have hP : Gen.Plain c unitVoxel [(⟨1 / 20, 0, 0⟩, 6)] := ⟨rfl, ⟨1, rfl⟩, rfl, rfl⟩
  have hP' : Gen.Plain c' unitVoxel [(⟨-19 / 20, 0, 0⟩, 6)] := ⟨rfl, ⟨1, rfl⟩, rfl, rfl⟩
  have hd : unitVoxel.sbases.det ≠ 0 := by rw [unitVoxel_sbases, M3.det_one]; norm_num
  have hbox : Vol.sphereBox ⟨1, 0, 1 / 10⟩ ≠ [] := by simp [Vol.sphereBox, Vol.rectPrism]
  obtain ⟨⟨lo, hi⟩, he⟩ := Voxel.getExtents_ok hd hbox
  obtain ⟨w', as', zs', k1, k2, k3⟩ := unitBall_atoms env ⟨-19 / 20, 0, 0⟩ 0
  have h1 := populate_crystal (unitBall_box env ⟨1 / 20, 0, 0⟩) rfl hP he 0
  have hin := H env (unitBall 0) c c' unitVoxel unitVoxel _ _ _ (unitBall_box env 0) hbox hP hP' hd hd (by simp [FracNearCell]; norm_num) (by simp [FracNearCell]; norm_num)
    ?_ 0 0 _ w' _ as' h1 rfl k1 (by rw [k2]) ⟨21 / 20, 0, 0⟩ ?_
  · obtain ⟨m, hm1, hm2, hm⟩ := k3 _ hin
    have := congrArg V3.x hm
    simp only at this
    have h4 : ((m.x : ℤ) : ℝ) = ((2 : ℤ) : ℝ) := by push_cast; linarith
    have := Int.cast_injective h4
    omega
  · have e : ∀ n : V3 ℤ, siteAt unitVoxel.sbases unitVoxel.origin n ⟨-19 / 20, 0, 0⟩ =
        siteAt unitVoxel.sbases unitVoxel.origin (n - ⟨1, 0, 0⟩) ⟨1 / 20, 0, 0⟩ := by
      intro n
      rw [unitVoxel_sbases, show unitVoxel.origin = 0 from rfl, crystal_one, crystal_one]
      ext <;> simp
      ring
    ext a
    constructor
    · rintro ⟨x, s, e1, e2, m, f, hf, rfl⟩
      cases e1; cases e2
      simp only [List.mem_singleton] at hf
      subst hf
      exact ⟨_, _, rfl, rfl, m + ⟨1, 0, 0⟩, _, List.mem_singleton.mpr rfl, by rw [e, add_sub_cancel_right]⟩
    · rintro ⟨x, s, e1, e2, m, f, hf, rfl⟩
      cases e1; cases e2
      simp only [List.mem_singleton] at hf
      subst hf
      exact ⟨_, _, rfl, rfl, m - ⟨1, 0, 0⟩, _, List.mem_singleton.mpr rfl, by rw [e]⟩
  · refine List.mem_map.mpr ⟨⟨siteAt unitVoxel.sbases unitVoxel.origin ⟨1, 0, 0⟩ ⟨1 / 20, 0, 0⟩, 6⟩, ?_, ?_⟩
    · rw [List.mem_flatMap]
      refine ⟨⟨1, 0, 0⟩, cell_mem (f := 0) he (by simp) ?_, mem_inCell.mpr ⟨⟨_, List.mem_singleton.mpr rfl, rfl⟩, ?_⟩⟩
      · rw [unitVoxel_sbases, show unitVoxel.origin = 0 from rfl, crystal_one]
        refine ball_in_box _ (by norm_num) _ ?_
        simp [Spec.dist, V3.normSq, V3.dot]
      · rw [Vol.interior_iff]
        refine .vol _ _ (by simp [unitBall]) ?_
        intro a ha
        simp only [unitBall, List.mem_singleton] at ha
        subst ha
        rw [unitVoxel_sbases, show unitVoxel.origin = 0 from rfl, crystal_one]
        simp [Alg.interior, Sphere.interior, V3.normSq, V3.dot]
        norm_num
    · rw [unitVoxel_sbases, show unitVoxel.origin = 0 from rfl]
      simp only
      rw [crystal_one]
      ext <;> norm_num

/-- **C136 (a Volume inside its box).** If no point of the Volume lies outside the region of its bounding box (a Sphere
of tolerance 0, say), two generators that describe the same crystal and list no site twice fill it with the same atoms,
up to their order. -/
theorem C136_enclosed (env : Env) (v : Vol) (c c' : Gen ℝ) (x x' : Voxel ℝ) (sites sites' : List (V3 ℝ × ℤ)) (box : List (V3 ℝ))
    (hb : v.boundingBox env = .ok (.rows box)) (hbox : box ≠ []) (hin : ∀ p, Inside env (.vol v) p → p ∈ Region box)
    (hP : Gen.Plain c x sites) (hP' : Gen.Plain c' x' sites') (hd : x.sbases.det ≠ 0) (hd' : x'.sbases.det ≠ 0)
    (hs : FracNearCell sites) (hs' : FracNearCell sites') (hn : DistinctSites sites) (hn' : DistinctSites sites')
    (hC : CrystalOf c = CrystalOf c') (n n' : ℕ) :
    ∃ w as zs w' as' zs', ({ v with gen := some (.crystal c) } : Vol).populate env n = (w, .ok ()) ∧ w.atoms = some as ∧ w.species = some zs ∧
      ({ v with gen := some (.crystal c') } : Vol).populate env n' = (w', .ok ()) ∧ w'.atoms = some as' ∧ w'.species = some zs' ∧
      (as.zip zs).Perm (as'.zip zs') ∧ as.length = as'.length := by
  obtain ⟨w, as, zs, w', as', zs', h1, h2, h3, k1, k2, k3, -, hp⟩ :=
    C136_same_crystal_partial env v c c' x x' sites sites' box hb hbox hP hP' hd hd' hs hs' hC n n'
  have key : ∀ {c : Gen ℝ} {x : Voxel ℝ} {sites : List (V3 ℝ × ℤ)} {n : ℕ} {w : Vol} {as : List (V3 ℝ)} {zs : List ℤ}, Gen.Plain c x sites →
      x.sbases.det ≠ 0 →
      ({ v with gen := some (.crystal c) } : Vol).populate env n = (w, .ok ()) → w.atoms = some as → w.species = some zs →
      ((as.zip zs).filter fun a => decide (a.1 ∈ Region box)) = as.zip zs ∧ as.length = zs.length := by
    intro c x sites n w as zs hP hd h1 h2 h3
    obtain ⟨w1, as1, zs1, i1, i2, i3, il, i4, -, -⟩ := filled (v := { v with gen := some (.crystal c) }) (by rw [box_gen]; exact hb) hbox rfl hP hd n
    rw [h1] at i1
    cases i1
    rw [h2] at i2
    cases i2
    rw [h3] at i3
    cases i3
    refine ⟨List.filter_eq_self.mpr fun a ha => ?_, il⟩
    simp only [decide_eq_true_eq]
    exact hin _ (inside_gen.mp (i4 a ha).2)
  have q := hp hn hn'
  obtain ⟨a1, a2⟩ := key hP hd h1 h2 h3
  obtain ⟨b1, b2⟩ := key hP' hd' k1 k2 k3
  rw [a1, b1] at q
  refine ⟨w, as, zs, w', as', zs', h1, h2, h3, k1, k2, k3, q, ?_⟩
  have := q.length_eq
  simp only [List.length_zip] at this
  omega

/-- **C136 (grains).** A MultiVolume of Volumes: replacing the generator of each by one that describes the same crystal
changes no atom at a point that lies in the region of the bounding box of each Volume it is inside of. -/
theorem C136_grains_partial (env : Env) (ws : ℕ → Vol) (gs gs' : ℕ → Gen ℝ) (N : ℕ) (box : ℕ → List (V3 ℝ)) (sites sites' : List (V3 ℝ × ℤ))
    (hbox : ∀ k, k ≤ N → (ws k).boundingBox env = .ok (.rows (box k)) ∧ box k ≠ [])
    (hP : ∀ k, k ≤ N → ∃ x, Gen.Plain (gs k) x sites ∧ x.sbases.det ≠ 0) (hP' : ∀ k, k ≤ N → ∃ x, Gen.Plain (gs' k) x sites' ∧ x.sbases.det ≠ 0)
    (hs : FracNearCell sites) (hs' : FracNearCell sites') (hC : ∀ k, k ≤ N → CrystalOf (gs k) = CrystalOf (gs' k))
    (pr : ℤ) (hd : Option (List (V3 ℝ) × List ℤ)) (n n' : ℕ) :
    ∃ t as ss t' as' ss' i i',
      (VTree.multi ((List.range (N + 1)).map fun k => .vol { ws k with gen := some (.crystal (gs k)) }) pr hd).populate env n = (t, i, .ok ()) ∧
      (VTree.multi ((List.range (N + 1)).map fun k => .vol { ws k with gen := some (.crystal (gs' k)) }) pr hd).populate env n' = (t', i', .ok ()) ∧
      t.held = some (as, ss) ∧ t'.held = some (as', ss') ∧
      (∀ a : V3 ℝ × ℤ, (∀ k, k ≤ N → Inside env (.vol (ws k)) a.1 → a.1 ∈ Region (box k)) → (a ∈ as.zip ss ↔ a ∈ as'.zip ss')) ∧
      (DistinctSites sites → DistinctSites sites' → (∀ k, k ≤ N → ∀ p, Inside env (.vol (ws k)) p → p ∈ Region (box k)) →
        (as.zip ss).Perm (as'.zip ss')) := by
  have hO : ∀ (g : ℕ → Option GenObj) (k : ℕ) (p : V3 ℝ), Owns env (fun k => { ws k with gen := g k }) (N + 1) k p ↔ Owns env ws (N + 1) k p := by
    intro g k p
    simp only [Owns, inside_gen]
  obtain ⟨t, i, as, ss, h1, h2, hl, h3, h4, h5⟩ := grains_held (env := env) (ws := fun k => { ws k with gen := some (.crystal (gs k)) }) (gs := gs)
    (fun k _ => rfl) (fun k hk => hbox k hk) hP pr hd n
  obtain ⟨t', i', as', ss', k1, k2, kl, k3, k4, k5⟩ := grains_held (env := env) (ws := fun k => { ws k with gen := some (.crystal (gs' k)) }) (gs := gs')
    (fun k _ => rfl) (fun k hk => hbox k hk) hP' pr hd n'
  have key : ∀ a : V3 ℝ × ℤ, (∀ k, k ≤ N → Inside env (.vol (ws k)) a.1 → a.1 ∈ Region (box k)) → (a ∈ as.zip ss ↔ a ∈ as'.zip ss') := by
    intro a ha
    constructor
    · intro h
      obtain ⟨k, hk, hc, ho⟩ := h3 a h
      have ho' := (hO _ k a.1).mp ho
      exact k4 hs' k hk a (hC k hk ▸ hc) ((hO _ k a.1).mpr ho') (ha k hk ho'.1)
    · intro h
      obtain ⟨k, hk, hc, ho⟩ := k3 a h
      have ho' := (hO _ k a.1).mp ho
      exact h4 hs k hk a (hC k hk ▸ hc) ((hO _ k a.1).mpr ho') (ha k hk ho'.1)
  refine ⟨t, as, ss, t', as', ss', i, i', h1, k1, h2, k2, key, fun d d' hin => ?_⟩
  have nd : ∀ {l : List (V3 ℝ)} {m : List ℤ}, l.length = m.length → l.Nodup → (l.zip m).Nodup := by
    intro l m hlm hn
    refine List.Nodup.of_map Prod.fst ?_
    rw [List.map_fst_zip (by omega)]
    exact hn
  rw [List.perm_ext_iff_of_nodup (nd hl (h5 d)) (nd kl (k5 d'))]
  exact fun a => key a fun k hk => hin k hk a.1

/-- A case of `C136_cell`: the square lattice with basis vectors (1,0,0), (1,1,0), (0,0,1). -/
example : Crystal ((1 : M3 ℝ) * castM ⟨1, 1, 0, 0, 1, 0, 0, 0, 1⟩) 0 [((castM ⟨1, -1, 0, 0, 1, 0, 0, 0, 1⟩).mulVec ⟨1 / 2, 1 / 4, 0⟩, 6)] =
    Crystal 1 0 [((⟨1 / 2, 1 / 4, 0⟩ : V3 ℝ), 6)] :=
  C136_cell 1 0 [(⟨1 / 2, 1 / 4, 0⟩, 6)] ⟨1, 1, 0, 0, 1, 0, 0, 0, 1⟩ ⟨1, -1, 0, 0, 1, 0, 0, 0, 1⟩ (by decide)

/-- The generator of `unitBall`, moved by (2,-1,0). -/
theorem moved_unit : (⟨some ⟨1, [(⟨1 / 4, 0, 0⟩, 6)]⟩, some unitVoxel, none, none⟩ : Gen ℝ).transform (.translation ⟨2, -1, 0⟩ true false) =
    (⟨some ⟨1, [(⟨1 / 4, 0, 0⟩, 6)]⟩, some ⟨1, .scalar 1, ⟨2, -1, 0⟩⟩, none, none⟩, .ok ()) := by
  have hset : Voxel.basesSet (1 : M3 ℝ) = .ok 1 := basesSet_of_det (by rw [M3.det_one]; norm_num)
  simp only [Gen.transform, unitVoxel, Tr.bases, hset, Tr.basisOnly, Tr.apply]
  simp

/-- A case of `C136_lattice_vector`. -/
theorem moved_same : CrystalOf ⟨some ⟨1, [(⟨1 / 4, 0, 0⟩, 6)]⟩, some ⟨1, .scalar 1, ⟨2, -1, 0⟩⟩, none, none⟩ =
    CrystalOf ⟨some ⟨1, [(⟨1 / 4, 0, 0⟩, 6)]⟩, some unitVoxel, none, none⟩ := by
  refine C136_lattice_vector (x := unitVoxel) rfl ⟨2, -1, 0⟩ true ?_
  rw [show cart unitVoxel.sbases 0 ⟨((2 : ℤ) : ℝ), ((-1 : ℤ) : ℝ), ((0 : ℤ) : ℝ)⟩ = ⟨2, -1, 0⟩ by
    rw [unitVoxel_sbases]; ext <;> simp [cart, M3.one_def, M3.col0, M3.col1, M3.col2]]
  exact moved_unit

theorem quarter_near : FracNearCell [((⟨1 / 4, 0, 0⟩ : V3 ℝ), (6 : ℤ))] := by simp [FracNearCell]; norm_num

theorem unitVoxel_det : unitVoxel.sbases.det ≠ 0 := by rw [unitVoxel_sbases, M3.det_one]; norm_num

/-- A case of `C136_same_crystal_partial`: the generator of the ball and the same generator moved by (2,-1,0). -/
example (env : Env) : ∃ w as zs w' as' zs', (unitBall ⟨1 / 4, 0, 0⟩).populate env 0 = (w, .ok ()) ∧ w.atoms = some as ∧ w.species = some zs ∧
    ({ unitBall ⟨1 / 4, 0, 0⟩ with gen := some (.crystal ⟨some ⟨1, [(⟨1 / 4, 0, 0⟩, 6)]⟩, some ⟨1, .scalar 1, ⟨2, -1, 0⟩⟩, none, none⟩) } : Vol).populate env 0 =
      (w', .ok ()) ∧ w'.atoms = some as' ∧ w'.species = some zs' ∧
    (∀ a : V3 ℝ × ℤ, a.1 ∈ Region (Vol.sphereBox ⟨1, 0, 1 / 10⟩) → (a ∈ as.zip zs ↔ a ∈ as'.zip zs')) := by
  obtain ⟨w, as, zs, w', as', zs', h1, h2, h3, k1, k2, k3, h, -⟩ := C136_same_crystal_partial env (unitBall ⟨1 / 4, 0, 0⟩)
    ⟨some ⟨1, [(⟨1 / 4, 0, 0⟩, 6)]⟩, some unitVoxel, none, none⟩ ⟨some ⟨1, [(⟨1 / 4, 0, 0⟩, 6)]⟩, some ⟨1, .scalar 1, ⟨2, -1, 0⟩⟩, none, none⟩
    unitVoxel ⟨1, .scalar 1, ⟨2, -1, 0⟩⟩ [(⟨1 / 4, 0, 0⟩, 6)] [(⟨1 / 4, 0, 0⟩, 6)] _ (unitBall_box env _) (by simp [Vol.sphereBox, Vol.rectPrism])
    ⟨rfl, ⟨1, rfl⟩, rfl, rfl⟩ ⟨rfl, ⟨1, rfl⟩, rfl, rfl⟩ unitVoxel_det unitVoxel_det quarter_near quarter_near moved_same.symm 0 0
  exact ⟨w, as, zs, w', as', zs', h1, h2, h3, k1, k2, k3, h⟩

/-- The ball of radius 2 about the origin, of tolerance 0. -/
def sharpBall : Vol := ⟨none, none, none, [.sphere ⟨2, 0, 0⟩], none, 0, 1, none, none⟩

theorem sharpBall_box (env : Env) : sharpBall.boundingBox env = .ok (.rows (Vol.sphereBox ⟨2, 0, 0⟩)) := by
  unfold Vol.boundingBox sharpBall
  simp [Vol.spheres, Vol.smallest]

theorem sharpBall_inside (env : Env) (p : V3 ℝ) (h : Inside env (.vol sharpBall) p) : p ∈ Region (Vol.sphereBox ⟨2, 0, 0⟩) := by
  cases h with
  | vol _ _ _ h =>
    have := h (.sphere ⟨2, 0, 0⟩) (by simp [sharpBall])
    refine ball_in_box _ (by norm_num) p ?_
    have h2 := (Sphere.interior_iff _ _).mp this
    simp only [add_zero, sub_zero] at h2
    unfold Spec.dist
    exact Real.sqrt_le_iff.mpr ⟨by norm_num, by simp only [V3.normSq, V3.dot] at h2; simp only [V3.zero_x, V3.zero_y, V3.zero_z]; nlinarith [h2]⟩

/-- A case of `C136_enclosed`. -/
example (env : Env) : ∃ w as zs w' as' zs',
    ({ sharpBall with gen := some (.crystal ⟨some ⟨1, [(⟨1 / 4, 0, 0⟩, 6)]⟩, some unitVoxel, none, none⟩) } : Vol).populate env 0 = (w, .ok ()) ∧
      w.atoms = some as ∧ w.species = some zs ∧
    ({ sharpBall with gen := some (.crystal ⟨some ⟨1, [(⟨1 / 4, 0, 0⟩, 6)]⟩, some ⟨1, .scalar 1, ⟨2, -1, 0⟩⟩, none, none⟩) } : Vol).populate env 0 =
      (w', .ok ()) ∧ w'.atoms = some as' ∧ w'.species = some zs' ∧ (as.zip zs).Perm (as'.zip zs') ∧ as.length = as'.length :=
  C136_enclosed env sharpBall _ _ unitVoxel ⟨1, .scalar 1, ⟨2, -1, 0⟩⟩ [(⟨1 / 4, 0, 0⟩, 6)] [(⟨1 / 4, 0, 0⟩, 6)] _ (sharpBall_box env)
    (by simp [Vol.sphereBox, Vol.rectPrism]) (sharpBall_inside env) ⟨rfl, ⟨1, rfl⟩, rfl, rfl⟩ ⟨rfl, ⟨1, rfl⟩, rfl, rfl⟩
    unitVoxel_det unitVoxel_det quarter_near quarter_near (by simp [DistinctSites]) (by simp [DistinctSites]) moved_same.symm 0 0

/-- A case of `C136_grains_partial`: two balls, the second under the first. -/
example (env : Env) : ∃ t as ss t' as' ss' i i',
    (VTree.multi ((List.range 2).map fun k => .vol { ({ sharpBall with priority := (k : ℤ) } : Vol) with
      gen := some (.crystal ⟨some ⟨1, [(⟨1 / 4, 0, 0⟩, 6)]⟩, some unitVoxel, none, none⟩) }) 0 none).populate env 0 = (t, i, .ok ()) ∧
    (VTree.multi ((List.range 2).map fun k => .vol { ({ sharpBall with priority := (k : ℤ) } : Vol) with
      gen := some (.crystal ⟨some ⟨1, [(⟨1 / 4, 0, 0⟩, 6)]⟩, some ⟨1, .scalar 1, ⟨2, -1, 0⟩⟩, none, none⟩) }) 0 none).populate env 0 = (t', i', .ok ()) ∧
    t.held = some (as, ss) ∧ t'.held = some (as', ss') ∧ (as.zip ss).Perm (as'.zip ss') := by
  have hin : ∀ (k : ℕ) (p : V3 ℝ), Inside env (.vol { sharpBall with priority := (k : ℤ) }) p → p ∈ Region (Vol.sphereBox ⟨2, 0, 0⟩) := by
    intro k p h
    apply sharpBall_inside env
    rw [← Vol.interior_iff] at h ⊢
    exact h
  obtain ⟨t, as, ss, t', as', ss', i, i', h1, h2, h3, h4, -, h5⟩ := C136_grains_partial env (fun k => { sharpBall with priority := (k : ℤ) })
    (fun _ => ⟨some ⟨1, [(⟨1 / 4, 0, 0⟩, 6)]⟩, some unitVoxel, none, none⟩)
    (fun _ => ⟨some ⟨1, [(⟨1 / 4, 0, 0⟩, 6)]⟩, some ⟨1, .scalar 1, ⟨2, -1, 0⟩⟩, none, none⟩) 1 (fun _ => Vol.sphereBox ⟨2, 0, 0⟩)
    [(⟨1 / 4, 0, 0⟩, 6)] [(⟨1 / 4, 0, 0⟩, 6)] (fun k _ => ⟨sharpBall_box env, by simp [Vol.sphereBox, Vol.rectPrism]⟩)
    (fun _ _ => ⟨unitVoxel, ⟨rfl, ⟨1, rfl⟩, rfl, rfl⟩, unitVoxel_det⟩) (fun _ _ => ⟨⟨1, .scalar 1, ⟨2, -1, 0⟩⟩, ⟨rfl, ⟨1, rfl⟩, rfl, rfl⟩, unitVoxel_det⟩)
    quarter_near quarter_near (fun _ _ => moved_same.symm) 0 none 0 0
  exact ⟨t, as, ss, t', as', ss', i, i', h1, h2, h3, h4, h5 (by simp [DistinctSites]) (by simp [DistinctSites]) fun k _ p h => hin k p h⟩

/-- A case of `C136_symmetry`: the inversion at the origin, of the lattice of points with integer coordinates. -/
example : ∃ g', (⟨some ⟨1, [(0, 6)]⟩, some unitVoxel, none, none⟩ : Gen ℝ).transform (.matrix .general ⟨-1, 0, 0, 0, -1, 0, 0, 0, -1⟩ none true false) =
      (g', .ok ()) ∧ CrystalOf g' = CrystalOf ⟨some ⟨1, [(0, 6)]⟩, some unitVoxel, none, none⟩ := by
  have hset : Voxel.basesSet ((⟨-1, 0, 0, 0, -1, 0, 0, 0, -1⟩ : M3 ℝ) * 1) = .ok ((⟨-1, 0, 0, 0, -1, 0, 0, 0, -1⟩ : M3 ℝ) * 1) :=
    basesSet_of_det (by rw [M3.det_mul, M3.det_one]; norm_num [M3.det])
  have h : (⟨some ⟨1, [(0, 6)]⟩, some unitVoxel, none, none⟩ : Gen ℝ).transform (.matrix .general ⟨-1, 0, 0, 0, -1, 0, 0, 0, -1⟩ none true false) =
      (⟨some ⟨1, [(0, 6)]⟩, some ⟨(⟨-1, 0, 0, 0, -1, 0, 0, 0, -1⟩ : M3 ℝ) * 1, .scalar 1, 0⟩, none, none⟩, .ok ()) := by
    simp only [Gen.transform, unitVoxel, Tr.bases, hset, Tr.basisOnly, Tr.apply, Tr.matApply]
    simp
    ext <;> simp [M3.mulVec]
  refine ⟨_, h, C136_symmetry rfl trivial (.matrix _ _ _ _ _ (by norm_num [M3.det])) rfl h ?_⟩
  rintro ⟨p, z⟩
  have e : ∀ n : V3 ℤ, (⟨-1, 0, 0, 0, -1, 0, 0, 0, -1⟩ : M3 ℝ).mulVec (siteAt unitVoxel.sbases unitVoxel.origin n 0) =
      siteAt unitVoxel.sbases unitVoxel.origin ⟨-n.x, -n.y, -n.z⟩ 0 := by
    intro n
    rw [unitVoxel_sbases, show unitVoxel.origin = 0 from rfl, crystal_one, crystal_one]
    ext <;> simp [M3.mulVec]
  constructor
  · rintro ⟨x, s, e1, e2, m, f, hf, hp⟩
    cases e1; cases e2
    simp only [List.mem_singleton] at hf
    subst hf
    cases hp
    exact ⟨_, _, rfl, rfl, ⟨-m.x, -m.y, -m.z⟩, _, List.mem_singleton.mpr rfl, by simp only [Tr.apply, Tr.matApply]; rw [e]⟩
  · rintro ⟨x, s, e1, e2, m, f, hf, hp⟩
    cases e1; cases e2
    simp only [List.mem_singleton] at hf
    subst hf
    simp only [Tr.apply, Tr.matApply, Prod.mk.injEq] at hp
    obtain ⟨hp, rfl⟩ := hp
    refine ⟨_, _, rfl, rfl, ⟨-m.x, -m.y, -m.z⟩, _, List.mem_singleton.mpr rfl, ?_⟩
    simp only
    rw [← e, ← hp]
    ext <;> simp [M3.mulVec]

end Prefab
end
end CZ
