import Verif.Props.VolumeFill
import Verif.Props.Algebraic

/-!
# Properties C15 and C17 for Volumes bounded by cylinders
-/

namespace CZ
open Spec

noncomputable section
open Classical

/-- The bounding box of a Volume bounded by cylinders. -/
theorem cylinder_box (env : Env) (v : Vol) (hp : v.points = none) (hsp : v.spheres = [])
    (hpl : v.planes.length ≤ 3) (hc : v.cylinders ≠ [])
    (hw : ∀ c, Alg.cyl c ∈ v.algs → norm3 c.axis = 1 ∧ 0 < c.radius ∧ 0 < c.length ∧ ¬ Parallel c.axis ⟨1, 1, 1⟩) :
    ∃ box, v.boundingBox env = .ok (.rows box) ∧ box ≠ [] ∧
      ∀ p, (∀ c, Alg.cyl c ∈ v.algs → Tube c.point c.axis c.radius (c.length / 2) p) → p ∈ Region box := by
  have hfirst : ∃ c box, Alg.cyl c ∈ v.algs ∧ v.boundingBox env = .ok (.rows box) ∧ c.bbox = .ok box := by
    cases hcs : v.cylinders with
    | nil => exact absurd hcs hc
    | cons c cs =>
      have hm : Alg.cyl c ∈ v.algs := mem_cylinders.mp (by rw [hcs]; exact List.mem_cons_self)
      obtain ⟨box, hbox⟩ := (C26_cylinder_box_iff c (hw c hm).1).mpr (hw c hm).2.2.2
      refine ⟨c, box, hm, ?_, hbox⟩
      unfold Vol.boundingBox
      rw [hp, hsp, hcs]
      simp [Nat.not_lt.mpr hpl, hbox, Except.map]
  obtain ⟨c, box, hm, hb, hbox⟩ := hfirst
  refine ⟨box, hb, ?_, ?_⟩
  · rintro rfl
    unfold Cylinder.bbox at hbox
    simp only [bind, Except.bind, pure, Except.pure] at hbox
    split at hbox
    · cases hbox
    split at hbox
    · cases hbox
    split at hbox
    · cases hbox
    simp at hbox
  · rcases C26_cylinder_box_partial env v hp hsp hpl hc (fun c h => ⟨(hw c h).1, (hw c h).2.1, (hw c h).2.2.1⟩) with ⟨e, he⟩ | ⟨box', hb', hin⟩
    · rw [hb] at he; cases he
    · rw [hb] at hb'
      injection hb' with hb'
      injection hb' with hb'
      subst hb'
      exact hin

/-- **C15 (cylinder, partial).** A Volume without points and spheres, with at most three planes and at least one cylinder, none of
which lies along the space diagonal: every crystal site in all tubes and all other objects is an atom of the volume.  Missing from
C15: diagonal cylinders, which have no bounding box (`C26_diagonal_cylinder_refuted`). -/
theorem C15_cylinder_partial (env : Env) (v : Vol) (hp : v.points = none) (ht : v.tri = none) (hsp : v.spheres = [])
    (hpl : v.planes.length ≤ 3) (hc : v.cylinders ≠ [])
    (hw : ∀ c, Alg.cyl c ∈ v.algs → norm3 c.axis = 1 ∧ 0 < c.radius ∧ 0 < c.length ∧ ¬ Parallel c.axis ⟨1, 1, 1⟩)
    (c : Gen ℝ) (x : Voxel ℝ) (sites : List (V3 ℝ × ℤ))
    (hg : v.gen = some (.crystal c)) (hP : Gen.Plain c x sites) (hd : x.sbases.det ≠ 0) (hs : FracNearCell sites) (n : ℕ) :
    ∃ v' as zs, v.populate env n = (v', .ok ()) ∧ v'.atoms = some as ∧ v'.species = some zs ∧
      ∀ a ∈ Crystal x.sbases x.origin sites,
        (∀ c, Alg.cyl c ∈ v.algs → Tube c.point c.axis c.radius (c.length / 2) a.1) →
        (∀ b ∈ v.algs, b.interior a.1 = true) → a ∈ as.zip zs := by
  obtain ⟨box, hb, hne, hin⟩ := cylinder_box env v hp hsp hpl hc hw
  obtain ⟨v', as, zs, h1, h2, h3, h4⟩ := no_site_missed hb hne hg hP hd hs n
  refine ⟨v', as, zs, h1, h2, h3, fun a ha htube hal => h4 a ha (hin _ htube) (.vol _ _ ?_ hal)⟩
  intro t htt
  rw [ht] at htt
  cases htt

/-! ## C17 -/

/-- A rigid motion has an orthogonal linear part, which turns the axes of cylinders. -/
theorem rigid_cylinder {t : Tr ℝ} (ht : RigidMotion t) : ∃ L : M3 ℝ, Orthogonal L ∧ (∀ p q, t.apply p - t.apply q = L.mulVec (p - q)) ∧
    ∀ c : Cylinder, norm3 c.axis = 1 →
      t.alg (.cyl c) = (.cyl { c with point := t.apply c.point, axis := L.mulVec c.axis }, .ok ()) := by
  refine RigidMotion.induct (P := fun t => ∃ L : M3 ℝ, Orthogonal L ∧ (∀ p q, t.apply p - t.apply q = L.mulVec (p - q)) ∧
    ∀ c : Cylinder, norm3 c.axis = 1 →
      t.alg (.cyl c) = (.cyl { c with point := t.apply c.point, axis := L.mulVec c.axis }, .ok ())) ?_ ?_ ?_ ht
  · intro s l b
    refine ⟨1, ?_, fun p q => ?_, fun c hc => ?_⟩
    · unfold Orthogonal
      ext <;> simp [M3.transpose, M3.mul_def, M3.one_def]
    · simp only [Tr.apply, M3.mulVec_one]; abel
    · simp only [Tr.alg, Tr.apply, M3.mulVec_one]
  · intro k M o l b hM hk
    refine ⟨M, hM, fun p q => by simp only [Tr.apply]; exact matApply_sub M o p q, fun c hc => ?_⟩
    have e : ∀ a, Tr.alg (.matrix k M o l b) a = Tr.matAlg M o a := by
      intro a
      cases k with
      | reflection => exact absurd rfl hk
      | _ => rw [Tr.alg]; simp
    rw [e, Tr.matAlg, cyl_axisSet_unit (by rw [orth_norm hM, hc])]
    simp only [Tr.apply]
  · intro ts hts ih
    clear hts
    simp only [Tr.alg, Tr.apply]
    induction ts with
    | nil =>
      refine ⟨1, ?_, fun p q => ?_, fun c hc => ?_⟩
      · unfold Orthogonal
        ext <;> simp [M3.transpose, M3.mul_def, M3.one_def]
      · simp only [Tr.applyList, M3.mulVec_one]
      · simp only [Tr.algList, Tr.applyList, M3.mulVec_one]
    | cons t ts ihl =>
      obtain ⟨L, i1, i2, i3⟩ := ih t List.mem_cons_self
      obtain ⟨N, j1, j2, j3⟩ := ihl fun u hu => ih u (List.mem_cons_of_mem _ hu)
      refine ⟨N * L, ?_, fun p q => ?_, fun c hc => ?_⟩
      · unfold Orthogonal at *
        rw [M3.transpose_mul, M3.mul_assoc', ← M3.mul_assoc' N.transpose, j1, M3.one_mul', i1]
      · rw [Tr.applyList, Tr.applyList, j2, i2, M3.mulVec_mul]
      · rw [Tr.algList, i3 c hc]
        simp only
        rw [j3 _ (by simp only; rw [orth_norm i1, hc])]
        simp only [Tr.applyList, M3.mulVec_mul]

/-- The kinds of surfaces after a rigid motion: as many planes, no new spheres, the cylinders moved. -/
theorem transformAlgs_cylinders {t : Tr ℝ} (ht : RigidMotion t) {L : M3 ℝ}
    (hL : ∀ c : Cylinder, norm3 c.axis = 1 →
      t.alg (.cyl c) = (.cyl { c with point := t.apply c.point, axis := L.mulVec c.axis }, .ok ())) :
    ∀ (as bs : List Alg), (∀ a ∈ as, a.WF) → Vol.transformAlgs t as = (bs, .ok ()) →
      ∀ v w : Vol, v.algs = as → w.algs = bs → w.planes.length = v.planes.length ∧
        w.cylinders = v.cylinders.map fun c => { c with point := t.apply c.point, axis := L.mulVec c.axis } := by
  suffices H : ∀ (as bs : List Alg), (∀ a ∈ as, a.WF) → Vol.transformAlgs t as = (bs, .ok ()) →
      ∀ v : Vol, (Vol.planes { v with algs := bs }).length = (Vol.planes { v with algs := as }).length ∧
        Vol.cylinders { v with algs := bs } = (Vol.cylinders { v with algs := as }).map
          fun c => { c with point := t.apply c.point, axis := L.mulVec c.axis } by
    intro as bs h1 h2 v w hv hw
    have := H as bs h1 h2 v
    unfold Vol.planes Vol.cylinders at *
    rw [hv, hw]
    exact this
  obtain ⟨h1, h2, h3⟩ := alg_rigid_sphere ht
  intro as
  induction as with
  | nil => intro bs _ h; simp only [Vol.transformAlgs, Prod.mk.injEq] at h; obtain ⟨rfl, -⟩ := h; simp [Vol.cylinders]
  | cons a as ih =>
    intro bs hwf h v
    rw [Vol.transformAlgs] at h
    rcases ha : t.alg a with ⟨a', r⟩
    rw [ha] at h
    cases r with
    | error e => simp at h
    | ok u =>
      rcases hr : Vol.transformAlgs t as with ⟨bs', r'⟩
      rw [hr] at h
      simp only [Prod.mk.injEq] at h
      obtain ⟨rfl, rfl⟩ := h
      obtain ⟨i1, i2⟩ := ih bs' (fun b hb => hwf b (List.mem_cons_of_mem _ hb)) hr v
      unfold Vol.planes Vol.cylinders at *
      cases a with
      | sphere s0 =>
        rw [h1] at ha
        simp only [Prod.mk.injEq] at ha
        obtain ⟨rfl, -⟩ := ha
        simpa using ⟨i1, i2⟩
      | plane p =>
        obtain ⟨q, rfl⟩ := h2 p a' _ ha
        simpa using ⟨i1, i2⟩
      | cyl c =>
        rw [hL c (hwf _ List.mem_cons_self).1] at ha
        simp only [Prod.mk.injEq] at ha
        obtain ⟨rfl, -⟩ := ha
        simpa using ⟨i1, i2⟩

/-- Populating, moving and populating again, whenever both bounding boxes contain all sites inside. -/
theorem atoms_move (env : Env) (v : Vol) (hp : v.points = none) (htr : v.tri = none)
    (hwf : ∀ a ∈ v.algs, a.WF) (c : Gen ℝ) (x : Voxel ℝ)
    (sites : List (V3 ℝ × ℤ)) (hg : v.gen = some (.crystal c)) (hP : Gen.Plain c x sites) (hsc : ColumnScale x.scale)
    (hd : x.sbases.det ≠ 0) (hs : FracNearCell sites)
    (t : Tr ℝ) (ht : RigidMotion t) (hl : t.locked = true) (hb : t.basisOnly = false) (n n' : ℕ)
    (box : List (V3 ℝ)) (hbb : v.boundingBox env = .ok (.rows box)) (hne : box ≠ [])
    (hin : ∀ a ∈ Crystal x.sbases x.origin sites, Inside env (.vol v) a.1 → a.1 ∈ Region box)
    (hmoved : ∀ bs, Vol.transformAlgs t v.algs = (bs, .ok ()) → ∀ g as zs, ∃ box',
      Vol.boundingBox env { v with points := none, atoms := as, species := zs, algs := bs, gen := g } = .ok (.rows box') ∧ box' ≠ [] ∧
      ∀ a ∈ Crystal x.sbases x.origin sites, Inside env (.vol v) a.1 → t.apply a.1 ∈ Region box') :
    ∃ v1 v2 v3 ps zs, v.populate env n = (v1, .ok ()) ∧ v1.atoms = some ps ∧ v1.species = some zs ∧
      v1.transform env t = (v2, .ok ()) ∧ v2.populate env n' = (v3, .ok ()) ∧
      v3.atoms = some (ps.map t.apply) ∧ v3.species = some zs := by
  obtain ⟨⟨lo, hi⟩, he⟩ := Voxel.getExtents_ok (box := box) hd hne
  have hpop := populate_crystal hbb hg hP he n
  obtain ⟨bs, h4, h5, h6, h7⟩ := transformAlgs_rigid ht v.algs hwf
  obtain ⟨L, hL, hLb, hLa⟩ := (rigid_invertible ht).linearPart
  have hset : Voxel.basesSet (t.bases x.bases) = .ok (L * x.bases) := by
    rw [hLb]; exact basesSet_of_det (by rw [M3.det_mul]; exact mul_ne_zero hL (bases_det_ne hsc hd))
  let y : Voxel ℝ := ⟨L * x.bases, x.scale, t.apply x.origin⟩
  have hy : y.sbases = L * x.sbases := sbases_mul hsc L _
  let c' : Gen ℝ := { c with voxel := some y }
  have hct : c.transform t = (c', .ok ()) := by
    unfold Gen.transform
    rw [hP.1]; simp only [hset, hb]; rfl
  have hP' : Gen.Plain c' y sites := ⟨rfl, hP.2.1, hP.2.2.1, hP.2.2.2⟩
  generalize hps : ((Gen.cells lo hi).flatMap (inCell (v.interior env) x sites)).map Atom.pos = ps at hpop
  generalize hzs : ((Gen.cells lo hi).flatMap (inCell (v.interior env) x sites)).map Atom.Z = zs at hpop
  let v2 : Vol := { v with points := none, atoms := some ps, species := some zs, algs := bs, gen := some (.crystal c') }
  have htrans : Vol.transform env { v with atoms := some ps, species := some zs } t = (v2, .ok ()) := by
    unfold Vol.transform Vol.transformRest
    simp only [hp, h4, hl, if_true, hg, GenObj.transform, hct]
    rfl
  obtain ⟨box', hbb2, hne2, hin2⟩ := hmoved bs h4 (some (.crystal c')) (some ps) (some zs)
  have hd' : y.sbases.det ≠ 0 := by rw [hy, M3.det_mul]; exact mul_ne_zero hL hd
  obtain ⟨⟨lo', hi'⟩, he'⟩ := Voxel.getExtents_ok (box := box') hd' hne2
  have hpop2 := populate_crystal (v := v2) hbb2 (show v2.gen = some (.crystal c') from rfl) hP' he' n'
  refine ⟨_, v2, _, ps, zs, hpop, rfl, rfl, htrans, hpop2, ?_⟩
  have hsite : ∀ m f, siteAt y.sbases y.origin m f = t.apply (siteAt x.sbases x.origin m f) := by
    intro m f; rw [hy]; exact siteAt_affine hLa m f
  have hint : ∀ p, v2.interior env (t.apply p) = v.interior env p := by
    intro p
    simp only [Vol.interior, v2, htr, h7]
  have hcell : ∀ m, inCell (v2.interior env) y sites m =
      (inCell (v.interior env) x sites m).map fun a => ⟨t.apply a.pos, a.Z⟩ := by
    intro m
    unfold inCell
    rw [List.filter_map, List.filter_map, List.map_map]
    simp only [Function.comp_def, hsite, hint]
  have hsame : (Gen.cells lo' hi').flatMap (inCell (v.interior env) x sites) =
      (Gen.cells lo hi).flatMap (inCell (v.interior env) x sites) := by
    have hne : ∀ m, inCell (v.interior env) x sites m ≠ [] → ∃ f ∈ sites, v.interior env (siteAt x.sbases x.origin m f.1) = true := by
      intro m hm
      obtain ⟨a, ha⟩ := List.exists_mem_of_ne_nil _ hm
      obtain ⟨⟨f, hf, rfl⟩, hi⟩ := mem_inCell.mp ha
      exact ⟨f, hf, hi⟩
    apply flatMap_cells
    · intro m hm
      obtain ⟨f, hf, hi⟩ := hne m hm
      refine cell_mem he' (hs f hf) ?_
      rw [hsite]
      exact hin2 _ ⟨m, f, hf, rfl⟩ ((Vol.interior_iff env v _).mp hi)
    · intro m hm
      obtain ⟨f, hf, hi⟩ := hne m hm
      exact cell_mem he (hs f hf) (hin _ ⟨m, f, hf, rfl⟩ ((Vol.interior_iff env v _).mp hi))
  have hflat : (Gen.cells lo' hi').flatMap (inCell (v2.interior env) y sites) =
      ((Gen.cells lo hi).flatMap (inCell (v.interior env) x sites)).map fun a => ⟨t.apply a.pos, a.Z⟩ := by
    rw [← hsame, List.map_flatMap]
    congr 1
    funext m
    exact hcell m
  simp only [hflat, List.map_map, ← hps, ← hzs, Function.comp_def, and_self]

theorem tube_moves {t : Tr ℝ} {L : M3 ℝ} (ho : Orthogonal L) (hL : ∀ p q, t.apply p - t.apply q = L.mulVec (p - q))
    {c a p : V3 ℝ} {r h : ℝ} (hp : Tube c a r h p) : Tube (t.apply c) (L.mulVec a) r h (t.apply p) := by
  obtain ⟨s, hs, hperp, hd⟩ := hp
  have e : t.apply c + s • L.mulVec a = t.apply (c + s • a) := by
    have := hL (c + s • a) c
    rw [add_sub_cancel_left, M3.mulVec_smul, sub_eq_iff_eq_add] at this
    rw [this, add_comm]
  refine ⟨s, hs, ?_, ?_⟩
  · rw [e, hL]
    exact (orth_dot ho _ _).trans hperp
  · rw [e, dist_eq, hL, orth_norm ho, ← dist_eq]
    exact hd

/-- **C17 (cylinders, partial).** The same for a Volume bounded by cylinders (no points, no spheres, at most three planes): if no axis
lies along the space diagonal, before or after the motion, and no crystal site lies in the tolerance shell of a cylinder, the
atoms move rigidly. -/
theorem C17_cylinder_moves_rigidly_partial (env : Env) (v : Vol) (hp : v.points = none) (htr : v.tri = none) (hsp : v.spheres = [])
    (hpl : v.planes.length ≤ 3) (hc : v.cylinders ≠ []) (hwf : ∀ a ∈ v.algs, a.WF)
    (c : Gen ℝ) (x : Voxel ℝ) (sites : List (V3 ℝ × ℤ)) (hg : v.gen = some (.crystal c)) (hP : Gen.Plain c x sites)
    (hsc : ColumnScale x.scale) (hd : x.sbases.det ≠ 0) (hs : FracNearCell sites)
    (hshell : ∀ a ∈ Crystal x.sbases x.origin sites, Inside env (.vol v) a.1 →
      ∀ c, Alg.cyl c ∈ v.algs → Tube c.point c.axis c.radius (c.length / 2) a.1)
    (t : Tr ℝ) (ht : RigidMotion t) (hl : t.locked = true) (hb : t.basisOnly = false)
    (hdiag : ∀ c, Alg.cyl c ∈ v.algs → ¬ Parallel c.axis ⟨1, 1, 1⟩ ∧ ¬ Parallel (t.apply c.axis - t.apply 0) ⟨1, 1, 1⟩) (n n' : ℕ) :
    ∃ v1 v2 v3 ps zs, v.populate env n = (v1, .ok ()) ∧ v1.atoms = some ps ∧ v1.species = some zs ∧
      v1.transform env t = (v2, .ok ()) ∧ v2.populate env n' = (v3, .ok ()) ∧
      v3.atoms = some (ps.map t.apply) ∧ v3.species = some zs := by
  obtain ⟨L, ho, hLa, hLc⟩ := rigid_cylinder ht
  have heps : (0 : ℝ) < machEps := by unfold machEps; positivity
  have hw : ∀ c, Alg.cyl c ∈ v.algs → norm3 c.axis = 1 ∧ 0 < c.radius ∧ 0 < c.length :=
    fun c hm => ⟨(hwf _ hm).1, heps.trans_le (hwf _ hm).2.1, heps.trans_le (hwf _ hm).2.2.1⟩
  obtain ⟨box, hbb, hne, hin⟩ := cylinder_box env v hp hsp hpl hc fun c hm =>
    ⟨(hw c hm).1, (hw c hm).2.1, (hw c hm).2.2, (hdiag c hm).1⟩
  refine atoms_move env v hp htr hwf c x sites hg hP hsc hd hs t ht hl hb n n' box hbb hne
    (fun a ha hi => hin _ (hshell a ha hi)) fun bs hbs g as zs => ?_
  obtain ⟨e1, e2⟩ := transformAlgs_cylinders ht hLc v.algs bs hwf hbs v
    { v with points := none, atoms := as, species := zs, algs := bs, gen := g } rfl rfl
  have hsph := transformAlgs_spheres ht v.algs bs hbs
  have hcyl : ∀ d, Alg.cyl d ∈ bs → ∃ c, Alg.cyl c ∈ v.algs ∧ d = { c with point := t.apply c.point, axis := L.mulVec c.axis } := by
    intro d hd
    have := mem_cylinders (v := { v with points := none, atoms := as, species := zs, algs := bs, gen := g }).mpr hd
    rw [e2, List.mem_map] at this
    obtain ⟨c, hc, rfl⟩ := this
    exact ⟨c, mem_cylinders.mp hc, rfl⟩
  obtain ⟨box', hb', hne', hin'⟩ := cylinder_box env { v with points := none, atoms := as, species := zs, algs := bs, gen := g } rfl
    (by
      rw [List.eq_nil_iff_forall_not_mem]
      intro s hs
      obtain ⟨s0, h0, -⟩ := (hsph s).mp (mem_spheres.mp hs)
      have := mem_spheres.mpr h0
      rw [hsp] at this
      cases this)
    (e1.trans_le hpl)
    (by rw [e2]; intro h0; exact hc (List.map_eq_nil_iff.mp h0))
    (by
      intro d hd
      obtain ⟨c, hm, rfl⟩ := hcyl d hd
      refine ⟨by simp only; rw [orth_norm ho, (hw c hm).1], (hw c hm).2.1, (hw c hm).2.2, ?_⟩
      have := (hdiag c hm).2
      rw [hLa, sub_zero] at this
      exact this)
  refine ⟨box', hb', hne', fun a ha hi => hin' _ ?_⟩
  intro d hd
  obtain ⟨c, hm, rfl⟩ := hcyl d hd
  exact tube_moves ho hLa (hshell a ha hi c hm)

/-- A rod along z with radius and half length 3/2 and tolerance 1/10, filled by a cubic crystal with one atom per cell. -/
def unitRod : Vol :=
  ⟨none, none, none, [.cyl ⟨⟨0, 0, 1⟩, 0, 3 / 2, 3, 1 / 10⟩], some (.crystal ⟨some ⟨1, [(0, 6)]⟩, some unitVoxel, none, none⟩), 0, 1,
    none, none⟩

theorem not_diagonal_z : ¬ Parallel (⟨0, 0, 1⟩ : V3 ℝ) ⟨1, 1, 1⟩ := by
  rintro (⟨k, hk⟩ | ⟨k, hk⟩)
  · have := congrArg V3.x hk; simp at this
  · have h1 := congrArg V3.x hk; have h2 := congrArg V3.z hk; simp at h1 h2; rw [← h1] at h2; norm_num at h2

theorem unitRod_wf : ∀ a ∈ unitRod.algs, a.WF := by
  intro a ha
  simp only [unitRod, List.mem_singleton] at ha
  subst ha
  refine ⟨by rw [norm3_eq_one]; simp [V3.normSq, V3.dot], ?_, ?_, by norm_num⟩ <;> (simp only [machEps]; norm_num)

/-- No site of the crystal lies in the tolerance shell of the rod. -/
theorem unitRod_shell (env : Env) : ∀ a ∈ Crystal unitVoxel.sbases unitVoxel.origin [(0, 6)], Inside env (.vol unitRod) a.1 →
    ∀ c, Alg.cyl c ∈ unitRod.algs → Tube c.point c.axis c.radius (c.length / 2) a.1 := by
  rintro _ ⟨m, f, hf, rfl⟩ hI c hc
  simp [unitRod] at hc
  subst hc
  simp only [List.mem_singleton] at hf
  subst hf
  rcases hI with ⟨_, _, -, ha⟩ | _
  have := ha (.cyl ⟨⟨0, 0, 1⟩, 0, 3 / 2, 3, 1 / 10⟩) (by simp [unitRod])
  simp only at this ⊢
  rw [unitVoxel_sbases, show unitVoxel.origin = 0 from rfl, crystal_one] at *
  obtain ⟨s, hs, hp, hd⟩ := (cylinder_interior_iff _ (by rw [norm3_eq_one]; simp [V3.normSq, V3.dot]) _).mp this
  simp [Perp] at hp
  have hsm : s = m.z := by linarith
  subst hsm
  refine ⟨m.z, ?_, by simp [Perp], ?_⟩
  · simp only at hs
    have h1 := abs_lt.mp hs
    have h2 : ((-2 : ℤ) : ℝ) < (m.z : ℝ) := by push_cast; linarith [h1.1]
    have h3 : (m.z : ℝ) < ((2 : ℤ) : ℝ) := by push_cast; linarith [h1.2]
    have h2' := Int.cast_lt.mp h2
    have h3' := Int.cast_lt.mp h3
    have h4 : ((-1 : ℤ) : ℝ) ≤ (m.z : ℝ) := Int.cast_le.mpr (by omega)
    have h5 : (m.z : ℝ) ≤ ((1 : ℤ) : ℝ) := Int.cast_le.mpr (by omega)
    push_cast at h4 h5
    rw [abs_lt]
    constructor <;> linarith
  · simp only [Spec.dist] at hd ⊢
    rw [Real.sqrt_lt' (by norm_num)] at hd ⊢
    simp at hd ⊢
    have h2 : ((m.x * m.x + m.y * m.y : ℤ) : ℝ) < ((3 : ℤ) : ℝ) := by push_cast; nlinarith
    have h4 : m.x * m.x + m.y * m.y ≤ 2 := by have := Int.cast_lt.mp h2; omega
    have h5 : ((m.x * m.x + m.y * m.y : ℤ) : ℝ) ≤ ((2 : ℤ) : ℝ) := Int.cast_le.mpr h4
    push_cast at h5
    nlinarith

/-- Concrete case: the atom at (1, 1, -1) is found. -/
example (env : Env) (n : ℕ) : ∃ v' as zs, unitRod.populate env n = (v', .ok ()) ∧ v'.atoms = some as ∧ v'.species = some zs ∧
    ((⟨1, 1, -1⟩, 6) : V3 ℝ × ℤ) ∈ as.zip zs := by
  obtain ⟨v', as, zs, h1, h2, h3, h4⟩ := C15_cylinder_partial env unitRod rfl rfl (by simp [unitRod, Vol.spheres])
    (by simp [unitRod, Vol.planes]) (by simp [unitRod, Vol.cylinders])
    (by
      intro c hc
      simp [unitRod] at hc
      subst hc
      exact ⟨by rw [norm3_eq_one]; simp [V3.normSq, V3.dot], by norm_num, by norm_num, not_diagonal_z⟩) _ unitVoxel [(0, 6)] rfl
    ⟨rfl, ⟨1, rfl⟩, rfl, rfl⟩ (by rw [unitVoxel_sbases, M3.det_one]; norm_num)
    (by intro f hf; simp only [List.mem_singleton] at hf; subst hf; norm_num) n
  have htube : Tube (0 : V3 ℝ) ⟨0, 0, 1⟩ (3 / 2) (3 / 2) ⟨1, 1, -1⟩ := by
    refine ⟨-1, by norm_num, by simp [Perp], ?_⟩
    simp only [Spec.dist]
    rw [Real.sqrt_lt' (by norm_num)]
    norm_num
  refine ⟨v', as, zs, h1, h2, h3, h4 _ ⟨⟨1, 1, -1⟩, (0, 6), by simp, ?_⟩ ?_ ?_⟩
  · rw [unitVoxel_sbases, show unitVoxel.origin = 0 from rfl]
    ext1
    · simp only; rw [crystal_one 0]; ext <;> simp
    · rfl
  · intro c hc
    simp [unitRod] at hc
    subst hc
    exact htube
  · intro b hb
    simp [unitRod] at hb
    subst hb
    obtain ⟨s, hs, hp, hd⟩ := htube
    refine (cylinder_interior_iff _ ?_ _).mpr ⟨s, ?_, hp, ?_⟩
    · rw [norm3_eq_one]; simp [V3.normSq, V3.dot]
    · simp only; linarith
    · simp only; linarith

/-- Concrete case: a quarter turn about x of the rod. -/
example (env : Env) (n n' : ℕ) : ∃ v1 v2 v3 ps zs, unitRod.populate env n = (v1, .ok ()) ∧ v1.atoms = some ps ∧
    v1.species = some zs ∧ v1.transform env (.matrix .general ⟨1, 0, 0, 0, 0, -1, 0, 1, 0⟩ (some ⟨1, 2, 3⟩) true false) = (v2, .ok ()) ∧
    v2.populate env n' = (v3, .ok ()) ∧
    v3.atoms = some (ps.map (Tr.apply (.matrix .general ⟨1, 0, 0, 0, 0, -1, 0, 1, 0⟩ (some ⟨1, 2, 3⟩) true false))) ∧
    v3.species = some zs := by
  have horth : Orthogonal (⟨1, 0, 0, 0, 0, -1, 0, 1, 0⟩ : M3 ℝ) := by
    unfold Orthogonal
    ext <;> simp [M3.transpose, M3.mul_def, M3.one_def]
  refine C17_cylinder_moves_rigidly_partial env unitRod rfl rfl (by simp [unitRod, Vol.spheres])
    (by simp [unitRod, Vol.planes]) (by simp [unitRod, Vol.cylinders]) ?_ _ unitVoxel [(0, 6)] rfl
    ⟨rfl, ⟨1, rfl⟩, rfl, rfl⟩ trivial (by rw [unitVoxel_sbases, M3.det_one]; norm_num) ?_ ?_ _ (.matrix _ _ _ _ horth) rfl rfl ?_ n n'
  · intro a ha
    simp only [unitRod, List.mem_singleton] at ha
    subst ha
    refine ⟨by rw [norm3_eq_one]; simp [V3.normSq, V3.dot], ?_, ?_, by norm_num⟩ <;> (simp only [machEps]; norm_num)
  · intro f hf; simp only [List.mem_singleton] at hf; subst hf; norm_num
  · exact unitRod_shell env
  · intro c hc
    simp [unitRod] at hc
    subst hc
    refine ⟨not_diagonal_z, ?_⟩
    rw [show Tr.apply (.matrix .general ⟨1, 0, 0, 0, 0, -1, 0, 1, 0⟩ (some ⟨1, 2, 3⟩) true false) (⟨0, 0, 1⟩ : V3 ℝ) -
      Tr.apply (.matrix .general ⟨1, 0, 0, 0, 0, -1, 0, 1, 0⟩ (some ⟨1, 2, 3⟩) true false) 0 = (⟨0, -1, 0⟩ : V3 ℝ) by
        ext <;> simp [Tr.apply, Tr.matApply, M3.mulVec]]
    rintro (⟨k, hk⟩ | ⟨k, hk⟩)
    · have := congrArg V3.x hk; simp at this
    · have h1 := congrArg V3.x hk; have h2 := congrArg V3.y hk; simp at h1 h2; rw [← h1] at h2; norm_num at h2

end

end CZ
