import Verif.Props.Prefab
import Verif.Props.Rotation

/-!
# Property C71: simple grain boundaries
-/

namespace CZ
open Spec

noncomputable section
open Classical

namespace Prefab

theorem copy_priority {env : Env} {v w : Vol} {g : Gen ℝ} (hi : Intact env v) (h : v.fromVolume env (some (some (.crystal g))) [] = .ok w) :
    w.priority = v.priority := by
  obtain ⟨ht, ⟨hp, htr⟩ | ⟨ps, hp, htr, h3, ho⟩⟩ := hi
  · unfold Vol.fromVolume at h
    simp only [hp, make_surfaces, bind, Except.bind, pure, Except.pure, Option.getD_some, Vol.addGenerator, Vol.transformAll] at h
    cases h; rfl
  · unfold Vol.fromVolume at h
    simp only [hp, make_points env ps h3 ho, bind, Except.bind, pure, Except.pure, Option.getD_some, Vol.addGenerator, Vol.transformAll] at h
    cases h; rfl

theorem mkRotation_ok {R : M3 ℝ} (h : ProperRotation R) :
    Tr.mkRotation R none true false = .ok (.matrix .rotation R none true false) := by
  obtain ⟨h1, h2⟩ := h
  have h1' : R * R.transpose = 1 := orth_right h1
  unfold Tr.mkRotation
  rw [h2, h1', if_neg (by norm_num), if_neg]
  simp [Tr.sumAbs, M3.sub_def, M3.one_def]

theorem turned_of {g : Gen ℝ} {R : M3 ℝ} (hR : ProperRotation R) {v : Voxel ℝ} (hv : g.voxel = some v) (hs : ColumnScale v.scale)
    (hd : v.bases.det ≠ 0) : ∃ g', g.fromGenerator [.matrix .rotation R none true false] = .ok g' ∧ Turned R g g' ∧
      ∃ v', g'.voxel = some v' ∧ v'.sbases = R * v.sbases := by
  have hset : Voxel.basesSet (R * v.bases) = .ok (R * v.bases) :=
    basesSet_of_det (by rw [M3.det_mul, hR.2, one_mul]; exact hd)
  have hg : ∃ g', g.fromGenerator [.matrix .rotation R none true false] = .ok g' := by
    simp only [Gen.fromGenerator, Gen.transform, hv, Tr.bases, hset]
    exact ⟨_, rfl⟩
  obtain ⟨g', hg'⟩ := hg
  obtain ⟨⟨v', e1, -, e3, -, -⟩, -, -, -, e7⟩ := crystal_image hv hs hg' rfl R (fun B => rfl)
    (fun x y => by simp only [Tr.apply, Tr.matApply]; rw [M3.mulVec_sub])
  refine ⟨g', hg', fun a => ?_, v', e1, e3⟩
  rw [e7]
  constructor
  · rintro ⟨b, hb, rfl⟩; exact ⟨b, hb, rfl, by rw [cart_eq, add_zero]; rfl⟩
  · rintro ⟨b, hb, h1, h2⟩; exact ⟨b, hb, Prod.ext (by rw [h2, cart_eq, add_zero]; rfl) h1⟩

/-- The direction `z` of the cell `B` can be turned onto the z axis: it is not zero and not opposite to the z axis. -/
def GoodAxis (B : M3 ℝ) (z : V3 ℝ) : Prop := cart B 0 z ≠ 0 ∧ ¬ ∃ c < 0, cart B 0 z = ⟨0, 0, c⟩

theorem goodAxis_rot {B : M3 ℝ} {z : V3 ℝ} (h : GoodAxis B z) : ∃ R, Tr.rotVtv (B.mulVec z) ⟨0, 0, 1⟩ = .ok R ∧ ProperRotation R ∧
    Spec.dist ((norm3 (B.mulVec z))⁻¹ • R.mulVec (B.mulVec z)) ⟨0, 0, 1⟩ < 2 * machEps := by
  obtain ⟨h1, h2⟩ := h
  rw [cart_eq, add_zero] at h1 h2
  generalize B.mulVec z = u at h1 h2
  have h3 : (⟨0, 0, 1⟩ : V3 ℝ) ≠ 0 := fun h => by have := congrArg V3.z h; simp at this
  have h4 : norm3 (⟨0, 0, 1⟩ : V3 ℝ) = 1 := by simp [norm3, V3.normSq, V3.dot]
  by_cases hn : NegativeAxis u
  · have hz : u.z = 0 := by
      obtain ⟨c, hc, rfl | rfl | rfl⟩ := hn
      · rfl
      · rfl
      · exact absurd ⟨c, hc, rfl⟩ h2
    have hang : angle u ⟨0, 0, 1⟩ = Real.pi / 2 := by
      rw [angle, show u.dot ⟨0, 0, 1⟩ = 0 by simp [V3.dot, hz], zero_div, Real.arccos_zero]
    obtain ⟨R, r1, r2, c, hc, r3⟩ := C45_aligns_partial u ⟨0, 0, 1⟩ h1 h3 (.inr (.inl ⟨by
      rw [hang]; have := machEps_lt_one; have := Real.two_le_pi; linarith, by
      rw [hang]; have := machEps_lt_one; have := Real.two_le_pi; linarith⟩))
    refine ⟨R, r1, r2, ?_⟩
    have hu := (norm3_pos u).mpr h1
    have hR : norm3 (R.mulVec u) = norm3 u := orth_norm r2.1 u
    have e : (norm3 u)⁻¹ • R.mulVec u = ⟨0, 0, 1⟩ := by
      have := congrArg norm3 r3
      rw [h4, norm3_smul, abs_of_pos hc, hR] at this
      rw [r3, show (norm3 u)⁻¹ = c by field_simp; linarith]
    rw [e, dist_eq, sub_self, (norm3_eq_zero _).mpr rfl]
    have := machEps_pos; linarith
  · obtain ⟨R, r1, r2, r3⟩ := C45_close_partial u ⟨0, 0, 1⟩ h1 h3 hn
    rw [h4, inv_one, one_smul] at r3
    exact ⟨R, r1, r2, r3⟩

theorem badAxis_rot {B : M3 ℝ} {z : V3 ℝ} (h : ¬ GoodAxis B z) : Tr.rotVtv (B.mulVec z) ⟨0, 0, 1⟩ = .error .nan := by
  unfold GoodAxis at h
  rw [cart_eq, add_zero] at h
  generalize B.mulVec z = u at h
  by_cases hu : u = 0
  · subst hu
    unfold Tr.rotVtv
    rw [(norm3_eq_zero _).mpr rfl, zero_mul, if_pos rfl]
  · have : ∃ c < 0, u = ⟨0, 0, c⟩ := by
      by_contra hc; exact h ⟨hu, hc⟩
    obtain ⟨c, hc, rfl⟩ := this
    have h3 : (⟨0, 0, 1⟩ : V3 ℝ) ≠ 0 := fun h => by have := congrArg V3.z h; simp at this
    have hang : angle (⟨0, 0, c⟩ : V3 ℝ) ⟨0, 0, 1⟩ = Real.pi := by
      have e1 : norm3 (⟨0, 0, c⟩ : V3 ℝ) = -c := by
        rw [show (⟨0, 0, c⟩ : V3 ℝ) = c • ⟨0, 0, 1⟩ by ext <;> simp, norm3_smul, abs_of_neg hc]
        simp [norm3, V3.normSq, V3.dot]
      have e2 : norm3 (⟨0, 0, 1⟩ : V3 ℝ) = 1 := by simp [norm3, V3.normSq, V3.dot]
      rw [angle, e1, e2, show (⟨0, 0, c⟩ : V3 ℝ).dot ⟨0, 0, 1⟩ = c by simp [V3.dot], mul_one, div_neg, div_self hc.ne, Real.arccos_neg_one]
    have hpi : ¬ Real.pi < machEps := by
      have := machEps_lt_one; have := Real.two_le_pi; linarith
    rw [rotVtv_unfold hu h3, hang, if_neg hpi, if_pos (by simpa using machEps_pos)]
    have : (⟨0, 0, c⟩ : V3 ℝ).cross (Tr.unitVec (Tr.argmin3 ⟨0, 0, c⟩)) = 0 := by
      simp [Tr.argmin3, not_le.mpr hc, Tr.unitVec, V3.cross]; rfl
    simp [Tr.rodrigues, this, (norm3_eq_zero _).mpr rfl]

/-- **C71.** For zone axes that are not zero and not opposite to z, an intact Volume and a Plane object,
`build_object` returns a MultiVolume of two grains.  The crystals are those of the generator turned so that the zone axes point
along z (up to twice the machine precision).  Each point of the volume is owned by exactly one grain: the first one on the
interior side of the plane (below it, with the tolerance of the plane), the second one elsewhere. -/
theorem C71_split (env : Env) (b : Boundary) (g : Gen ℝ) (v : Vol) (x : Voxel ℝ) (pl : Plane) (hg : b.gen = some (.crystal g))
    (hv : b.vol = some (.vol v)) (hpl : b.plane = .plane pl) (hx : g.voxel = some x) (hs : ColumnScale x.scale) (hd : x.sbases.det ≠ 0)
    (hi : Intact env v) (h1 : GoodAxis x.sbases b.z1) (h2 : GoodAxis x.sbases b.z2) :
    ∃ (ws : ℕ → Vol) (g1 g2 : Gen ℝ) (R1 R2 : M3 ℝ), b.build env = .ok (.multi ((List.range 2).map fun k => .vol (ws k)) 0 none) ∧
      (ws 0).gen = some (.crystal g1) ∧ (ws 1).gen = some (.crystal g2) ∧
      ProperRotation R1 ∧ ProperRotation R2 ∧ Turned R1 g g1 ∧ Turned R2 g g2 ∧
      Spec.dist ((len (cart x.sbases 0 b.z1))⁻¹ • cart R1 0 (cart x.sbases 0 b.z1)) ⟨0, 0, 1⟩ < 2 * machEps ∧
      Spec.dist ((len (cart x.sbases 0 b.z2))⁻¹ • cart R2 0 (cart x.sbases 0 b.z2)) ⟨0, 0, 1⟩ < 2 * machEps ∧
      (∀ q, Owns env ws 2 0 q ↔ Inside env (.vol v) q ∧ height pl.normal q < height pl.normal pl.point + pl.tol) ∧
      (∀ q, Owns env ws 2 1 q ↔ Inside env (.vol v) q ∧ ¬ height pl.normal q < height pl.normal pl.point + pl.tol) := by
  obtain ⟨R1, a1, a2, a3⟩ := goodAxis_rot h1
  obtain ⟨R2, b1, b2, b3⟩ := goodAxis_rot h2
  have hdb := bases_det_ne hs hd
  obtain ⟨g1, c1, c2, -⟩ := turned_of a2 hx hs hdb
  obtain ⟨g2, d1, d2, -⟩ := turned_of b2 hx hs hdb
  obtain ⟨w1, e1⟩ := copy_ok g1 hi
  obtain ⟨w2, e2⟩ := copy_ok g2 hi
  obtain ⟨i1, i2, -, -⟩ := copy_spec hi e1
  obtain ⟨j1, j2, -, -⟩ := copy_spec hi e2
  let v1 : Vol := w1.addAlg (.plane pl)
  let v2 : Vol := { w2 with priority := w2.priority + 1 }
  let ws : ℕ → Vol := fun | 0 => v1 | _ => v2
  have hin1 : ∀ q, Inside env (.vol v1) q ↔ Inside env (.vol v) q ∧ height pl.normal q < height pl.normal pl.point + pl.tol := by
    intro q
    have := inside_addAlg (env := env) (w := w1) (a := .plane pl) (pr := w1.priority) (p := q)
    rw [i1] at this
    refine Iff.trans this (and_congr_right fun _ => ?_)
    rw [show (Alg.plane pl).interior q = decide (pl.sdist q < pl.tol) from rfl, decide_eq_true_iff]
    simp only [Plane.sdist, height, V3.dot]
    constructor <;> intro h <;> linarith
  have hin2 : ∀ q, Inside env (.vol v2) q ↔ Inside env (.vol v) q := by
    intro q
    rw [show Inside env (.vol v2) q ↔ Inside env (.vol w2) q from inside_priority, j1]
  have hp1 : v1.priority = v.priority := by show w1.priority = _; rw [copy_priority hi e1]
  have hp2 : v2.priority = v.priority + 1 := by show w2.priority + 1 = _; rw [copy_priority hi e2]
  refine ⟨ws, g1, g2, R1, R2, ?_, i2, j2, a2, b2, c2, d2, ?_, ?_, ?_, ?_⟩
  · unfold Boundary.build
    simp only [hg, hx, hv, hpl, a1, b1, Tr.mkRotationOf, bind, Except.bind, mkRotation_ok a2, mkRotation_ok b2, c1, d1, VTree.fromVolume, e1, e2,
      Except.map, addPlane, bump, pure, Except.pure]
    rfl
  · rw [len_eq]; simp only [cart_eq, add_zero]; exact a3
  · rw [len_eq]; simp only [cart_eq, add_zero]; exact b3
  · intro q
    constructor
    · rintro ⟨k1, -⟩; exact (hin1 q).mp k1
    · intro k1
      refine ⟨(hin1 q).mpr k1, fun j hj hne hp => ?_⟩
      obtain rfl : j = 1 := by omega
      have : v2.priority ≤ v1.priority := hp
      rw [hp1, hp2] at this; omega
  · intro q
    constructor
    · rintro ⟨k1, k2⟩
      have hq := (hin2 q).mp k1
      refine ⟨hq, fun hlt => k2 0 (by omega) (by omega) ?_ ((hin1 q).mpr ⟨hq, hlt⟩)⟩
      show v1.priority ≤ v2.priority
      rw [hp1, hp2]; omega
    · rintro ⟨k1, k2⟩
      refine ⟨(hin2 q).mpr k1, fun j hj hne hp hin => ?_⟩
      obtain rfl : j = 0 := by omega
      exact k2 ((hin1 q).mp hin).2

/-- **C71 (atoms).** When the result is populated, the first grain contributes exactly the sites supplied for it below the plane and
the second one those not below. -/
theorem C71_atoms (env : Env) (b : Boundary) (g : Gen ℝ) (v : Vol) (x : Voxel ℝ) (pl : Plane) (hg : b.gen = some (.crystal g))
    (hv : b.vol = some (.vol v)) (hpl : b.plane = .plane pl) (hx : g.voxel = some x) (hs : ColumnScale x.scale) (hd : x.sbases.det ≠ 0)
    (hi : Intact env v) (h1 : GoodAxis x.sbases b.z1) (h2 : GoodAxis x.sbases b.z2) (t t' : VTree) (m m' : ℕ) (ht : b.build env = .ok t)
    (hp : t.populate env m = (t', m', .ok ())) :
    ∃ (w1 w2 : Vol) (as : List (V3 ℝ)) (ss : List ℤ) (s1 s2 : List (V3 ℝ × ℤ)), t = .multi [.vol w1, .vol w2] 0 none ∧
      t'.held = some (as, ss) ∧ as.length = ss.length ∧ Supplied env w1 s1 ∧ Supplied env w2 s2 ∧
      (as.zip ss).Perm ((s1.filter fun a => decide (Inside env (.vol v) a.1 ∧ height pl.normal a.1 < height pl.normal pl.point + pl.tol)) ++
        s2.filter fun a => decide (Inside env (.vol v) a.1 ∧ ¬ height pl.normal a.1 < height pl.normal pl.point + pl.tol)) := by
  obtain ⟨ws, g1, g2, R1, R2, k1, -, -, -, -, -, -, -, -, k2, k3⟩ := C71_split env b g v x pl hg hv hpl hx hs hd hi h1 h2
  rw [ht] at k1
  cases k1
  obtain ⟨as, ss, l1, l2, sites, l3, l4⟩ := populate_owned hp
  refine ⟨ws 0, ws 1, as, ss, sites 0, sites 1, rfl, l1, l2, l3 0 (by omega), l3 1 (by omega), l4.trans (List.Perm.of_eq ?_)⟩
  simp only [List.range_succ, List.range_zero, List.nil_append, List.cons_append, List.flatMap_cons, List.flatMap_nil, List.append_nil]
  congr 1
  · congr 1; funext a; exact decide_eq_decide.mpr (k2 a.1)
  · congr 1; funext a; exact decide_eq_decide.mpr (k3 a.1)

/-- **C71 (constructor).** For a SimpleGrainBoundary made with zone axes `z1` and `z2` the first grain is turned with `z1` along z
and the second one with `z2`, or with `z1` if `z2` is not given. -/
theorem C71_constructor {R P : Type} (env : Env) (z1 : V3 ℝ) (z2 : Option (V3 ℝ)) (r1 r2 : R) (pl : Plane) (pt : P) (g : Gen ℝ) (v : Vol) (x : Voxel ℝ)
    (hx : g.voxel = some x) (hs : ColumnScale x.scale) (hd : x.sbases.det ≠ 0)
    (hi : Intact env v) (h1 : GoodAxis x.sbases z1) (h2 : ∀ z, z2 = some z → GoodAxis x.sbases z) :
    ∃ (w1 w2 : Vol) (g1 g2 : Gen ℝ) (R1 R2 : M3 ℝ),
      (Boundary.make z1 r1 z2 r2 (.plane pl) pt (some (.vol v)) (some (.crystal g))).build env = .ok (.multi [.vol w1, .vol w2] 0 none) ∧
      w1.gen = some (.crystal g1) ∧ w2.gen = some (.crystal g2) ∧ ProperRotation R1 ∧ ProperRotation R2 ∧ Turned R1 g g1 ∧ Turned R2 g g2 ∧
      Spec.dist ((len (cart x.sbases 0 z1))⁻¹ • cart R1 0 (cart x.sbases 0 z1)) ⟨0, 0, 1⟩ < 2 * machEps ∧
      ∀ z, (z2 = some z ∨ z2 = none ∧ z = z1) → Spec.dist ((len (cart x.sbases 0 z))⁻¹ • cart R2 0 (cart x.sbases 0 z)) ⟨0, 0, 1⟩ < 2 * machEps := by
  have h2' : GoodAxis x.sbases (z2.getD z1) := by
    cases z2 with
    | none => exact h1
    | some z => exact h2 z rfl
  obtain ⟨ws, g1, g2, R1, R2, k1, k2, k3, k4, k5, k6, k7, k8, k9, -⟩ :=
    C71_split env (Boundary.make z1 r1 z2 r2 (.plane pl) pt (some (.vol v)) (some (.crystal g))) g v x pl rfl rfl rfl hx hs hd hi h1 h2'
  refine ⟨ws 0, ws 1, g1, g2, R1, R2, k1, k2, k3, k4, k5, k6, k7, k8, ?_⟩
  rintro z (rfl | ⟨rfl, rfl⟩)
  · exact k9
  · exact k9

/-- **C71, finding.** The phases `r1`, `r2` about the zone axes and `point` have no effect. -/
theorem C71_phases_ignored {R P : Type} (env : Env) (z1 : V3 ℝ) (z2 : Option (V3 ℝ)) (r1 r1' r2 r2' : R) (plane : BoundaryPlane)
    (pt pt' : P) (vol : Option VTree) (gen : Option GenObj) :
    (Boundary.make z1 r1 z2 r2 plane pt vol gen).build env = (Boundary.make z1 r1' z2 r2' plane pt' vol gen).build env := rfl

/-- **C71, finding.** Miller indices (or None) as `plane`, which the docstring allows, always raise AssertionError. -/
theorem C71_miller_raises (env : Env) (b : Boundary) (g : Gen ℝ) (v : Vol) (x : Voxel ℝ) (hg : b.gen = some (.crystal g))
    (hv : b.vol = some (.vol v)) (hpl : b.plane = .other) (hx : g.voxel = some x) (hs : ColumnScale x.scale) (hd : x.sbases.det ≠ 0)
    (hi : Intact env v) (h1 : GoodAxis x.sbases b.z1) (h2 : GoodAxis x.sbases b.z2) : b.build env = .error .assertion := by
  obtain ⟨R1, a1, a2, a3⟩ := goodAxis_rot h1
  obtain ⟨R2, b1, b2, b3⟩ := goodAxis_rot h2
  have hdb := bases_det_ne hs hd
  obtain ⟨g1, c1, c2, -⟩ := turned_of a2 hx hs hdb
  obtain ⟨g2, d1, d2, -⟩ := turned_of b2 hx hs hdb
  obtain ⟨w1, e1⟩ := copy_ok g1 hi
  unfold Boundary.build
  simp only [hg, hx, hv, hpl, a1, b1, Tr.mkRotationOf, bind, Except.bind, mkRotation_ok a2, mkRotation_ok b2, c1, d1, VTree.fromVolume, e1,
    Except.map, addPlane]

/-- **C71 (what is refused).** Without a generator, with an amorphous or empty one, without a volume or with a MultiVolume (here
one whose parts can be copied) the grain boundary is not built and AttributeError is raised; no MultiVolume is ever split. -/
theorem C71_exceptions (env : Env) (b : Boundary) :
    ((∀ g, b.gen ≠ some (.crystal g)) → b.build env = .error .attribute) ∧
    (∀ g x, b.gen = some (.crystal g) → g.voxel = some x → ColumnScale x.scale → x.sbases.det ≠ 0 → GoodAxis x.sbases b.z1 →
      GoodAxis x.sbases b.z2 →
      (b.vol = none → b.build env = .error .attribute) ∧
      (∀ vs p h, b.vol = some (.multi vs p h) → (∀ g', ∃ w, VTree.fromVolume env (some (some (.crystal g'))) [] (.multi vs p h) = .ok w) →
        b.build env = .error .attribute)) ∧
    (∀ vs p h t, b.vol = some (.multi vs p h) → b.build env ≠ .ok t) := by
  refine ⟨fun h => ?_, fun g x hg hx hs hd h1 h2 => ?_, fun vs p h t hv hb => ?_⟩
  · unfold Boundary.build
    split
    · rename_i g hg
      exact absurd hg (h g)
    · rfl
  · obtain ⟨R1, a1, a2, a3⟩ := goodAxis_rot h1
    obtain ⟨R2, b1, b2, b3⟩ := goodAxis_rot h2
    have hdb := bases_det_ne hs hd
    obtain ⟨g1, c1, c2, -⟩ := turned_of a2 hx hs hdb
    obtain ⟨g2, d1, d2, -⟩ := turned_of b2 hx hs hdb
    refine ⟨fun hv => ?_, fun vs p h hv hc => ?_⟩
    · unfold Boundary.build
      simp only [hg, hx, hv, a1, b1, Tr.mkRotationOf, bind, Except.bind, mkRotation_ok a2, mkRotation_ok b2, c1, d1]
    · obtain ⟨w, hw⟩ := hc g1
      have hw' : ∃ ws q k, w = .multi ws q k := by
        simp only [VTree.fromVolume] at hw
        cases hl : VTree.fromVolumeList env (some (some (.crystal g1))) [] vs with
        | error e => rw [hl] at hw; cases hw
        | ok ws => rw [hl] at hw; exact ⟨ws, p, none, (Except.ok.inj hw).symm⟩
      obtain ⟨ws, q, k, rfl⟩ := hw'
      unfold Boundary.build
      simp only [hg, hx, hv, a1, b1, Tr.mkRotationOf, bind, Except.bind, mkRotation_ok a2, mkRotation_ok b2, c1, d1, hw, addPlane]
  · have key : ∀ g' w u, VTree.fromVolume env (some (some (.crystal g'))) [] (.multi vs p h) = .ok w → addPlane w b.plane = .ok u →
        False := by
      intro g' w u h1 h2
      simp only [VTree.fromVolume] at h1
      cases hl : VTree.fromVolumeList env (some (some (.crystal g'))) [] vs with
      | error e => rw [hl] at h1; cases h1
      | ok ws =>
        rw [hl] at h1
        obtain rfl := (Except.ok.inj h1)
        cases h2
    unfold Boundary.build at hb
    split at hb
    · split at hb
      · cases hb
      · simp only [hv, bind, Except.bind] at hb
        repeat' split at hb
        all_goals first | cases hb | skip
        rename_i _ _ h1 _ _ h2 _ _ _
        exact key _ _ _ h1 h2
    · cases hb

/-- Concrete case: a MultiVolume of one empty Volume, in a cubic crystal. -/
example (env : Env) : (Boundary.make (R := ℝ) (P := Unit) ⟨0, 0, 1⟩ 0 none 0 .other ()
    (some (.multi [.vol (Vol.blank 1)] 0 none)) (some (.crystal ⟨some ⟨1, [(0, 6)]⟩, some ⟨1, .scalar 1, 0⟩, none, none⟩))).build env =
    .error .attribute := by
  have hs : (⟨1, .scalar 1, 0⟩ : Voxel ℝ).sbases = 1 := by
    rw [M3.one_def]; ext <;> simp [Voxel.sbases, M3.smul_def]
  have hz : GoodAxis (⟨1, .scalar 1, 0⟩ : Voxel ℝ).sbases ⟨0, 0, 1⟩ := by
    rw [hs]
    refine ⟨?_, ?_⟩
    · rw [cart_eq, M3.mulVec_one, add_zero]; intro h; have := congrArg V3.z h; simp at this
    · rintro ⟨c, hc, h⟩
      rw [cart_eq, M3.mulVec_one, add_zero] at h
      have := congrArg V3.z h
      simp only at this
      linarith
  refine ((C71_exceptions env _).2.1 _ ⟨1, .scalar 1, 0⟩ rfl rfl trivial (by rw [hs, M3.det_one]; exact one_ne_zero) hz hz).2 _ _ _ rfl ?_
  intro g'
  exact ⟨_, rfl⟩

/-- **C71, finding.** If a zone axis is zero or points along -z (for example [0, 0, -1] of an untransformed cubic or hexagonal
cell) there is no result: the rotation matrix is NaN and AssertionError is raised. -/
theorem C71_opposite_axis_refuted (env : Env) (b : Boundary) (g : Gen ℝ) (x : Voxel ℝ) (hg : b.gen = some (.crystal g))
    (hx : g.voxel = some x) (hz : ¬ GoodAxis x.sbases b.z1 ∨ ¬ GoodAxis x.sbases b.z2) : b.build env = .error .assertion := by
  by_cases h1 : GoodAxis x.sbases b.z1
  · obtain ⟨R1, a1, a2, a3⟩ := goodAxis_rot h1
    unfold Boundary.build
    simp only [hg, hx, a1, Tr.mkRotationOf, mkRotation_ok a2, badAxis_rot (hz.resolve_left fun h => h h1), bind, Except.bind]
  · unfold Boundary.build
    simp only [hg, hx, Tr.mkRotationOf, badAxis_rot h1, bind, Except.bind]

example : ¬ GoodAxis ((4 : ℝ) • (1 : M3 ℝ)) ⟨0, 0, -1⟩ := by
  rintro ⟨-, h⟩
  refine h ⟨-4, by norm_num, ?_⟩
  rw [cart_eq, add_zero]
  ext <;> simp [M3.mulVec, M3.one_def, M3.smul_def]

/-- Hypotheses of C71 are met: unit cell, zone axes [1,1,0] and [1,1,1], a ball cut by the plane x = 0. -/
example (env : Env) : ∃ t, (Boundary.make (R := ℝ) (P := Unit) ⟨1, 1, 0⟩ 0 (some ⟨1, 1, 1⟩) 0 (.plane ⟨⟨1, 0, 0⟩, 0, 1 / 10 ^ 5⟩) ()
    (some (.vol ⟨none, none, none, [.sphere ⟨5, 0, 1 / 10 ^ 5⟩], none, 0, 1 / 10 ^ 10, none, none⟩)) (some (.crystal (cellGen 1 0 none)))).build env = .ok t := by
  have hsb := cellGen_sbases 1 0
  have gd : ∀ z : V3 ℝ, 0 < z.x → 0 < z.y → GoodAxis (1 : M3 ℝ) z := by
    intro z hz hy
    unfold GoodAxis
    rw [cart_eq, add_zero, M3.mulVec_one]
    refine ⟨fun h => by rw [h] at hz; simp at hz, ?_⟩
    rintro ⟨c, hc, rfl⟩
    simp at hz
  obtain ⟨ws, g1, g2, R1, R2, h, -⟩ := C71_split env (Boundary.make (R := ℝ) (P := Unit) ⟨1, 1, 0⟩ 0 (some ⟨1, 1, 1⟩) 0 (.plane ⟨⟨1, 0, 0⟩, 0, 1 / 10 ^ 5⟩) ()
    (some (.vol ⟨none, none, none, [.sphere ⟨5, 0, 1 / 10 ^ 5⟩], none, 0, 1 / 10 ^ 10, none, none⟩)) (some (.crystal (cellGen 1 0 none)))) (cellGen 1 0 none) _ _ _ rfl rfl rfl rfl
    (by trivial) (by rw [hsb, M3.det_one]; norm_num) ⟨rfl, .inl ⟨rfl, rfl⟩⟩ (by rw [hsb]; exact gd _ (by norm_num [Boundary.make]) (by norm_num [Boundary.make]))
    (by rw [hsb]; exact gd _ (by norm_num [Boundary.make]) (by norm_num [Boundary.make]))
  exact ⟨_, h⟩

end Prefab

end
end CZ
