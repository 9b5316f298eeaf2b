import Verif.TransformLemmas
import Mathlib.Analysis.SpecialFunctions.Trigonometric.Basic

/-!
# Properties C39-C41, C43-C47, C49: transformations
-/

namespace CZ
open Spec

/-! ## C39 -/

/-- **C39.** Every rigid transformation object, however nested, preserves the distance of any two points. -/
theorem C39_distances_preserved (t : Tr ℝ) (h : RigidMap t) (p q : V3 ℝ) :
    Spec.dist (t.apply p) (t.apply q) = Spec.dist p q := by
  have key : Isom t.apply := by
    induction h with
    | motion t h =>
      refine RigidMotion.induct (P := fun t => Isom t.apply) ?_ ?_ ?_ h
      · intro s l b p q
        simp only [Tr.apply, dist_eq]
        rw [show p + s - (q + s) = p - q by ext <;> simp]
      · intro k M o l b hM _ p q
        simp only [Tr.apply]
        exact isom_matrix hM o p q
      · intro ts _ ih p q
        simp only [Tr.apply]
        exact isom_list ih p q
    | reflection pl l b hn =>
      intro p q
      simp only [Tr.mkReflection, Tr.apply]
      exact isom_matrix (orth_refl (by rw [len_eq] at hn; rintro h; rw [h] at hn; simp [norm3, V3.normSq, V3.dot] at hn))
        _ p q
    | multi ts _ ih =>
      intro p q
      simp only [Tr.apply]
      exact isom_list ih p q
  exact key p q

/-- A nested composition of a rotation, an inversion, a reflection and a translation is rigid. -/
example : ∃ t, RigidMap t ∧ t.apply ⟨1, 2, 3⟩ = (⟨3, -3, 4⟩ : V3 ℝ) := by
  have hrot : Orthogonal ⟨0, -1, 0, 1, 0, 0, 0, 0, 1⟩ := by
    unfold Orthogonal; ext <;> simp [M3.transpose, M3.mul_def, M3.one_def]
  refine ⟨.multi [.matrix .general ⟨0, -1, 0, 1, 0, 0, 0, 0, 1⟩ none true false, Tr.mkInversion none true false,
    .multi [Tr.mkReflection ⟨⟨0, 0, 1⟩, ⟨0, 0, 0⟩, 1⟩ true false, .translation ⟨1, -2, 1⟩ true false]], ?_, ?_⟩
  · refine .multi _ ?_
    intro t ht
    simp only [List.mem_cons, List.not_mem_nil, or_false] at ht
    rcases ht with rfl | rfl | rfl
    · exact .motion _ (.matrix _ _ _ _ hrot)
    · exact .motion _ (.inversion _ _ _)
    · refine .multi _ ?_
      intro t ht
      simp only [List.mem_cons, List.not_mem_nil, or_false] at ht
      rcases ht with rfl | rfl
      · exact .reflection _ _ _ (by simp [len])
      · exact .motion _ (.translation _ _ _)
  · simp only [Tr.apply, Tr.applyList, Tr.mkInversion, Tr.mkReflection, Tr.matApply]
    ext <;> simp [M3.mulVec, M3.smul_def, M3.one_def, Tr.reflMatrix, Tr.outer, M3.sub_def, V3.dot] <;> norm_num

/-! ## C40 -/

/-- Sum of the absolute deviations of `A` from the identity matrix, entry by entry. -/
noncomputable def deviation (A : M3 ℝ) : ℝ :=
  |A.m00 - 1| + |A.m01| + |A.m02| + |A.m10| + |A.m11 - 1| + |A.m12| + |A.m20| + |A.m21| + |A.m22 - 1|

theorem sumAbs_sub_one (A : M3 ℝ) : Tr.sumAbs (A - 1) = deviation A := by
  simp [Tr.sumAbs, deviation, M3.sub_def, M3.one_def]

/-- **C40.** The constructor accepts exactly the matrices whose determinant is within 1e-6 of 1 and whose `M Mᵀ` is
within 1e-6 of the identity in summed absolute value; otherwise AssertionError. -/
theorem C40_rotation_acceptance (M : M3 ℝ) (o : Option (V3 ℝ)) (l b : Bool) :
    (|M.det - 1| < 1 / 10 ^ 6 ∧ deviation (M * M.transpose) < 1 / 10 ^ 6 →
      ∃ t, Tr.mkRotation M o l b = .ok t ∧ t.apply = Tr.matApply M o ∧ t.bases = fun B => M * B) ∧
    (¬ (|M.det - 1| < 1 / 10 ^ 6 ∧ deviation (M * M.transpose) < 1 / 10 ^ 6) →
      Tr.mkRotation M o l b = .error .assertion) := by
  unfold Tr.mkRotation
  rw [sumAbs_sub_one]
  constructor
  · rintro ⟨h1, h2⟩
    refine ⟨.matrix .rotation M o l b, by simp only [h1, h2, not_true, if_false], ?_, ?_⟩
    · funext p; simp [Tr.apply]
    · funext B; simp [Tr.bases]
  · intro h
    split
    · rfl
    · rename_i h1
      rw [not_not] at h1
      rw [if_pos (fun h2 => h ⟨h1, h2⟩)]

/-- **C40, handedness.** No orientation-reversing matrix is accepted: reflections and inversions are rejected, and every
accepted exactly orthogonal matrix is a proper rotation. -/
theorem C40_no_improper (M : M3 ℝ) (o : Option (V3 ℝ)) (l b : Bool) :
    (M.det ≤ 0 → Tr.mkRotation M o l b = .error .assertion) ∧
    (Orthogonal M → ((∃ t, Tr.mkRotation M o l b = .ok t) ↔ ProperRotation M)) := by
  have hrej : M.det ≤ 0 → Tr.mkRotation M o l b = .error .assertion := by
    intro h
    apply (C40_rotation_acceptance M o l b).2
    rintro ⟨h1, -⟩
    rw [abs_lt] at h1
    norm_num at h1
    linarith
  refine ⟨hrej, ?_⟩
  intro hM
  constructor
  · rintro ⟨t, ht⟩
    refine ⟨hM, ?_⟩
    rcases orth_det hM with h | h
    · exact h
    · rw [hrej (by rw [h]; norm_num)] at ht; cases ht
  · rintro ⟨-, hd⟩
    obtain ⟨t, ht, -⟩ := (C40_rotation_acceptance M o l b).1 ⟨by rw [hd]; norm_num, by
      rw [orth_right hM, M3.one_def]; norm_num [deviation]⟩
    exact ⟨t, ht⟩

example : ∃ M : M3 ℝ, ProperRotation M ∧ M ≠ 1 :=
  ⟨⟨0, -1, 0, 1, 0, 0, 0, 0, 1⟩, ⟨by unfold Orthogonal; ext <;> simp [M3.transpose, M3.mul_def, M3.one_def],
    by norm_num [M3.det]⟩, by simp [M3.one_def]⟩

/-! ## C41 -/

theorem refl_mulVec (n v : V3 ℝ) (hn : n.normSq = 1) : (Tr.reflMatrix n).mulVec v = v - (2 * v.dot n) • n := by
  have h1 : n.dot n = 1 := hn
  simp only [Tr.reflMatrix, h1, Tr.outer]
  ext <;> simp [M3.mulVec, M3.sub_def, M3.smul_def, M3.one_def, V3.dot] <;> ring

theorem refl_apply (pl : Plane) (l b : Bool) (hn : pl.normal.normSq = 1) (p : V3 ℝ) :
    (Tr.mkReflection pl l b).apply p = p - (2 * pl.sdist p) • pl.normal := by
  simp only [Tr.mkReflection, Tr.apply, Tr.matApply, refl_mulVec _ _ hn, dot_sub_left, Plane.sdist]
  ext <;> simp <;> ring

/-- **C41.** For a plane with unit normal, `Reflection(plane)` sends every point to its mirror image; it is an
involution, fixes exactly the points of the plane, negates the signed distance, and reverses handedness. -/
theorem C41_reflection_is_mirror (pl : Plane) (hn : len pl.normal = 1) (l b : Bool) (p : V3 ℝ) :
    let t := Tr.mkReflection pl l b
    MirrorImage pl.normal pl.point p (t.apply p) ∧
    t.apply (t.apply p) = p ∧
    (t.apply p = p ↔ Perp (p - pl.point) pl.normal) ∧
    pl.sdist (t.apply p) = - pl.sdist p ∧
    (∀ B, (t.bases B).det = - B.det) := by
  rw [len_eq] at hn
  have h1 : pl.normal.normSq = 1 := norm3_eq_one.mp hn
  have hsd : pl.sdist ((Tr.mkReflection pl l b).apply p) = - pl.sdist p := by
    rw [refl_apply _ _ _ h1]
    rw [Plane.sdist, dot_sub_left, dot_smul_left, dot_self, h1, Plane.sdist]; ring
  refine ⟨⟨?_, ?_⟩, ?_, ?_, hsd, ?_⟩
  · rw [refl_apply _ _ _ h1, perp_iff, dot_sub_left, dot_smul_left, dot_add_left, dot_sub_left, dot_smul_left, dot_self,
      h1, Plane.sdist]
    ring
  · rw [refl_apply _ _ _ h1]
    exact ⟨-(2 * pl.sdist p), by ext <;> simp⟩
  · rw [refl_apply _ _ _ h1 ((Tr.mkReflection pl l b).apply p), hsd, refl_apply _ _ _ h1]
    ext <;> simp
  · rw [refl_apply _ _ _ h1, perp_iff, dot_sub_left]
    constructor
    · intro h
      have h2 : (2 * pl.sdist p) • pl.normal = 0 := by
        have := congrArg (fun v => p - v) h
        simpa using this
      have h3 : ((2 * pl.sdist p) • pl.normal).dot pl.normal = 0 := by rw [h2]; simp [V3.dot]
      rw [dot_smul_left, dot_self, h1, Plane.sdist] at h3
      linarith
    · intro h
      have : pl.sdist p = 0 := h
      rw [this]; ext <;> simp
  · intro B
    simp only [Tr.mkReflection, Tr.bases, M3.det_mul]
    have : (Tr.reflMatrix pl.normal).det = -1 := by
      have h2 : pl.normal.dot pl.normal = 1 := h1
      simp only [Tr.reflMatrix, h2, Tr.outer, M3.det, M3.sub_def, M3.smul_def, M3.one_def]
      simp only [V3.dot] at h2
      linear_combination -2 * h2
    rw [this]; ring

example : ∃ pl : Plane, len pl.normal = 1 ∧ (Tr.mkReflection pl true false).apply ⟨1, 2, 3⟩ = ⟨1, 2, -1⟩ := by
  refine ⟨⟨⟨0, 0, 1⟩, ⟨0, 0, 1⟩, 1⟩, by simp [len], ?_⟩
  rw [refl_apply _ _ _ (by simp [V3.normSq, V3.dot])]
  ext <;> simp [Plane.sdist, V3.dot]; norm_num

/-! ## C43 -/

/-- **C43 (partial).** For a `MatrixTransform` with orthogonal matrix, and more generally for every composition of
translations and orthogonal matrix transformations, the transformed surface contains the image of `p` iff the original
contains `p`.  Missing: general invertible matrices, for which the claim is false (`C43_refuted`). -/
theorem C43_surfaces_follow_partial (t : Tr ℝ) (ht : RigidMotion t) (a : Alg) (ha : a.WF) :
    ∃ a', Tr.alg t a = (a', .ok ()) ∧ ∀ p, a'.interior (t.apply p) = true ↔ a.interior p = true := by
  obtain ⟨a', h1, -, h3⟩ := alg_rigid ht a ha
  exact ⟨a', h1, fun p => by rw [h3]⟩

example : (Alg.plane ⟨⟨0, 0, 1⟩, ⟨0, 0, 0⟩, 1⟩).WF := ⟨by rw [norm3_eq_one]; simp [V3.normSq, V3.dot], by norm_num⟩

/-- **C43, finding.** A shear moves plane normals like points; the image of an interior point is not interior any
more (a sphere under a non-uniform scaling fails as well). -/
theorem C43_refuted :
    ¬ ∀ (M : M3 ℝ) (a a' : Alg), M.det ≠ 0 → a.WF → Tr.alg (.matrix .general M none true false) a = (a', .ok ()) →
      ∀ p, a'.interior (Tr.apply (.matrix .general M none true false) p) = true ↔ a.interior p = true := by
  intro h
  -- scaling by 2 of a sphere of radius 1: the radius is not scaled
  have := h ⟨2, 0, 0, 0, 2, 0, 0, 0, 2⟩ (.sphere ⟨1, ⟨0, 0, 0⟩, 1 / 10⟩) _ (by norm_num [M3.det])
    ⟨by norm_num, by norm_num⟩ rfl ⟨1, 0, 0⟩
  simp only [Alg.interior, Sphere.interior_iff, Tr.apply, Tr.matApply, M3.mulVec, V3.normSq, V3.dot, V3.sub_x, V3.sub_y,
    V3.sub_z] at this
  norm_num at this

/-- **C43, finding for planes.** Under the shear `x' = x + y` the plane with normal (1,0,0) keeps its normal, so the
image of an interior point is rejected. -/
theorem C43_plane_refuted :
    ¬ ∀ (M : M3 ℝ) (pl : Plane) (a' : Alg), M.det ≠ 0 → (Alg.plane pl).WF →
      Tr.alg (.matrix .general M none true false) (.plane pl) = (a', .ok ()) →
      ∀ p, a'.interior (Tr.apply (.matrix .general M none true false) p) = true ↔ pl.interior p = true := by
  intro h
  have hn : norm3 (⟨1, 0, 0⟩ : V3 ℝ) = 1 := by rw [norm3_eq_one]; simp [V3.normSq, V3.dot]
  have hs : Plane.normalSet ((⟨1, 1, 0, 0, 1, 0, 0, 0, 1⟩ : M3 ℝ).mulVec ⟨1, 0, 0⟩) = .ok ⟨1, 0, 0⟩ := by
    rw [show (⟨1, 1, 0, 0, 1, 0, 0, 0, 1⟩ : M3 ℝ).mulVec ⟨1, 0, 0⟩ = ⟨1, 0, 0⟩ by simp [M3.mulVec]]
    exact plane_normalSet_unit hn
  have := h ⟨1, 1, 0, 0, 1, 0, 0, 0, 1⟩ ⟨⟨1, 0, 0⟩, ⟨0, 0, 0⟩, 1 / 10⟩ _ (by norm_num [M3.det]) ⟨hn, by norm_num⟩
    (by simp only [Tr.alg, Tr.matAlg, hs]; rfl) ⟨-1, 5, 0⟩
  simp only [Alg.interior, Plane.interior_iff, Plane.sdist, Tr.apply, Tr.matApply, M3.mulVec, V3.dot] at this
  norm_num at this

/-! ## C44 -/

/-- **C44, finding.** Applying a Reflection to any algebraic object raises TypeError (and leaves it unchanged). -/
theorem C44_reflection_alg_always_raises (pl : Plane) (l b : Bool) (a : Alg) :
    Tr.alg (Tr.mkReflection pl l b) a = (a, .error .type) := by
  cases a <;> simp [Tr.mkReflection, Tr.alg]

/-- **C44, refuted.** Hence Reflection can be applied to no surface. -/
theorem C44_reflection_alg_refuted :
    ¬ ∃ (pl : Plane) (a a' : Alg), Tr.alg (Tr.mkReflection pl true false) a = (a', .ok ()) := by
  rintro ⟨pl, a, a', h⟩
  rw [C44_reflection_alg_always_raises] at h
  cases h

/-! ## C46 -/

/-- **C46, intrinsic.** The intrinsic convention rotates about z by alpha, then about the moved x by beta, then about
the twice moved z by gamma: as a map of points this is `Rz(alpha) ∘ Rx(beta) ∘ Rz(gamma)`. -/
theorem C46_intrinsic (a b c : ℝ) :
    ∃ M, Tr.rotZxz a b c "intrinsic" = .ok M ∧ ∀ p, M.mulVec p = spinZ a (spinX b (spinZ c p)) := by
  refine ⟨_, by simp [Tr.rotZxz]; rfl, ?_⟩
  intro p
  simp only [Tr.eulerIntrinsicZXZ, M3.mulVec_mul]
  ext <;> simp [M3.mulVec, Tr.rotZ, Tr.rotX, spinZ, spinX] <;> ring

/-- **C46, other conventions.** Any other string raises ValueError. -/
theorem C46_invalid_convention (a b c : ℝ) (s : String) (h1 : s ≠ "intrinsic") (h2 : s ≠ "extrinsic") :
    Tr.rotZxz a b c s = .error .value := by simp [Tr.rotZxz, h1, h2]

/-- **C46, extrinsic (partial).** What the extrinsic branch really computes: gamma about z, then *alpha* about x, then
*beta* about z.  It is the documented matrix whenever alpha = beta.  Missing: alpha ≠ beta, see `C46_extrinsic_refuted`. -/
theorem C46_extrinsic_partial (a b c : ℝ) :
    ∃ M, Tr.rotZxz a b c "extrinsic" = .ok M ∧ (∀ p, M.mulVec p = spinZ b (spinX a (spinZ c p))) ∧
      (a = b → ∀ p, M.mulVec p = spinZ a (spinX b (spinZ c p))) := by
  refine ⟨_, by simp [Tr.rotZxz]; rfl, ?_⟩
  have : ∀ p, (Tr.eulerExtrinsicZXZ c a b).mulVec p = spinZ b (spinX a (spinZ c p)) := by
    intro p
    simp only [Tr.eulerExtrinsicZXZ, M3.mulVec_mul]
    ext <;> simp [M3.mulVec, Tr.rotZ, Tr.rotX, spinZ, spinX] <;> ring
  exact ⟨this, fun h p => by rw [this p, h]⟩

/-- **C46, finding.** The extrinsic convention does not rotate by gamma, beta, alpha about the fixed axes: alpha and
beta are swapped. -/
theorem C46_extrinsic_refuted :
    ¬ ∀ (a b c : ℝ) (M : M3 ℝ), Tr.rotZxz a b c "extrinsic" = .ok M →
      ∀ p, M.mulVec p = spinZ a (spinX b (spinZ c p)) := by
  intro h
  have := h Real.pi 0 0 _ (by simp [Tr.rotZxz]; rfl) ⟨1, 0, 0⟩
  have hx := congrArg V3.x this
  simp [Tr.eulerExtrinsicZXZ, M3.mul_def, M3.mulVec, Tr.rotZ, Tr.rotX, spinZ, spinX] at hx
  norm_num at hx

/-! ## C47 -/

/-- **C47, finding.** `s2s_alignment` raises for all planes and all points, whatever accepted shape they have. -/
theorem C47_s2s_always_raises (mp tp : Plane) (a b : PtArg) : ∃ e, (Tr.s2sAlignment mp tp a b).2 = .error e := by
  have hrows : ∀ rows, Tr.mkTranslationRows rows = .error .assertion := by
    intro rows
    unfold Tr.mkTranslationRows
    split
    · rfl
    · rename_i h
      rw [if_pos (by omega)]
  unfold Tr.s2sAlignment
  simp only [hrows]
  repeat' split
  all_goals exact ⟨_, rfl⟩

/-- **C47, refuted.** No call returns a transformation. -/
theorem C47_s2s_refuted : ¬ ∃ (mp tp : Plane) (a b : PtArg) (t : Tr ℝ), (Tr.s2sAlignment mp tp a b).2 = .ok t := by
  rintro ⟨mp, tp, a, b, t, h⟩
  obtain ⟨e, he⟩ := C47_s2s_always_raises mp tp a b
  rw [he] at h; cases h

/-! ## C49 -/

/-- Operations a user can perform on a Plane. -/
inductive PlaneOp
  | setNormal (n : V3 ℝ)
  | setPoint (p : V3 ℝ)
  | setTol (t : ℝ)
  | flip
  | transform (t : Tr ℝ)

/-- Effect of an operation on the plane; a failing setter leaves the attribute as it was. -/
noncomputable def planeStep (pl : Plane) : PlaneOp → Plane
  | .setNormal n => match Plane.normalSet n with
    | .ok m => { pl with normal := m }
    | .error _ => pl
  | .setPoint p => { pl with point := p }
  | .setTol t => match tolSet t with
    | .ok u => { pl with tol := u }
    | .error _ => pl
  | .flip => match pl.flip with
    | .ok q => q
    | .error _ => pl
  | .transform t => match (Tr.alg t (.plane pl)).1 with
    | .plane q => q
    | _ => pl

/-- Unit normal, as an invariant of surfaces (trivial for the other two classes). -/
def UnitNormal : Alg → Prop
  | .plane q => norm3 q.normal = 1
  | _ => True

theorem unitNormal_matAlg (M : M3 ℝ) (o : Option (V3 ℝ)) (a : Alg) (h : UnitNormal a) :
    UnitNormal (Tr.matAlg M o a).1 := by
  cases a with
  | sphere s => trivial
  | cyl c =>
    simp only [Tr.matAlg]
    split <;> trivial
  | plane q =>
    simp only [Tr.matAlg]
    split
    · rename_i n hn; exact (plane_normalSet_ok hn).1
    · exact h

mutual
theorem unitNormal_alg : (t : Tr ℝ) → (a : Alg) → UnitNormal a → UnitNormal (Tr.alg t a).1
  | .translation s l b, .sphere _, h => by simp [Tr.alg, UnitNormal]
  | .translation s l b, .plane _, h => by simpa [Tr.alg, UnitNormal] using h
  | .translation s l b, .cyl _, h => by simp [Tr.alg, UnitNormal]
  | .matrix .reflection M o l b, a, h => by cases a <;> simpa [Tr.alg] using h
  | .matrix .general M o l b, a, h => by simp only [Tr.alg]; exact unitNormal_matAlg M o a h
  | .matrix .inversion M o l b, a, h => by simp only [Tr.alg]; exact unitNormal_matAlg M o a h
  | .matrix .rotation M o l b, a, h => by simp only [Tr.alg]; exact unitNormal_matAlg M o a h
  | .multi ts, a, h => by simp only [Tr.alg]; exact unitNormal_algList ts a h
theorem unitNormal_algList : (ts : List (Tr ℝ)) → (a : Alg) → UnitNormal a → UnitNormal (Tr.algList ts a).1
  | [], a, h => by simpa [Tr.algList] using h
  | t :: ts, a, h => by
    have h1 := unitNormal_alg t a h
    simp only [Tr.algList]
    split
    · rename_i a' ha; rw [ha] at h1; exact unitNormal_algList ts a' h1
    · rename_i a' e ha; rw [ha] at h1; exact h1
end

/-- **C49.** After construction and any history of successful or failing assignments, flips and (arbitrary, even
singular) transformations, the normal of a Plane has length one. -/
theorem C49_normals_are_unit (n q : V3 ℝ) (t : ℝ) (pl : Plane) (h0 : Plane.make n q t = .ok pl)
    (ops : List PlaneOp) : len (ops.foldl planeStep pl).normal = 1 := by
  rw [len_eq]
  have hinit : norm3 pl.normal = 1 := by
    unfold Plane.make at h0
    cases hn : Plane.normalSet n with
    | error e => simp [hn, bind, Except.bind] at h0
    | ok m =>
      cases ht : tolSet t with
      | error e => simp [hn, ht, bind, Except.bind] at h0
      | ok u =>
        simp only [hn, ht, bind, Except.bind, pure, Except.pure, Except.ok.injEq] at h0
        subst h0
        exact (plane_normalSet_ok hn).1
  clear h0
  induction ops generalizing pl with
  | nil => exact hinit
  | cons op ops ih =>
    rw [List.foldl_cons]
    apply ih
    cases op with
    | setNormal m =>
      simp only [planeStep]
      split
      · rename_i m' hm; exact (plane_normalSet_ok hm).1
      · exact hinit
    | setPoint p => exact hinit
    | setTol t => simp only [planeStep]; split <;> exact hinit
    | flip =>
      simp only [planeStep]
      split
      · rename_i r hr
        unfold Plane.flip at hr
        rw [plane_normalSet_unit (by rw [norm3_neg]; exact hinit)] at hr
        simp only [bind, Except.bind, pure, Except.pure, Except.ok.injEq] at hr
        subst hr
        rw [norm3_neg]; exact hinit
      · exact hinit
    | transform t =>
      have h1 := unitNormal_alg t (.plane pl) hinit
      simp only [planeStep]
      split
      · rename_i r hr; rw [hr] at h1; exact h1
      · exact hinit

example : ∃ pl, Plane.make ⟨0, 0, 1⟩ ⟨0, 0, 0⟩ 1 = .ok pl ∧
    [PlaneOp.setNormal 0, .flip, .transform (.matrix .general ⟨2, 0, 0, 0, 2, 0, 0, 0, 2⟩ none true false)] ≠ [] := by
  have hn : norm3 (⟨0, 0, 1⟩ : V3 ℝ) = 1 := by rw [norm3_eq_one]; simp [V3.normSq, V3.dot]
  exact ⟨_, by simp [Plane.make, plane_normalSet_unit hn, tolSet, bind, Except.bind, pure, Except.pure]; rfl, by simp⟩

end CZ
