import Verif.RotAlign
import Verif.Props.Rotation
import Verif.Spec.Icosahedron

/-!
# Properties C109 and C110: transformations do what their parameters say
-/

namespace CZ
open Spec
namespace Tr

section
variable {K : Type} [CommRing K]

theorem matApply_add (M : M3 K) (o : Option (V3 K)) (p v : V3 K) :
    matApply M o (p + v) = matApply M o p + M.mulVec v := by
  cases o with
  | none => simp only [matApply]; rw [M3.mulVec_add]
  | some o =>
    simp only [matApply]
    rw [show p + v - o = (p - o) + v by abel, M3.mulVec_add]; abel

/-- **C109 (translations).** Every coordinate grows by that of the shift. -/
theorem C109_translation (s : V3 K) (l b : Bool) (p : V3 K) :
    (apply (.translation s l b) p).x = p.x + s.x ∧ (apply (.translation s l b) p).y = p.y + s.y ∧
    (apply (.translation s l b) p).z = p.z + s.z := ⟨rfl, rfl, rfl⟩

/-- **C109 (matrices).** A matrix transformation with an origin fixes the origin and multiplies the vector from the origin to a
point; without origin it does so with respect to zero.  The same for the rotations accepted by the constructor. -/
theorem C109_matrix (k : MatKind) (M : M3 K) (o : V3 K) (l b : Bool) (v : V3 K) :
    apply (.matrix k M (some o) l b) o = o ∧ apply (.matrix k M (some o) l b) (o + v) = o + M.mulVec v ∧
    apply (.matrix k M none l b) v = M.mulVec v := by
  have h0 : apply (.matrix k M (some o) l b) o = o := by
    simp only [apply, matApply, sub_self]; rw [M3.mulVec_zero, zero_add]
  refine ⟨h0, ?_, rfl⟩
  have := matApply_add M (some o) o v
  simp only [apply] at h0 ⊢
  rw [this, h0]

/-- **C109 (inversions).** The centre is the midpoint of every point and its image. -/
theorem C109_inversion (o : Option (V3 K)) (l b : Bool) (p : V3 K) :
    let q := (mkInversion o l b).apply p
    let c := o.getD 0
    p.x + q.x = 2 * c.x ∧ p.y + q.y = 2 * c.y ∧ p.z + q.z = 2 * c.z := by
  cases o <;> simp [mkInversion, apply, matApply, M3.mulVec, M3.smul_def, M3.one_def] <;>
    refine ⟨?_, ?_, ?_⟩ <;> ring

/-- **C109 (sequences).** A MultiTransform applies its members from first to last; nesting makes no difference, and the same holds
for bases. -/
theorem C109_sequence (ts : List (Tr K)) (p : V3 K) (B : M3 K) :
    apply (.multi ts) p = ts.foldl (fun q t => t.apply q) p ∧
    bases (.multi ts) B = ts.foldl (fun C t => t.bases C) B ∧
    ∀ as us cs, ts = as ++ .multi us :: cs →
      apply (.multi ts) p = apply (.multi (as ++ us ++ cs)) p ∧ bases (.multi ts) B = bases (.multi (as ++ us ++ cs)) B := by
  have h1 : ∀ (ts : List (Tr K)) p, applyList ts p = ts.foldl (fun q t => t.apply q) p := by
    intro ts; induction ts with
    | nil => intro p; rfl
    | cons t ts ih => intro p; simp only [applyList, List.foldl_cons]; exact ih _
  have h2 : ∀ (ts : List (Tr K)) B, basesList ts B = ts.foldl (fun C t => t.bases C) B := by
    intro ts; induction ts with
    | nil => intro p; rfl
    | cons t ts ih => intro p; simp only [basesList, List.foldl_cons]; exact ih _
  refine ⟨h1 ts p, h2 ts B, ?_⟩
  rintro as us cs rfl
  simp only [apply, bases, h1, h2, List.foldl_append, List.foldl_cons, and_self]

/-- **C109 (bases).** Basis vectors are carried along like differences of points: for every transformation, a vector with the
coordinates `v` in the basis becomes the difference of the images of two points which differ by it. -/
theorem C109_bases (t : Tr K) (B : M3 K) (p v : V3 K) :
    (t.bases B).mulVec v = t.apply (p + B.mulVec v) - t.apply p := by
  have key : ∀ t : Tr K, ∀ B p v, (t.bases B).mulVec v = t.apply (p + B.mulVec v) - t.apply p := by
    intro t
    refine Tr.rec (motive_1 := fun t => ∀ B p v, (t.bases B).mulVec v = t.apply (p + B.mulVec v) - t.apply p)
      (motive_2 := fun ts => ∀ B p v, (basesList ts B).mulVec v = applyList ts (p + B.mulVec v) - applyList ts p)
      ?_ ?_ ?_ ?_ ?_ t
    · intro s l b B p v; simp only [bases, apply]; abel
    · intro k M o l b B p v
      simp only [bases, apply]; rw [matApply_add, M3.mulVec_mul]; abel
    · intro ts ih B p v; simp only [bases, apply]; exact ih B p v
    · intro B p v; simp only [basesList, applyList]; abel
    · intro t ts h1 h2 B p v
      simp only [basesList, applyList]
      rw [h2 (t.bases B) (t.apply p) v, h1 B p v]
      congr 2; abel
  exact key t B p v

end

/-- **C109 (rot_v).** A right-handed rotation by the angle `theta` about the axis `v`: the axis is fixed, and a vector `w` perpendicular
to it becomes `cos(theta) w + sin(theta) (v/|v| × w)`.  A zero axis gives NaN. -/
theorem C109_rot_v (v : V3 ℝ) (theta : ℝ) :
    (v ≠ 0 → ∃ R, Tr.rotV v theta = .ok R ∧ R.mulVec v = v ∧
      ∀ w, Perp v w → R.mulVec w = Real.cos theta • w + (Real.sin theta / len v) • vector v w) ∧
    (v = 0 → Tr.rotV v theta = .error .nan) := by
  have hlen : len v = norm3 v := by simp [len, norm3, V3.normSq, V3.dot, sq]
  refine ⟨fun hv => ?_, ?_⟩
  · have hn : norm3 v ≠ 0 := by rwa [Ne, norm3_eq_zero]
    have hpos : 0 < norm3 v := (norm3_pos v).mpr hv
    have hsq : norm3 v ^ 2 = v.x * v.x + v.y * v.y + v.z * v.z := norm3_sq v
    simp only [Tr.rotV, if_neg hn]
    split_ifs with h
    · have h0 : theta = 0 := by
        rw [norm3_smul, mul_eq_zero] at h
        rcases h with h | h
        · rw [abs_eq_zero, div_eq_zero_iff] at h; exact h.resolve_right hn
        · exact absurd h hn
      refine ⟨1, rfl, by rw [M3.mulVec_one], fun w _ => ?_⟩
      rw [M3.mulVec_one, h0]; ext <;> simp
    · obtain ⟨R, h1, h2, h3⟩ := rodrigues_ok (axis := (theta / norm3 v) • v) (by rwa [Ne, ← norm3_eq_zero]) (norm3 ((theta / norm3 v) • v))
      have hw : norm3 ((theta / norm3 v) • v) = |theta| := by
        rw [norm3_smul, abs_div, abs_of_pos hpos]; field_simp
      have ht : theta ≠ 0 := by
        rintro rfl; apply h; rw [hw, abs_zero]
      have ha : |theta| ≠ 0 := by rwa [Ne, abs_eq_zero]
      refine ⟨R, h1, by rw [h2, rodMat_mulVec]; ext <;> simp [V3.cross] <;> ring, fun w hp => ?_⟩
      simp only [Perp] at hp
      rw [h2, rodMat_mulVec, hlen, hw, Real.cos_abs]
      -- the unit axis is sign(theta) v/|v|
      obtain ⟨e, he, hs⟩ : ∃ e : ℝ, e * e = 1 ∧ theta = e * |theta| := by
        rcases lt_or_gt_of_ne ht with h' | h'
        · exact ⟨-1, by norm_num, by rw [abs_of_neg h']; ring⟩
        · exact ⟨1, by norm_num, by rw [abs_of_pos h']; ring⟩
      have hsin : Real.sin |theta| * e = Real.sin theta := by
        rcases lt_or_gt_of_ne ht with h' | h'
        · have : e = -1 := by
            have h2 : theta = -|theta| := by rw [abs_of_neg h']; ring
            have h3 : (e + 1) * |theta| = 0 := by linarith
            rcases mul_eq_zero.mp h3 with h4 | h4
            · linarith
            · exact absurd h4 ha
          rw [this, abs_of_neg h', Real.sin_neg]; ring
        · have : e = 1 := by
            have h2 : theta = |theta| := by rw [abs_of_pos h']
            have h3 : (e - 1) * |theta| = 0 := by linarith
            rcases mul_eq_zero.mp h3 with h4 | h4
            · linarith
            · exact absurd h4 ha
          rw [this, abs_of_pos h']; ring
      have haxis : |theta|⁻¹ • (theta / norm3 v) • v = (e / norm3 v) • v := by
        rw [smul_smul]; congr 1
        nth_rewrite 2 [hs]; field_simp
      rw [haxis, ← hsin]
      have hi : (norm3 v)⁻¹ * (norm3 v)⁻¹ * (v.x * v.x + v.y * v.y + v.z * v.z) = 1 := by
        rw [← hsq]; field_simp
      set r := (norm3 v)⁻¹ with hr
      have e1 : e / norm3 v = e * r := by rw [hr]; rfl
      have e2 : Real.sin |theta| * e / norm3 v = Real.sin |theta| * e * r := by rw [hr]; rfl
      rw [e1, e2]
      clear_value r
      ext
      · simp [V3.cross, vector]
        linear_combination (1 - Real.cos theta) * (e * e * r * r * v.x * hp - r * r * (v.x * v.x + v.y * v.y + v.z * v.z) * w.x * he - w.x * hi)
      · simp [V3.cross, vector]
        linear_combination (1 - Real.cos theta) * (e * e * r * r * v.y * hp - r * r * (v.x * v.x + v.y * v.y + v.z * v.z) * w.y * he - w.y * hi)
      · simp [V3.cross, vector]
        linear_combination (1 - Real.cos theta) * (e * e * r * r * v.z * hp - r * r * (v.x * v.x + v.y * v.y + v.z * v.z) * w.z * he - w.z * hi)
  · rintro rfl
    have : norm3 (0 : V3 ℝ) = 0 := (norm3_eq_zero _).mpr rfl
    simp [Tr.rotV, this]

/-- **C109 (rot_vtv).** The rotation from one vector to another takes the shortest way: unless the vectors are opposite (angle
within the machine epsilon of pi), it turns about the direction perpendicular to both, which is fixed. -/
theorem C109_rot_vtv (v vt : V3 ℝ) (hv : v ≠ 0) (ht : vt ≠ 0) (h : machEps ≤ Real.pi - angle v vt) :
    ∃ R, Tr.rotVtv v vt = .ok R ∧ R.mulVec (vector v vt) = vector v vt := by
  rw [rotVtv_unfold hv ht]
  split_ifs with h1 h2
  · exact ⟨1, rfl, M3.mulVec_one _⟩
  · linarith
  · have hc : v.cross vt ≠ 0 := by
      intro h0
      have hs : Real.sin (angle v vt) = 0 := by
        rw [sin_angle v vt hv ht, h0, (norm3_eq_zero _).mpr rfl, zero_div]
      have he : (0 : ℝ) < machEps := by unfold machEps; positivity
      have : 0 < Real.sin (angle v vt) := Real.sin_pos_of_pos_of_lt_pi (by linarith) (by linarith)
      linarith
    obtain ⟨R, e1, e2, -⟩ := rodrigues_ok hc (angle v vt)
    refine ⟨R, e1, ?_⟩
    rw [e2, rodMat_mulVec]
    ext <;> simp [V3.cross, vector] <;> ring

/-- A quarter turn about z carries x to y. -/
example : ∃ R, Tr.rotV ⟨0, 0, 2⟩ (Real.pi / 2) = .ok R ∧ R.mulVec ⟨1, 0, 0⟩ = ⟨0, 1, 0⟩ := by
  obtain ⟨R, h1, -, h3⟩ := (C109_rot_v ⟨0, 0, 2⟩ (Real.pi / 2)).1 (by intro h; have := congrArg V3.z h; norm_num at this)
  refine ⟨R, h1, ?_⟩
  rw [h3 ⟨1, 0, 0⟩ (by simp [Perp])]
  have : len (⟨0, 0, 2⟩ : V3 ℝ) = 2 := by
    simp only [len]; rw [show (0 : ℝ) ^ 2 + 0 ^ 2 + 2 ^ 2 = 2 ^ 2 by norm_num]; exact Real.sqrt_sq (by norm_num)
  rw [this]; ext <;> simp [vector]

/-- The sequence "translate, then rotate about a point" at work. -/
example : apply (.multi [.translation ⟨1, 0, 0⟩ true false, .matrix .general ⟨0, -1, 0, 1, 0, 0, 0, 0, 1⟩ (some ⟨1, 0, 0⟩) true false])
    (⟨1, 0, 0⟩ : V3 ℚ) = ⟨1, 1, 0⟩ := by decide +kernel

/-- **C109 (collapsed directions).** A matrix that takes the normal of a plane, or the axis of a cylinder, to zero makes
`applyTransformation_alg` raise ValueError, and the surface is left half transformed: its point has moved, its direction has not.  A
sphere is moved without complaint. -/
theorem C109_collapse (M : M3 ℝ) (o : V3 ℝ) (l b : Bool) :
    (∀ pl : Plane, M.mulVec pl.normal = 0 →
      ∃ pl', alg (.matrix .general M (some o) l b) (.plane pl) = (.plane pl', .error .value) ∧
        pl'.point = o + M.mulVec (pl.point - o) ∧ pl'.normal = pl.normal ∧ pl'.tol = pl.tol) ∧
    (∀ c : Cylinder, M.mulVec c.axis = 0 →
      ∃ c', alg (.matrix .general M (some o) l b) (.cyl c) = (.cyl c', .error .value) ∧
        c'.point = o + M.mulVec (c.point - o) ∧ c'.axis = c.axis ∧ c'.radius = c.radius ∧ c'.length = c.length ∧ c'.tol = c.tol) ∧
    (∀ s : Sphere, ∃ s', alg (.matrix .general M (some o) l b) (.sphere s) = (.sphere s', .ok ()) ∧
      s'.center = o + M.mulVec (s.center - o) ∧ s'.radius = s.radius ∧ s'.tol = s.tol) := by
  have h0 : norm3 (0 : V3 ℝ) = 0 := by simp [norm3, V3.normSq, V3.dot]
  have he : (0 : ℝ) ≤ machEps := by unfold machEps; positivity
  have hp (p : V3 ℝ) : matApply M (some o) p = o + M.mulVec (p - o) := by simp only [matApply]; rw [add_comm]
  refine ⟨fun pl h => ?_, fun c h => ?_, fun s => ⟨_, rfl, hp _, rfl, rfl⟩⟩
  · refine ⟨{ pl with point := matApply M (some o) pl.point }, ?_, hp _, rfl, rfl⟩
    simp only [alg, matAlg]
    rw [h, Plane.normalSet, h0, if_neg (not_lt.mpr he)]
  · refine ⟨{ c with point := matApply M (some o) c.point }, ?_, hp _, rfl, rfl, rfl, rfl⟩
    simp only [alg, matAlg]
    rw [h, Cylinder.axisSet, h0, if_pos he]

/-- The projection along z takes the normal of a horizontal plane to zero. -/
example : (⟨1, 0, 0, 0, 1, 0, 0, 0, 0⟩ : M3 ℝ).mulVec ⟨0, 0, 1⟩ = 0 := by ext <;> simp [M3.mulVec]

/-- **C110, finding.** `rot_align` raises for every input: what scipy returns is a tuple, which has no method `as_matrix`. -/
theorem C110_rot_align_always_raises (alignVectors : List (V3 ℝ) → List (V3 ℝ) → Py (M3 ℝ × ℝ)) (v vt : List (V3 ℝ)) :
    (∀ r, alignVectors vt v = .ok r → rotAlign alignVectors v vt = .error .attribute) ∧
    ∃ e, rotAlign alignVectors v vt = .error e := by
  unfold rotAlign
  refine ⟨fun r hr => by rw [hr], ?_⟩
  cases alignVectors vt v with
  | error e => exact ⟨e, rfl⟩
  | ok r => exact ⟨_, rfl⟩

/-- **C110, refuted.** Even where scipy finds the rotation, no matrix is returned. -/
theorem C110_rot_align_refuted : ¬ ∃ (alignVectors : List (V3 ℝ) → List (V3 ℝ) → Py (M3 ℝ × ℝ)) (v vt : List (V3 ℝ)) (R : M3 ℝ),
    rotAlign alignVectors v vt = .ok R := by
  rintro ⟨f, v, vt, R, h⟩
  obtain ⟨e, he⟩ := (C110_rot_align_always_raises f v vt).2
  rw [he] at h; cases h

end Tr
end CZ
