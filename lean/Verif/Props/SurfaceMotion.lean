import Verif.Props.VolumeCylinder

/-!
# Property C135: surfaces and their boxes, measured

Distances from planes and projections onto planes under motions and under `flip_orientation`; the exact region of the
bounding box of a cylinder, and what a motion does to it.
-/

namespace CZ
open Spec

noncomputable section
open Classical

/-! ## Planes -/

/-- A rigid motion moves the point of a plane and turns its normal. -/
theorem rigid_plane {t : Tr ℝ} (ht : RigidMotion t) : ∃ L : M3 ℝ, Orthogonal L ∧ (∀ p q, t.apply p - t.apply q = L.mulVec (p - q)) ∧
    ∀ c : Plane, norm3 c.normal = 1 →
      t.alg (.plane c) = (.plane { c with point := t.apply c.point, normal := L.mulVec c.normal }, .ok ()) := by
  refine RigidMotion.induct (P := fun t => ∃ L : M3 ℝ, Orthogonal L ∧ (∀ p q, t.apply p - t.apply q = L.mulVec (p - q)) ∧
    ∀ c : Plane, norm3 c.normal = 1 →
      t.alg (.plane c) = (.plane { c with point := t.apply c.point, normal := L.mulVec c.normal }, .ok ())) ?_ ?_ ?_ ht
  · intro s l b
    refine ⟨1, ?_, fun p q => ?_, fun c hc => ?_⟩
    · unfold Orthogonal
      ext <;> simp [M3.transpose, M3.mul_def, M3.one_def]
    · simp only [Tr.apply, M3.mulVec_one]; abel
    · simp only [Tr.alg, Tr.apply, M3.mulVec_one]
  · intro k M o l b hM hk
    refine ⟨M, hM, fun p q => by simp only [Tr.apply]; exact matApply_sub M o p q, fun c hc => ?_⟩
    have e : ∀ a, Tr.alg (.matrix k M o l b) a = Tr.matAlg M o a := by
      intro a
      cases k with
      | reflection => exact absurd rfl hk
      | _ => rw [Tr.alg]; simp
    rw [e, Tr.matAlg, plane_normalSet_unit (by rw [orth_norm hM, hc])]
    simp only [Tr.apply]
  · intro ts hts ih
    clear hts
    simp only [Tr.alg, Tr.apply]
    induction ts with
    | nil =>
      refine ⟨1, ?_, fun p q => ?_, fun c hc => ?_⟩
      · unfold Orthogonal
        ext <;> simp [M3.transpose, M3.mul_def, M3.one_def]
      · simp only [Tr.applyList, M3.mulVec_one]
      · simp only [Tr.algList, Tr.applyList, M3.mulVec_one]
    | cons t ts ihl =>
      obtain ⟨L, i1, i2, i3⟩ := ih t List.mem_cons_self
      obtain ⟨N, j1, j2, j3⟩ := ihl fun u hu => ih u (List.mem_cons_of_mem _ hu)
      refine ⟨N * L, ?_, fun p q => ?_, fun c hc => ?_⟩
      · unfold Orthogonal at *
        rw [M3.transpose_mul, M3.mul_assoc', ← M3.mul_assoc' N.transpose, j1, M3.one_mul', i1]
      · rw [Tr.applyList, Tr.applyList, j2, i2, M3.mulVec_mul]
      · rw [Tr.algList, i3 c hc]
        simp only
        rw [j3 _ (by simp only; rw [orth_norm i1, hc])]
        simp only [Tr.applyList, M3.mulVec_mul]

theorem sdist_eq (pl : Plane) (p : V3 ℝ) : pl.sdist p = (p - pl.point).dot pl.normal := by
  rw [Plane.sdist, dot_sub_left]

/-- **C135 (planes under motions).** A rigid motion applied to a plane and to points leaves the distances unchanged, also
with their signs, and projecting after the motion is moving the projections. -/
theorem C135_plane_motion {t : Tr ℝ} (ht : RigidMotion t) (pl : Plane) (hn : len pl.normal = 1) :
    ∃ q : Plane, t.alg (.plane pl) = (.plane q, .ok ()) ∧ len q.normal = 1 ∧ q.tol = pl.tol ∧
      (∀ p, q.sdist (t.apply p) = pl.sdist p ∧ q.distFrom (t.apply p) = pl.distFrom p) ∧
      ∀ ps rs, pl.project (.rows ps) = .ok rs → q.project (.rows (ps.map t.apply)) = .ok (rs.map t.apply) := by
  rw [len_eq] at hn
  obtain ⟨L, hL, hsub, halg⟩ := rigid_plane ht
  have hsd : ∀ p, ({ pl with point := t.apply pl.point, normal := L.mulVec pl.normal } : Plane).sdist (t.apply p) = pl.sdist p := by
    intro p
    rw [sdist_eq, sdist_eq]
    simp only
    rw [hsub, orth_dot hL]
  refine ⟨_, halg pl hn, by rw [len_eq]; simp only; rw [orth_norm hL, hn], rfl,
    fun p => ⟨hsd p, by unfold Plane.distFrom; rw [hsd p]⟩, ?_⟩
  intro ps rs hr
  simp only [Plane.project, Except.ok.injEq] at hr ⊢
  subst hr
  rw [List.map_map, List.map_map]
  refine List.map_congr_left fun p _ => ?_
  simp only [Function.comp]
  rw [hsd p, ← M3.mulVec_smul]
  have := hsub p (p - pl.sdist p • pl.normal)
  rw [show p - (p - pl.sdist p • pl.normal) = pl.sdist p • pl.normal by abel] at this
  rw [← this]
  abel

/-- **C135 (flipping).** Reversing the orientation of a plane negates the signed distances, and keeps distances and
projections. -/
theorem C135_flip {pl q : Plane} (hn : len pl.normal = 1) (h : pl.flip = .ok q) :
    (∀ p, q.sdist p = - pl.sdist p ∧ q.distFrom p = pl.distFrom p) ∧ ∀ ps, q.project ps = pl.project ps := by
  rw [len_eq] at hn
  rw [flip_unit hn] at h
  cases h
  refine ⟨fun p => ⟨sdist_flip pl p, by unfold Plane.distFrom; rw [sdist_flip, abs_neg]⟩, fun ps => ?_⟩
  cases ps with
  | vec p => rfl
  | rows ps =>
    simp only [Plane.project, sdist_flip]
    congr 2
    funext p
    rw [neg_smul, smul_neg, neg_neg]

/-- **C135 (points on a plane).** The distance vanishes exactly on the plane, and projecting twice is projecting once. -/
theorem C135_zero (pl : Plane) (hn : len pl.normal = 1) :
    (∀ p, pl.distFrom p = 0 ↔ OnPlane pl p) ∧
      ∀ ps qs, pl.project (.rows ps) = .ok qs → pl.project (.rows qs) = .ok qs ∧ ∀ q ∈ qs, pl.distFrom q = 0 := by
  have h0 : ∀ p, pl.distFrom p = 0 ↔ OnPlane pl p := by
    intro p
    unfold Plane.distFrom OnPlane
    rw [abs_eq_zero, sdist_eq]
    rfl
  rw [len_eq] at hn
  have h1 : pl.normal.normSq = 1 := norm3_eq_one.mp hn
  have hz : ∀ p, pl.sdist (p - pl.sdist p • pl.normal) = 0 := by
    intro p
    rw [sdist_eq pl (_ - _), show p - pl.sdist p • pl.normal - pl.point = (p - pl.point) - pl.sdist p • pl.normal by abel,
      dot_sub_left, ← sdist_eq, dot_smul_left, dot_self, h1]
    ring
  refine ⟨h0, fun ps qs hq => ?_⟩
  simp only [Plane.project, Except.ok.injEq] at hq ⊢
  subst hq
  constructor
  · rw [List.map_map]
    refine List.map_congr_left fun p _ => ?_
    simp only [Function.comp]
    rw [hz p]; simp
  · intro q hq
    obtain ⟨p, -, rfl⟩ := List.mem_map.mp hq
    unfold Plane.distFrom
    rw [hz p, abs_zero]

/-! ## The box of a cylinder -/

/-- The rows of the box in terms of the orthonormal frame the code builds. -/
theorem bbox_frame {c : Cylinder} {box : List (V3 ℝ)} (h1 : norm3 c.axis = 1) (hb : c.bbox = .ok box) :
    ∃ u w : V3 ℝ, u.normSq = 1 ∧ w.normSq = 1 ∧ u.dot w = 0 ∧ u.dot c.axis = 0 ∧ w.dot c.axis = 0 ∧
      w = u.cross c.axis ∧
      box = [c.point + c.radius • (u + w) + (1 / 2 : ℝ) • (c.length • c.axis),
             c.point + c.radius • (u - w) + (1 / 2 : ℝ) • (c.length • c.axis),
             c.point + c.radius • (-u + w) + (1 / 2 : ℝ) • (c.length • c.axis),
             c.point + c.radius • (-u - w) + (1 / 2 : ℝ) • (c.length • c.axis),
             c.point + c.radius • (u + w) - (1 / 2 : ℝ) • (c.length • c.axis),
             c.point + c.radius • (u - w) - (1 / 2 : ℝ) • (c.length • c.axis),
             c.point + c.radius • (-u + w) - (1 / 2 : ℝ) • (c.length • c.axis),
             c.point + c.radius • (-u - w) - (1 / 2 : ℝ) • (c.length • c.axis)] := by
  unfold Cylinder.bbox unitOrNan at hb
  simp only [bind, Except.bind] at hb
  split at hb
  · cases hb
  rename_i o ho
  split at hb
  · cases hb
  rename_i v0 hv0
  split at hb
  · cases hb
  rename_i v1 hv1
  split_ifs at hv0 with h0
  injection hv0 with hv0
  split_ifs at hv1 with h01
  injection hv1 with hv1
  simp only [pure, Except.pure, Except.ok.injEq] at hb
  have hn0 : v0.normSq = 1 := by rw [← norm3_eq_one, ← hv0]; exact norm3_unit h0
  have hnz : c.axis.normSq = 1 := norm3_eq_one.mp h1
  have hdot : v0.dot c.axis = 0 := by
    rw [← hv0, dot_smul_left, dot_sub_left, dot_smul_left, dot_self, hnz]; ring
  have hcr : (v0.cross c.axis).normSq = 1 := by rw [normSq_cross, hn0, hnz, hdot]; norm_num
  have hv1' : v1 = v0.cross c.axis := by
    rw [← hv1, norm3_eq_one.mpr hcr]; simp
  refine ⟨v0, v1, hn0, by rw [hv1']; exact hcr, ?_, hdot, ?_, hv1', by rw [← hb]; rfl⟩
  · rw [hv1']; simp only [V3.dot, V3.cross]; ring
  · rw [hv1']; simp only [V3.dot, V3.cross]; ring

/-- **C135 (rows of the box).** The bounding box of a cylinder has eight rows, whose mean is the centre of the cylinder;
the first four differ from the last four by the axis times the length. -/
theorem C135_box_rows {c : Cylinder} {box : List (V3 ℝ)} (h1 : len c.axis = 1) (hb : c.bbox = .ok box) :
    box.length = 8 ∧ (1 / 8 : ℝ) • box.sum = c.point ∧
      ∀ i (h : i < 4) (hl : i < box.length) (hl' : i + 4 < box.length), box[i] - box[i + 4] = c.length • c.axis := by
  rw [len_eq] at h1
  obtain ⟨u, w, -, -, -, -, -, -, rfl⟩ := bbox_frame h1 hb
  refine ⟨rfl, ?_, ?_⟩
  · simp only [List.sum_cons, List.sum_nil]
    ext <;> simp <;> ring
  · intro i h _ _
    match i, h with
    | 0, _ => ext <;> simp <;> ring
    | 1, _ => ext <;> simp <;> ring
    | 2, _ => ext <;> simp <;> ring
    | 3, _ => ext <;> simp <;> ring

/-- **C135 (region of the box).** What the bounding box of a cylinder encloses: the points whose offset from the centre is
at most half the length along the axis and at most the radius along each of two perpendicular directions. -/
theorem C135_box_region {c : Cylinder} {box : List (V3 ℝ)} (h1 : len c.axis = 1) (hr : 0 < c.radius) (hl : 0 < c.length)
    (hb : c.bbox = .ok box) :
    ∃ u w : V3 ℝ, len u = 1 ∧ len w = 1 ∧ Perp u w ∧ Perp u c.axis ∧ Perp w c.axis ∧
      ∀ p, p ∈ Region box ↔ |(p - c.point).dot u| ≤ c.radius ∧ |(p - c.point).dot w| ≤ c.radius ∧
        |(p - c.point).dot c.axis| ≤ c.length / 2 := by
  rw [len_eq] at h1
  obtain ⟨u, w, hu, hw, huw, hua, hwa, hcr, rfl⟩ := bbox_frame h1 hb
  have ha : c.axis.normSq = 1 := norm3_eq_one.mp h1
  have hwu : w.dot u = 0 := by rw [dot_comm]; exact huw
  have hau : c.axis.dot u = 0 := by rw [dot_comm]; exact hua
  have haw : c.axis.dot w = 0 := by rw [dot_comm]; exact hwa
  refine ⟨u, w, by rw [len_eq, norm3_eq_one]; exact hu, by rw [len_eq, norm3_eq_one]; exact hw, huw, hua, hwa, fun p => ⟨fun hp => ?_, ?_⟩⟩
  · have key : ∀ (n : V3 ℝ) (k : ℝ), (∀ q ∈ [c.point + c.radius • (u + w) + (1 / 2 : ℝ) • (c.length • c.axis),
             c.point + c.radius • (u - w) + (1 / 2 : ℝ) • (c.length • c.axis),
             c.point + c.radius • (-u + w) + (1 / 2 : ℝ) • (c.length • c.axis),
             c.point + c.radius • (-u - w) + (1 / 2 : ℝ) • (c.length • c.axis),
             c.point + c.radius • (u + w) - (1 / 2 : ℝ) • (c.length • c.axis),
             c.point + c.radius • (u - w) - (1 / 2 : ℝ) • (c.length • c.axis),
             c.point + c.radius • (-u + w) - (1 / 2 : ℝ) • (c.length • c.axis),
             c.point + c.radius • (-u - w) - (1 / 2 : ℝ) • (c.length • c.axis)], |(q - c.point).dot n| ≤ k) →
          |(p - c.point).dot n| ≤ k := by
      intro n k hq
      rw [abs_le]
      constructor
      · have := region_le (c := k - c.point.dot n) (fun q => q.dot (-n))
          (fun p q a b => by rw [dot_add_left, dot_smul_left, dot_smul_left])
          (fun q hm => by
            have := (abs_le.mp (hq q hm)).1
            rw [dot_sub_left] at this
            rw [dot_neg_right]; linarith) hp
        simp only [dot_neg_right] at this
        rw [dot_sub_left]; linarith
      · have := region_le (c := k + c.point.dot n) (fun q => q.dot n)
          (fun p q a b => by rw [dot_add_left, dot_smul_left, dot_smul_left])
          (fun q hm => by
            have := (abs_le.mp (hq q hm)).2
            rw [dot_sub_left] at this
            linarith) hp
        rw [dot_sub_left]; linarith
    refine ⟨key u _ ?_, key w _ ?_, key c.axis _ ?_⟩
    all_goals
      simp only [List.forall_mem_cons, List.not_mem_nil, false_imp_iff, implies_true, and_true, dot_add_left,
        dot_sub_left, dot_neg_left, dot_smul_left, dot_self, hu, hw, ha, huw, hwu, hua, hwa, hau, haw]
      refine ⟨?_, ?_, ?_, ?_, ?_, ?_, ?_, ?_⟩ <;> (rw [abs_le]; constructor <;> linarith)
  · rintro ⟨hpu, hpw, hpa⟩
    have hdec := frame_decomp hu ha hua (p - c.point)
    rw [← hcr] at hdec
    have b0 : |(p - c.point).dot u / c.radius| ≤ 1 := by
      rw [abs_div, abs_of_pos hr, div_le_one hr]; exact hpu
    have b1 : |(p - c.point).dot w / c.radius| ≤ 1 := by
      rw [abs_div, abs_of_pos hr, div_le_one hr]; exact hpw
    have b2 : |(p - c.point).dot c.axis / (c.length / 2)| ≤ 1 := by
      rw [abs_div, abs_of_pos (by linarith : 0 < c.length / 2), div_le_one (by linarith)]; exact hpa
    have := parallelepiped_mem (region_convex
      [c.point + c.radius • (u + w) + (1 / 2 : ℝ) • (c.length • c.axis),
             c.point + c.radius • (u - w) + (1 / 2 : ℝ) • (c.length • c.axis),
             c.point + c.radius • (-u + w) + (1 / 2 : ℝ) • (c.length • c.axis),
             c.point + c.radius • (-u - w) + (1 / 2 : ℝ) • (c.length • c.axis),
             c.point + c.radius • (u + w) - (1 / 2 : ℝ) • (c.length • c.axis),
             c.point + c.radius • (u - w) - (1 / 2 : ℝ) • (c.length • c.axis),
             c.point + c.radius • (-u + w) - (1 / 2 : ℝ) • (c.length • c.axis),
             c.point + c.radius • (-u - w) - (1 / 2 : ℝ) • (c.length • c.axis)]) (c := c.point) (u := c.radius • u)
      (v := c.radius • w) (w := (c.length / 2) • c.axis) ?_ ?_ ?_ ?_ ?_ ?_ ?_ ?_ b0 b1 b2
    · have e : p = c.point + (p - c.point) := by abel
      rw [e, hdec]
      generalize (p - c.point).dot u = x at *
      generalize (p - c.point).dot w = y at *
      generalize (p - c.point).dot c.axis = z at *
      convert this using 1
      have hl : c.length ≠ 0 := hl.ne'
      have hr : c.radius ≠ 0 := hr.ne'
      ext <;> simp <;> field_simp <;> ring
    all_goals
      apply region_mem
      simp only [List.mem_cons, List.not_mem_nil, or_false]
    · left; ext <;> simp <;> ring
    · right; right; left; ext <;> simp <;> ring
    · right; left; ext <;> simp <;> ring
    · right; right; right; left; ext <;> simp <;> ring
    · right; right; right; right; left; ext <;> simp <;> ring
    · right; right; right; right; right; right; left; ext <;> simp <;> ring
    · right; right; right; right; right; left; ext <;> simp <;> ring
    · right; right; right; right; right; right; right; ext <;> simp <;> ring

/-- **C135 (the box is tight).** No face of the bounding box of a cylinder can be moved inwards: a half space whose
boundary is parallel to a face and which contains the cylinder contains the box. -/
theorem C135_box_tight {c : Cylinder} {box : List (V3 ℝ)} (h1 : len c.axis = 1) (hr : 0 < c.radius) (hl : 0 < c.length)
    (hb : c.bbox = .ok box) :
    ∃ u w : V3 ℝ, len u = 1 ∧ len w = 1 ∧ Perp u w ∧ Perp u c.axis ∧ Perp w c.axis ∧
      ∀ n ∈ [u, -u, w, -w, c.axis, -c.axis], ∀ k, (∀ p, Tube c.point c.axis c.radius (c.length / 2) p → p.dot n ≤ k) →
        ∀ p ∈ Region box, p.dot n ≤ k := by
  obtain ⟨u, w, hu, hw, huw, hua, hwa, hreg⟩ := C135_box_region h1 hr hl hb
  refine ⟨u, w, hu, hw, huw, hua, hwa, ?_⟩
  have ha : c.axis.normSq = 1 := by rw [len_eq] at h1; exact norm3_eq_one.mp h1
  -- the support of the tube in a direction across the axis
  have cross : ∀ n : V3 ℝ, n.normSq = 1 → n.dot c.axis = 0 → ∀ k,
      (∀ p, Tube c.point c.axis c.radius (c.length / 2) p → p.dot n ≤ k) → c.point.dot n + c.radius ≤ k := by
    intro n hn hna k hk
    by_contra hlt
    push Not at hlt
    obtain ⟨s, hs1, hs2⟩ := exists_between (max_lt (by linarith : k - c.point.dot n < c.radius) hr)
    have hs0 : 0 < s := lt_of_le_of_lt (le_max_right _ _) hs1
    have := hk (c.point + s • n) ⟨0, by rw [abs_zero]; linarith, ?_, ?_⟩
    · rw [dot_add_left, dot_smul_left, dot_self, hn] at this
      have := lt_of_le_of_lt (le_max_left _ _) hs1
      linarith
    · show (c.point + s • n - (c.point + (0 : ℝ) • c.axis)).dot c.axis = 0
      rw [show c.point + s • n - (c.point + (0 : ℝ) • c.axis) = s • n by rw [zero_smul]; abel, dot_smul_left, hna, mul_zero]
    · rw [dist_eq, show c.point + s • n - (c.point + (0 : ℝ) • c.axis) = s • n by rw [zero_smul]; abel, norm3_smul,
        norm3_eq_one.mpr hn, abs_of_pos hs0, mul_one]
      exact hs2
  have along : ∀ e : ℝ, e ^ 2 = 1 → ∀ k,
      (∀ p, Tube c.point c.axis c.radius (c.length / 2) p → p.dot (e • c.axis) ≤ k) →
        c.point.dot (e • c.axis) + c.length / 2 ≤ k := by
    intro e he k hk
    by_contra hlt
    push Not at hlt
    obtain ⟨s, hs1, hs2⟩ := exists_between (max_lt (by linarith : k - c.point.dot (e • c.axis) < c.length / 2) (by linarith : 0 < c.length / 2))
    have hs0 : 0 < s := lt_of_le_of_lt (le_max_right _ _) hs1
    have hee : |e| = 1 := by
      have : (e - 1) * (e + 1) = 0 := by linear_combination he
      rcases mul_eq_zero.mp this with h | h
      · rw [show e = 1 by linarith, abs_one]
      · rw [show e = -1 by linarith, abs_neg, abs_one]
    have := hk (c.point + (s * e) • c.axis) ⟨s * e, ?_, ?_, ?_⟩
    · rw [dot_add_left, dot_smul_left, dot_smul_right, dot_smul_right, dot_self, ha] at this
      have h2 := lt_of_le_of_lt (le_max_left _ _) hs1
      rw [dot_smul_right] at h2
      have : s * e * (e * 1) = s := by linear_combination s * he
      linarith
    · rw [abs_mul, hee, mul_one, abs_of_pos hs0]; exact hs2
    · show (c.point + (s * e) • c.axis - (c.point + (s * e) • c.axis)).dot c.axis = 0
      rw [sub_self]; simp [V3.dot]
    · rw [dist_eq, sub_self, (norm3_eq_zero _).mpr rfl]; exact hr
  rw [len_eq, norm3_eq_one] at hu hw
  have hua' : u.dot c.axis = 0 := hua
  have hwa' : w.dot c.axis = 0 := hwa
  have fin : ∀ (p n : V3 ℝ) (d k : ℝ), |(p - c.point).dot n| ≤ d → c.point.dot n + d ≤ k → p.dot n ≤ k := by
    intro p n d k h1 h2
    have := (abs_le.mp h1).2
    rw [dot_sub_left] at this
    linarith
  have neg : ∀ (p n : V3 ℝ) (d : ℝ), |(p - c.point).dot n| ≤ d → |(p - c.point).dot (-n)| ≤ d := by
    intro p n d h; rwa [dot_neg_right, abs_neg]
  have nn : ∀ n : V3 ℝ, (-n).normSq = n.normSq := fun n => by simp [V3.normSq, V3.dot]
  intro n hn k hk p hp
  obtain ⟨b1, b2, b3⟩ := (hreg p).mp hp
  simp only [List.mem_cons, List.not_mem_nil, or_false] at hn
  rcases hn with rfl | rfl | rfl | rfl | rfl | rfl
  · exact fin p _ _ k b1 (cross _ hu hua' k hk)
  · exact fin p _ _ k (neg p u _ b1) (cross _ (by rw [nn]; exact hu) (by rw [dot_neg_left, hua', neg_zero]) k hk)
  · exact fin p _ _ k b2 (cross _ hw hwa' k hk)
  · exact fin p _ _ k (neg p w _ b2) (cross _ (by rw [nn]; exact hw) (by rw [dot_neg_left, hwa', neg_zero]) k hk)
  · refine fin p _ _ k b3 ?_
    have := along 1 (by norm_num) k
    rw [one_smul] at this
    exact this hk
  · refine fin p _ _ k (neg p _ _ b3) ?_
    have := along (-1) (by norm_num) k
    rw [neg_smul, one_smul] at this
    exact this hk

/-- **C135 (the box under translations).** The bounding box of a translated cylinder is the translated box, row by row,
and a box exists after the translation exactly when one existed before. -/
theorem C135_box_translation (s : V3 ℝ) (l b : Bool) (c : Cylinder) :
    ∃ c', (Tr.translation s l b).alg (.cyl c) = (.cyl c', .ok ()) ∧
      c'.bbox = c.bbox.map (List.map fun p => (Tr.translation s l b).apply p) := by
  refine ⟨_, rfl, ?_⟩
  unfold Cylinder.bbox
  simp only [bind, Except.bind, pure, Except.pure]
  cases unitOrNan ⟨1, 1, 1⟩ with
  | error e => rfl
  | ok o =>
    simp only
    cases unitOrNan (o - o.dot c.axis • c.axis) with
    | error e => rfl
    | ok v0 =>
      simp only
      cases unitOrNan (v0.cross c.axis) with
      | error e => rfl
      | ok v1 =>
        simp only [Except.map, Except.ok.injEq, List.map_cons, List.map_nil, List.cons_append, List.nil_append, Tr.apply, List.cons.injEq, and_true]
        refine ⟨?_, ?_, ?_, ?_, ?_, ?_, ?_, ?_⟩ <;> abel

/-- **C135 (the box under motions, partial).** After any rigid motion the box of the moved cylinder, when there is one,
encloses the moved cylinder.  Missing: it is not the moved box (`C135_box_rotation_refuted`). -/
theorem C135_box_motion_partial {t : Tr ℝ} (ht : RigidMotion t) {c : Cylinder} (h1 : len c.axis = 1) (hr : 0 < c.radius)
    (hl : 0 < c.length) :
    ∃ c', t.alg (.cyl c) = (.cyl c', .ok ()) ∧ ∀ box, c'.bbox = .ok box →
      ∀ p, Tube c.point c.axis c.radius (c.length / 2) p → t.apply p ∈ Region box := by
  obtain ⟨L, hL, hsub, halg⟩ := rigid_cylinder ht
  have h1' := h1
  rw [len_eq] at h1'
  refine ⟨_, halg c h1', fun box hb p ⟨s, hs, hperp, hd⟩ => ?_⟩
  have hax : len (L.mulVec c.axis) = 1 := by rw [len_eq, orth_norm hL, h1']
  obtain ⟨u, w, hu, hw, huw, hua, hwa, hreg⟩ := C135_box_region (c := { c with point := t.apply c.point, axis := L.mulVec c.axis }) hax hr hl hb
  rw [hreg]
  simp only
  have e : t.apply p - t.apply c.point = L.mulVec (p - (c.point + s • c.axis)) + s • L.mulVec c.axis := by
    rw [hsub, ← M3.mulVec_smul, ← M3.mulVec_add]
    congr 1
    abel
  have hperp' : (p - (c.point + s • c.axis)).dot c.axis = 0 := hperp
  have hd' : norm3 (L.mulVec (p - (c.point + s • c.axis))) < c.radius := by rw [orth_norm hL, ← dist_eq]; exact hd
  have hua' : (L.mulVec c.axis).dot u = 0 := by rw [dot_comm]; exact hua
  have hwa' : (L.mulVec c.axis).dot w = 0 := by rw [dot_comm]; exact hwa
  rw [len_eq] at hu hw hax
  rw [e]
  refine ⟨?_, ?_, ?_⟩
  · rw [dot_add_left, dot_smul_left, hua', mul_zero, add_zero]
    have := abs_dot_le (L.mulVec (p - (c.point + s • c.axis))) u
    rw [hu, mul_one] at this
    linarith
  · rw [dot_add_left, dot_smul_left, hwa', mul_zero, add_zero]
    have := abs_dot_le (L.mulVec (p - (c.point + s • c.axis))) w
    rw [hw, mul_one] at this
    linarith
  · rw [dot_add_left, dot_smul_left, orth_dot hL, hperp', zero_add, dot_self, norm3_eq_one.mp hax, mul_one]
    exact hs.le

/-- **C135 (the box under rotations, refuted).** The box of a rotated cylinder is not the rotated box: the square around
the axis is fixed by the vector (1,1,1), which does not turn with the cylinder. -/
theorem C135_box_rotation_refuted : ¬ ∀ (t : Tr ℝ) (c c' : Cylinder) (box box' : List (V3 ℝ)), RigidMotion t → len c.axis = 1 →
    0 < c.radius → 0 < c.length → t.alg (.cyl c) = (.cyl c', .ok ()) → c.bbox = .ok box → c'.bbox = .ok box' →
    ∀ p ∈ box, t.apply p ∈ Region box' := by
  intro H
  let M : M3 ℝ := ⟨3 / 5, -(4 / 5), 0, 4 / 5, 3 / 5, 0, 0, 0, 1⟩
  have hM : Orthogonal M := by
    unfold Orthogonal
    ext <;> simp [M, M3.transpose, M3.mul_def, M3.one_def] <;> norm_num
  let c : Cylinder := ⟨⟨0, 0, 1⟩, 0, 1, 2, 1⟩
  have hax : norm3 c.axis = 1 := by rw [norm3_eq_one]; simp [c, V3.normSq, V3.dot]
  have hpar : ¬ Parallel c.axis ⟨1, 1, 1⟩ := by
    rintro (⟨k, hk⟩ | ⟨k, hk⟩)
    · have := congrArg V3.x hk; simp [c] at this
    · have h1 := congrArg V3.x hk; have h2 := congrArg V3.z hk; simp [c] at h1 h2; rw [← h1] at h2; norm_num at h2
  obtain ⟨box, hb⟩ := (C26_cylinder_box_iff c hax).mpr hpar
  have hc' : (Tr.matrix .general M none false false).alg (.cyl c) = (.cyl c, .ok ()) := by
    rw [Tr.alg]
    · have e1 : M.mulVec c.axis = c.axis := by ext <;> simp [M, c, M3.mulVec]
      rw [Tr.matAlg, e1, cyl_axisSet_unit hax]
      simp only [Tr.matApply]
      congr 2
      simp [c, M3.mulVec]
      rfl
    · simp
  have := H _ c c box box (.matrix M none false false hM) (by rw [len_eq]; exact hax) (by simp [c]) (by simp [c]) hc' hb hb
  obtain ⟨u, w, hu, hw, huw, hua, hwa, hcr, hbox⟩ := bbox_frame hax hb
  have hz : u.z = 0 := by simpa [c, V3.dot] using hua
  have hn : u.x * u.x + u.y * u.y = 1 := by simpa [V3.normSq, V3.dot, hz] using hu
  have hw' : w = ⟨u.y, -u.x, 0⟩ := by rw [hcr]; ext <;> simp [V3.cross, c]
  have hin := this (c.point + c.radius • (u + w) + (1 / 2 : ℝ) • (c.length • c.axis)) (by rw [hbox]; exact List.mem_cons_self)
  have hle := region_le (c := 1) (fun q => q.dot u) (fun p q a b => by rw [dot_add_left, dot_smul_left, dot_smul_left]) (by
    intro q hq
    rw [hbox, hw'] at hq
    simp only [List.mem_cons, List.not_mem_nil, or_false] at hq
    rcases hq with rfl | rfl | rfl | rfl | rfl | rfl | rfl | rfl <;> simp [V3.dot, c, hz] <;> nlinarith) hin
  rw [hw'] at hle
  simp [Tr.apply, Tr.matApply, M3.mulVec, M, V3.dot, c, hz] at hle
  nlinarith

/-! ## Concrete cases -/

/-- A cylinder along z of radius 1 and length 2 meets the hypotheses, and has a box. -/
example : len (⟨0, 0, 1⟩ : V3 ℝ) = 1 ∧ ∃ box, Cylinder.bbox ⟨⟨0, 0, 1⟩, ⟨3, -1, 2⟩, 1, 2, 1⟩ = .ok box ∧
    (1 / 8 : ℝ) • box.sum = ⟨3, -1, 2⟩ := by
  have h1 : len (⟨0, 0, 1⟩ : V3 ℝ) = 1 := by rw [len_eq, norm3_eq_one]; simp [V3.normSq, V3.dot]
  obtain ⟨box, hb⟩ := (C26_cylinder_box_iff ⟨⟨0, 0, 1⟩, ⟨3, -1, 2⟩, 1, 2, 1⟩ (by rw [← len_eq]; exact h1)).mpr (by
    rintro (⟨k, hk⟩ | ⟨k, hk⟩)
    · have := congrArg V3.x hk; simp at this
    · have h1 := congrArg V3.x hk; have h2 := congrArg V3.z hk; simp at h1 h2; rw [← h1] at h2; norm_num at h2)
  exact ⟨h1, box, hb, (C135_box_rows h1 hb).2.1⟩

/-- The plane z = 1 turned upside down about the origin: the point (5, 0, 3) stays at distance 2. -/
example : ∃ q : Plane, (Tr.mkInversion none false false).alg (.plane ⟨⟨0, 0, 1⟩, ⟨0, 0, 1⟩, 1⟩) = (.plane q, .ok ()) ∧
    q.distFrom ((Tr.mkInversion none false false).apply ⟨5, 0, 3⟩) = 2 := by
  have h1 : len (⟨0, 0, 1⟩ : V3 ℝ) = 1 := by rw [len_eq, norm3_eq_one]; simp [V3.normSq, V3.dot]
  obtain ⟨q, hq, -, -, hd, -⟩ := C135_plane_motion (.inversion none false false) ⟨⟨0, 0, 1⟩, ⟨0, 0, 1⟩, 1⟩ h1
  refine ⟨q, hq, ?_⟩
  rw [(hd ⟨5, 0, 3⟩).2]
  simp [Plane.distFrom, Plane.sdist, V3.dot]
  norm_num

/-- Its flipped copy. -/
example : ∃ q : Plane, (⟨⟨0, 0, 1⟩, ⟨0, 0, 1⟩, 1⟩ : Plane).flip = .ok q ∧ q.sdist ⟨5, 0, 3⟩ = -2 := by
  have h1 : len (⟨0, 0, 1⟩ : V3 ℝ) = 1 := by rw [len_eq, norm3_eq_one]; simp [V3.normSq, V3.dot]
  have hf : (⟨⟨0, 0, 1⟩, ⟨0, 0, 1⟩, 1⟩ : Plane).flip = .ok _ := flip_unit (by rw [← len_eq]; exact h1)
  refine ⟨_, hf, ?_⟩
  rw [((C135_flip h1 hf).1 ⟨5, 0, 3⟩).1]
  simp [Plane.sdist, V3.dot]
  norm_num

end
end CZ
