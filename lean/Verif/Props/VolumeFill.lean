import Verif.Props.Volume
import Verif.Props.Transform
import Mathlib.Data.List.Sort

/-!
# Properties C15, C17, C26: what fills a volume
-/

namespace CZ
open Spec

noncomputable section
open Classical

/-! ## Boxes -/

theorem segment_mem {S : Set (V3 ℝ)} (hS : Convex ℝ S) {c u : V3 ℝ} (h1 : c + u ∈ S) (h2 : c - u ∈ S) {s : ℝ} (hs : |s| ≤ 1) :
    c + s • u ∈ S := by
  have hs' := abs_le.mp hs
  have := hS h1 h2 (a := (1 + s) / 2) (b := (1 - s) / 2) (by linarith) (by linarith) (by ring)
  convert this using 1
  ext <;> simp <;> ring

/-- A convex set that contains the eight corners of a parallelepiped contains the parallelepiped. -/
theorem parallelepiped_mem {S : Set (V3 ℝ)} (hS : Convex ℝ S) {c u v w : V3 ℝ}
    (h1 : c + w + v + u ∈ S) (h2 : c + w + v - u ∈ S) (h3 : c + w - v + u ∈ S) (h4 : c + w - v - u ∈ S)
    (h5 : c - w + v + u ∈ S) (h6 : c - w + v - u ∈ S) (h7 : c - w - v + u ∈ S) (h8 : c - w - v - u ∈ S)
    {r s t : ℝ} (hr : |r| ≤ 1) (hs : |s| ≤ 1) (ht : |t| ≤ 1) : c + r • u + s • v + t • w ∈ S := by
  have e : ∀ a b d : V3 ℝ, a + b + d = a + d + b := fun a b d => by abel
  have e' : ∀ a b d : V3 ℝ, a - b + d = a + d - b := fun a b d => by abel
  have a1 := segment_mem hS h1 h2 hr
  have a2 := segment_mem hS h3 h4 hr
  have a3 := segment_mem hS h5 h6 hr
  have a4 := segment_mem hS h7 h8 hr
  have b1 : c + w + r • u + s • v ∈ S := segment_mem hS (by rw [e (c + w)]; exact a1) (by rw [← e' (c + w)]; exact a2) hs
  have b2 : c - w + r • u + s • v ∈ S := segment_mem hS (by rw [e (c - w)]; exact a3) (by rw [← e' (c - w)]; exact a4) hs
  refine segment_mem hS ?_ ?_ ht
  · convert b1 using 1; abel
  · convert b2 using 1; abel

theorem region_convex (ps : List (V3 ℝ)) : Convex ℝ (Region ps) := convex_convexHull ℝ _

theorem region_mem {ps : List (V3 ℝ)} {p : V3 ℝ} (h : p ∈ ps) : p ∈ Region ps := subset_convexHull ℝ _ h

/-! ## C26 -/

theorem smallest_mem (ss : List Sphere) : ∀ s, Vol.smallest s ss ∈ s :: ss := by
  induction ss with
  | nil => intro s; simp [Vol.smallest]
  | cons t ts ih =>
    intro s
    unfold Vol.smallest
    split
    · exact List.mem_cons_of_mem _ (ih t)
    · rcases List.mem_cons.mp (ih s) with h | h
      · rw [h]; exact List.mem_cons_self
      · exact List.mem_cons_of_mem _ (List.mem_cons_of_mem _ h)

theorem coord_le_dist (p q : V3 ℝ) : |p.x - q.x| ≤ Spec.dist p q ∧ |p.y - q.y| ≤ Spec.dist p q ∧ |p.z - q.z| ≤ Spec.dist p q := by
  unfold Spec.dist
  refine ⟨Real.abs_le_sqrt ?_, Real.abs_le_sqrt ?_, Real.abs_le_sqrt ?_⟩ <;> nlinarith [sq_nonneg (p.x - q.x), sq_nonneg (p.y - q.y),
    sq_nonneg (p.z - q.z)]

theorem ball_in_box (s : Sphere) (hr : 0 < s.radius) (p : V3 ℝ) (hp : Spec.dist p s.center ≤ s.radius) :
    p ∈ Region (Vol.sphereBox s) := by
  obtain ⟨h1, h2, h3⟩ := coord_le_dist p s.center
  have hS := region_convex (Vol.sphereBox s)
  have key : ∀ a b c : ℝ, (a = 0 ∨ a = 2 * s.radius) → (b = 0 ∨ b = 2 * s.radius) → (c = 0 ∨ c = 2 * s.radius) →
      (⟨a, b, c⟩ : V3 ℝ) + (s.center - (2 * s.radius / 2) • (⟨1, 1, 1⟩ : V3 ℝ)) ∈ Region (Vol.sphereBox s) := by
    intro a b c ha hb hc
    apply region_mem
    unfold Vol.sphereBox
    refine List.mem_map.mpr ⟨_, ?_, rfl⟩
    rcases ha with rfl | rfl <;> rcases hb with rfl | rfl <;> rcases hc with rfl | rfl <;> simp [Vol.rectPrism]
  have := parallelepiped_mem hS (c := s.center) (u := ⟨s.radius, 0, 0⟩) (v := ⟨0, s.radius, 0⟩) (w := ⟨0, 0, s.radius⟩)
    (r := (p.x - s.center.x) / s.radius) (s := (p.y - s.center.y) / s.radius) (t := (p.z - s.center.z) / s.radius)
    ?_ ?_ ?_ ?_ ?_ ?_ ?_ ?_ ?_ ?_ ?_
  · convert this using 1
    ext <;> simp [hr.ne']
  · convert key (2 * s.radius) (2 * s.radius) (2 * s.radius) (.inr rfl) (.inr rfl) (.inr rfl) using 1; ext <;> simp <;> ring
  · convert key 0 (2 * s.radius) (2 * s.radius) (.inl rfl) (.inr rfl) (.inr rfl) using 1; ext <;> simp <;> ring
  · convert key (2 * s.radius) 0 (2 * s.radius) (.inr rfl) (.inl rfl) (.inr rfl) using 1; ext <;> simp <;> ring
  · convert key 0 0 (2 * s.radius) (.inl rfl) (.inl rfl) (.inr rfl) using 1; ext <;> simp <;> ring
  · convert key (2 * s.radius) (2 * s.radius) 0 (.inr rfl) (.inr rfl) (.inl rfl) using 1; ext <;> simp <;> ring
  · convert key 0 (2 * s.radius) 0 (.inl rfl) (.inr rfl) (.inl rfl) using 1; ext <;> simp <;> ring
  · convert key (2 * s.radius) 0 0 (.inr rfl) (.inl rfl) (.inl rfl) using 1; ext <;> simp <;> ring
  · convert key 0 0 0 (.inl rfl) (.inl rfl) (.inl rfl) using 1; ext <;> simp <;> ring
  all_goals rw [abs_div, abs_of_pos hr, div_le_one hr]; linarith

theorem mem_spheres {v : Vol} {s : Sphere} : s ∈ v.spheres ↔ Alg.sphere s ∈ v.algs := by
  unfold Vol.spheres
  rw [List.mem_filterMap]
  constructor
  · rintro ⟨a, ha, h⟩
    cases a with
    | sphere t => simp only [Option.some.injEq] at h; subst h; exact ha
    | plane t => simp at h
    | cyl t => simp at h
  · intro h; exact ⟨_, h, rfl⟩

theorem mem_cylinders {v : Vol} {s : Cylinder} : s ∈ v.cylinders ↔ Alg.cyl s ∈ v.algs := by
  unfold Vol.cylinders
  rw [List.mem_filterMap]
  constructor
  · rintro ⟨a, ha, h⟩
    cases a with
    | cyl t => simp only [Option.some.injEq] at h; subst h; exact ha
    | plane t => simp at h
    | sphere t => simp at h
  · intro h; exact ⟨_, h, rfl⟩

theorem sphere_boundingBox {env : Env} {v : Vol} (hp : v.points = none) (hs : v.spheres ≠ []) :
    ∃ s ∈ v.spheres, v.boundingBox env = .ok (.rows (Vol.sphereBox s)) := by
  cases h : v.spheres with
  | nil => exact absurd h hs
  | cons s ss =>
    refine ⟨Vol.smallest s ss, smallest_mem ss s, ?_⟩
    unfold Vol.boundingBox
    rw [hp, h]

/-- **C26 (spheres).** For a Volume without points that is bounded by at least one sphere (and anything else), the bounding
box is an array of vertices and every point that belongs to all the spheres lies in their convex hull. -/
theorem C26_sphere_box (env : Env) (v : Vol) (hp : v.points = none) (hs : v.spheres ≠ [])
    (hr : ∀ s, Alg.sphere s ∈ v.algs → 0 < s.radius) :
    ∃ box, v.boundingBox env = .ok (.rows box) ∧
      ∀ p, (∀ s, Alg.sphere s ∈ v.algs → Spec.dist p s.center ≤ s.radius) → p ∈ Region box := by
  obtain ⟨s, hm, hb⟩ := sphere_boundingBox (env := env) hp hs
  rw [mem_spheres] at hm
  exact ⟨_, hb, fun p h => ball_in_box s (hr s hm) p (h s hm)⟩

/-- Concrete case: two overlapping balls. -/
example (env : Env) : ∃ box, Vol.boundingBox env ⟨none, none, none, [.sphere ⟨2, 0, 1⟩, .sphere ⟨1, ⟨2, 0, 0⟩, 1⟩], none, 0, 1, none, none⟩
    = .ok (.rows box) ∧ (⟨3 / 2, 0, 0⟩ : V3 ℝ) ∈ Region box := by
  obtain ⟨box, h, hb⟩ := C26_sphere_box env
    ⟨none, none, none, [.sphere ⟨2, 0, 1⟩, .sphere ⟨1, ⟨2, 0, 0⟩, 1⟩], none, 0, 1, none, none⟩ rfl (by simp [Vol.spheres]) (by
      intro s hs; simp at hs; rcases hs with rfl | rfl <;> norm_num)
  refine ⟨box, h, hb _ ?_⟩
  intro s hs
  simp at hs
  rcases hs with rfl | rfl
  · simp [Spec.dist, Real.sqrt_sq_eq_abs, abs_le]; norm_num
  · simp [Spec.dist, Real.sqrt_sq_eq_abs, abs_le]; norm_num

/-- Components along an orthonormal frame. -/
theorem frame_decomp {a b : V3 ℝ} (ha : a.normSq = 1) (hb : b.normSq = 1) (hab : a.dot b = 0) (d : V3 ℝ) :
    d = d.dot a • a + d.dot (a.cross b) • a.cross b + d.dot b • b := by
  have hc : (a.cross b).normSq = 1 := by rw [normSq_cross, ha, hb, hab]; norm_num
  have hac : a.dot (a.cross b) = 0 := by simp only [V3.dot, V3.cross]; ring
  have hbc : b.dot (a.cross b) = 0 := by simp only [V3.dot, V3.cross]; ring
  let M : M3 ℝ := ⟨a.x, a.y, a.z, (a.cross b).x, (a.cross b).y, (a.cross b).z, b.x, b.y, b.z⟩
  have hM : M * M.transpose = 1 := by
    rw [M3.one_def]
    simp only [V3.normSq, V3.dot] at ha hb hc hab hac hbc
    ext <;> simp only [M, M3.mul_def, M3.transpose] <;> linarith
  have hM' : M.transpose * M = 1 := orth_iff_right.mpr hM
  have : M.transpose.mulVec (M.mulVec d) = d := by rw [← M3.mulVec_mul, hM', M3.mulVec_one]
  rw [← this]
  conv_rhs => rw [this]
  ext <;> simp [M, M3.mulVec, M3.transpose, V3.dot] <;> ring

/-- **C26 (cylinders).** For a Volume bounded by a cylinder (no points, no spheres, at most three planes): if the box can
be computed, every point that belongs to all the cylinders lies in the convex hull of its vertices. -/
theorem C26_cylinder_box_partial (env : Env) (v : Vol) (hp : v.points = none) (hs : v.spheres = []) (hpl : v.planes.length ≤ 3)
    (hc : v.cylinders ≠ []) (hw : ∀ c, Alg.cyl c ∈ v.algs → norm3 c.axis = 1 ∧ 0 < c.radius ∧ 0 < c.length) :
    (∃ e, v.boundingBox env = .error e) ∨ ∃ box, v.boundingBox env = .ok (.rows box) ∧
      ∀ p, (∀ c, Alg.cyl c ∈ v.algs → Tube c.point c.axis c.radius (c.length / 2) p) → p ∈ Region box := by
  cases hcs : v.cylinders with
  | nil => exact absurd hcs hc
  | cons c cs =>
    have hm : Alg.cyl c ∈ v.algs := mem_cylinders.mp (by rw [hcs]; exact List.mem_cons_self)
    have hb : v.boundingBox env = c.bbox.map BBox.rows := by
      unfold Vol.boundingBox
      rw [hp, hs, hcs]
      simp [Nat.not_lt.mpr hpl]
    rw [hb]
    obtain ⟨h1, h2, h3⟩ := hw c hm
    cases hbb : c.bbox with
    | error e => exact Or.inl ⟨e, rfl⟩
    | ok box =>
      refine Or.inr ⟨box, rfl, fun p hall => ?_⟩
      obtain ⟨t, ht, hperp, hd⟩ := hall c hm
      -- the frame
      unfold Cylinder.bbox unitOrNan at hbb
      simp only [bind, Except.bind] at hbb
      split at hbb
      · cases hbb
      rename_i o ho
      split at hbb
      · cases hbb
      rename_i v0 hv0
      split at hbb
      · cases hbb
      rename_i v1 hv1
      split_ifs at ho
      injection ho with ho
      split_ifs at hv0 with h0
      injection hv0 with hv0
      split_ifs at hv1 with h01
      injection hv1 with hv1
      simp only [pure, Except.pure, Except.ok.injEq] at hbb
      have hn0 : v0.normSq = 1 := by rw [← norm3_eq_one, ← hv0]; exact norm3_unit h0
      have hnz : c.axis.normSq = 1 := norm3_eq_one.mp h1
      have hdot : v0.dot c.axis = 0 := by
        rw [← hv0, dot_smul_left, dot_sub_left, dot_smul_left, dot_self, hnz]; ring
      have hcr : (v0.cross c.axis).normSq = 1 := by rw [normSq_cross, hn0, hnz, hdot]; norm_num
      have hv1' : v1 = v0.cross c.axis := by
        rw [← hv1, norm3_eq_one.mpr hcr]; simp
      subst hv1'
      clear hv1 h01
      set d := p - (c.point + t • c.axis) with hdd
      have hdz : d.dot c.axis = 0 := hperp
      have hdn : norm3 d < c.radius := by rwa [dist_eq] at hd
      have hdec := frame_decomp hn0 hnz hdot d
      rw [hdz] at hdec
      have b0 : |d.dot v0 / c.radius| ≤ 1 := by
        rw [abs_div, abs_of_pos h2, div_le_one h2]
        have := abs_dot_le d v0
        rw [norm3_eq_one.mpr hn0] at this
        linarith
      have b1 : |d.dot (v0.cross c.axis) / c.radius| ≤ 1 := by
        rw [abs_div, abs_of_pos h2, div_le_one h2]
        have := abs_dot_le d (v0.cross c.axis)
        rw [norm3_eq_one.mpr hcr] at this
        linarith
      have b2 : |t / (c.length / 2)| ≤ 1 := by
        rw [abs_div, abs_of_pos (by linarith : 0 < c.length / 2), div_le_one (by linarith)]; exact ht.le
      have hS := region_convex box
      have hmem : ∀ q ∈ box, q ∈ Region box := fun q hq => region_mem hq
      have := parallelepiped_mem hS (c := c.point) (u := c.radius • v0) (v := c.radius • v0.cross c.axis)
        (w := (c.length / 2) • c.axis) ?_ ?_ ?_ ?_ ?_ ?_ ?_ ?_ b0 b1 b2
      · have e : p = c.point + t • c.axis + d := by rw [hdd]; abel
        rw [e, hdec]
        convert this using 1
        have hl : c.length ≠ 0 := h3.ne'
        have hr : c.radius ≠ 0 := h2.ne'
        ext <;> simp <;> field_simp <;> ring
      all_goals
        apply hmem
        rw [← hbb]
        simp only [List.map_cons, List.map_nil, List.cons_append, List.nil_append, List.mem_cons, List.not_mem_nil, or_false]
      · left; ext <;> simp <;> ring
      · right; right; left; ext <;> simp <;> ring
      · right; left; ext <;> simp <;> ring
      · right; right; right; left; ext <;> simp <;> ring
      · right; right; right; right; left; ext <;> simp <;> ring
      · right; right; right; right; right; right; left; ext <;> simp <;> ring
      · right; right; right; right; right; left; ext <;> simp <;> ring
      · right; right; right; right; right; right; right; ext <;> simp <;> ring

/-- **C26 (cylinders, success).** The box of a cylinder can be computed iff its axis is not along the space diagonal. -/
theorem C26_cylinder_box_iff (c : Cylinder) (h : norm3 c.axis = 1) :
    (∃ box, c.bbox = .ok box) ↔ ¬ Parallel c.axis ⟨1, 1, 1⟩ := by
  have h111 : norm3 (⟨1, 1, 1⟩ : V3 ℝ) ≠ 0 := by
    rw [Ne, norm3_eq_zero]; intro h; have := congrArg V3.x h; norm_num at this
  have hnz : c.axis.normSq = 1 := norm3_eq_one.mp h
  set n := norm3 (⟨1, 1, 1⟩ : V3 ℝ) with hn
  have hzero : norm3 (n⁻¹ • (⟨1, 1, 1⟩ : V3 ℝ) - (n⁻¹ • (⟨1, 1, 1⟩ : V3 ℝ)).dot c.axis • c.axis) = 0 ↔ Parallel c.axis ⟨1, 1, 1⟩ := by
    rw [norm3_eq_zero, sub_eq_zero, dot_smul_left, mul_smul]
    constructor
    · intro he
      refine Or.inl ⟨(⟨1, 1, 1⟩ : V3 ℝ).dot c.axis, ?_⟩
      have := congrArg (fun v => n • v) he
      simpa [smul_smul, h111] using this
    · rintro (⟨k, hk⟩ | ⟨k, hk⟩)
      · rw [hk, dot_smul_left, dot_self, hnz, mul_one]
      · have hk0 : k ≠ 0 := by
          rintro rfl; rw [hk] at hnz; simp [V3.normSq, V3.dot] at hnz
        have h3 : k * k * 3 = 1 := by rw [hk] at hnz; simp [V3.normSq, V3.dot] at hnz; linarith
        rw [hk]
        congr 1
        ext <;> simp [V3.dot] <;> linarith
  constructor
  · rintro ⟨box, hb⟩ hpar
    unfold Cylinder.bbox unitOrNan at hb
    simp only [← hn, h111, if_false, bind, Except.bind] at hb
    rw [if_pos (hzero.mpr hpar)] at hb
    cases hb
  · intro hpar
    have h0 := mt hzero.mp hpar
    unfold Cylinder.bbox unitOrNan
    simp only [← hn, h111, if_false, bind, Except.bind, h0]
    set w := n⁻¹ • (⟨1, 1, 1⟩ : V3 ℝ) - (n⁻¹ • (⟨1, 1, 1⟩ : V3 ℝ)).dot c.axis • c.axis with hw
    have hdot : ((norm3 w)⁻¹ • w).dot c.axis = 0 := by
      rw [dot_smul_left, hw, dot_sub_left, dot_smul_left _ c.axis c.axis, dot_self, hnz]; ring
    have hcr : norm3 (((norm3 w)⁻¹ • w).cross c.axis) = 1 := by
      rw [norm3_eq_one, normSq_cross, norm3_eq_one.mp (norm3_unit h0), hnz, hdot]; norm_num
    rw [hcr]
    simp only [one_ne_zero, if_false]
    exact ⟨_, rfl⟩

/-- **C26, finding.** A Volume bounded by a cylinder along (1,1,1) has no bounding box (all coordinates are NaN). -/
theorem C26_diagonal_cylinder_refuted (env : Env) :
    ∃ (c : Cylinder) (v : Vol), Cylinder.make ⟨1, 1, 1⟩ 0 1 1 (1 / 10 ^ 5) = .ok c ∧ v.algs = [.cyl c] ∧ v.points = none ∧
      v.boundingBox env = .error .nan := by
  have h3 : (⟨1, 1, 1⟩ : V3 ℝ).normSq = 3 := by simp [V3.normSq, V3.dot]; norm_num
  have hlen : 1 ≤ norm3 (⟨1, 1, 1⟩ : V3 ℝ) := by rw [norm3, h3]; exact Real.one_le_sqrt.mpr (by norm_num)
  have hne : norm3 (⟨1, 1, 1⟩ : V3 ℝ) ≠ 0 := by linarith
  have he := machEps_lt_one
  have hmake : Cylinder.make ⟨1, 1, 1⟩ 0 1 1 (1 / 10 ^ 5) =
      .ok ⟨(norm3 (⟨1, 1, 1⟩ : V3 ℝ))⁻¹ • ⟨1, 1, 1⟩, 0, 1, 1, 1 / 10 ^ 5⟩ := by
    have e1 : norm3 (⟨1, 1, 1⟩ : V3 ℝ) > machEps := by linarith
    simp [Cylinder.make, Cylinder.axisSet, Cylinder.sizeSet, tolSet, not_le.mpr e1, not_lt.mpr he.le, bind, Except.bind, pure,
      Except.pure]
  refine ⟨_, ⟨none, none, none, [.cyl _], none, 0, 1, none, none⟩, hmake, rfl, rfl, ?_⟩
  have hunit := norm3_unit hne
  have := mt (C26_cylinder_box_iff ⟨(norm3 (⟨1, 1, 1⟩ : V3 ℝ))⁻¹ • ⟨1, 1, 1⟩, 0, 1, 1, 1 / 10 ^ 5⟩ hunit).mp
    (not_not.mpr (Or.inl ⟨norm3 (⟨1, 1, 1⟩ : V3 ℝ), by simp [smul_smul, hne]⟩))
  have herr : ∀ c : Cylinder, (¬ ∃ box, c.bbox = .ok box) → c.bbox = .error .nan := by
    have hu : ∀ v e, unitOrNan v = .error e → e = .nan := by
      intro v e h
      unfold unitOrNan at h
      split_ifs at h
      injection h with h
      exact h.symm
    intro c hc
    cases hb : c.bbox with
    | ok box => exact absurd ⟨box, hb⟩ hc
    | error e =>
      congr 1
      unfold Cylinder.bbox at hb
      simp only [bind, Except.bind, pure, Except.pure] at hb
      split at hb
      · rename_i h; injection hb with hb; subst hb; exact hu _ _ h
      · split at hb
        · rename_i h; injection hb with hb; subst hb; exact hu _ _ h
        · split at hb
          · rename_i h; injection hb with hb; subst hb; exact hu _ _ h
          · cases hb
  simp only [Vol.boundingBox, Vol.spheres, Vol.planes, Vol.cylinders, List.filterMap_cons, List.filterMap_nil]
  rw [herr _ this]
  simp [Except.map]

/-- Concrete case: a cylinder along z. -/
example : ∃ box, Cylinder.bbox ⟨⟨0, 0, 1⟩, 0, 1, 2, 1⟩ = .ok box := by
  refine (C26_cylinder_box_iff _ ?_).mpr ?_
  · rw [norm3_eq_one]; simp [V3.normSq, V3.dot]
  · rintro (⟨k, hk⟩ | ⟨k, hk⟩)
    · have := congrArg V3.x hk; simp at this
    · have h1 := congrArg V3.x hk; have h2 := congrArg V3.z hk; simp at h1 h2; rw [← h1] at h2; norm_num at h2

/-! ## C15 -/

/-- A site in the region of the box belongs to a cell of the extents, if its fractional coordinates are near the cell. -/
theorem cell_mem {x : Voxel ℝ} {box : List (V3 ℝ)} {lo hi : V3 ℤ} (he : x.getExtents box = .ok (lo, hi)) {n : V3 ℤ} {f : V3 ℝ}
    (hf : (-1 < f.x ∧ f.x < 1) ∧ (-1 < f.y ∧ f.y < 1) ∧ (-1 < f.z ∧ f.z < 1))
    (hin : siteAt x.sbases x.origin n f ∈ Region box) : n ∈ Gen.cells lo hi := by
  have hblk := C28_extents_cover x box lo hi he _ hin _ rfl
  have key : ∀ {l u m : ℤ} {x : ℝ}, (l : ℝ) ≤ (m : ℝ) + x → (m : ℝ) + x ≤ u → -1 < x → x < 1 → l ≤ m ∧ m ≤ u := by
    intro l u m x h1 h2 h3 h4
    constructor
    · have : (l : ℝ) < ((m + 1 : ℤ) : ℝ) := by push_cast; linarith
      have := Int.cast_lt.mp this; omega
    · have : (m : ℝ) < ((u + 1 : ℤ) : ℝ) := by push_cast; linarith
      have := Int.cast_lt.mp this; omega
  obtain ⟨h1, h2, h3⟩ := hf
  rw [Gen.mem_cells]
  exact ⟨key hblk.1.1 hblk.1.2 h1.1 h1.2, key hblk.2.1.1 hblk.2.1.2 h2.1 h2.2, key hblk.2.2.1 hblk.2.2.2 h3.1 h3.2⟩

theorem maskSel_map_map {α β : Type} (b : α → Bool) (h : α → β) (L : List α) :
    maskSel (L.map b) (L.map h) = (L.filter b).map h := by
  induction L with
  | nil => rfl
  | cons a L ih =>
    simp only [List.map_cons, maskSel_cons, List.filter_cons, ih]
    cases b a <;> simp

/-- The atoms of cell `n` that are inside. -/
def inCell (inside : V3 ℝ → Bool) (x : Voxel ℝ) (sites : List (V3 ℝ × ℤ)) (n : V3 ℤ) : List (Atom ℝ) :=
  (sites.map fun f => (⟨siteAt x.sbases x.origin n f.1, f.2⟩ : Atom ℝ)).filter fun a => inside a.pos

/-- What populate_atoms leaves in a Volume filled by a plain crystal. -/
theorem populate_crystal {env : Env} {v : Vol} {c : Gen ℝ} {x : Voxel ℝ} {sites : List (V3 ℝ × ℤ)} {box : List (V3 ℝ)}
    (hb : v.boundingBox env = .ok (.rows box)) (hg : v.gen = some (.crystal c)) (hP : Gen.Plain c x sites)
    {lo hi : V3 ℤ} (he : x.getExtents box = .ok (lo, hi)) (n : ℕ) :
    v.populate env n = ({ v with
      atoms := some (((Gen.cells lo hi).flatMap (inCell (v.interior env) x sites)).map Atom.pos)
      species := some (((Gen.cells lo hi).flatMap (inCell (v.interior env) x sites)).map Atom.Z) }, .ok ()) := by
  have hs : GenObj.supply env n (.crystal c) (.rows box) = (.crystal c, .ok
      (((Gen.cells lo hi).flatMap fun n => sites.map fun f => (⟨siteAt x.sbases x.origin n f.1, f.2⟩ : Atom ℝ)).map Atom.pos,
       ((Gen.cells lo hi).flatMap fun n => sites.map fun f => (⟨siteAt x.sbases x.origin n f.1, f.2⟩ : Atom ℝ)).map Atom.Z)) := by
    simp only [GenObj.supply, hP.1, Gen.supply_plain hP, Gen.rawAtoms_eq _ _ _ _ _ he, Except.map]
  rw [Vol.populate_ok hb hg hs (by simp)]
  rw [List.map_map, maskSel_map_map, maskSel_map_map]
  have : ((Gen.cells lo hi).flatMap fun n => sites.map fun f => (⟨siteAt x.sbases x.origin n f.1, f.2⟩ : Atom ℝ)).filter
      (v.interior env ∘ Atom.pos) = (Gen.cells lo hi).flatMap (inCell (v.interior env) x sites) := by
    rw [List.filter_flatMap]; rfl
  rw [this, ← hg]

theorem mem_inCell {inside : V3 ℝ → Bool} {x : Voxel ℝ} {sites : List (V3 ℝ × ℤ)} {n : V3 ℤ} {a : Atom ℝ} :
    a ∈ inCell inside x sites n ↔ (∃ f ∈ sites, a = ⟨siteAt x.sbases x.origin n f.1, f.2⟩) ∧ inside a.pos = true := by
  unfold inCell
  rw [List.mem_filter, List.mem_map]
  constructor
  · rintro ⟨⟨f, hf, rfl⟩, h⟩; exact ⟨⟨f, hf, rfl⟩, h⟩
  · rintro ⟨⟨f, hf, rfl⟩, h⟩; exact ⟨⟨f, hf, rfl⟩, h⟩

/-- Whenever the box encloses a crystal site that is inside the Volume, the site is among the atoms. -/
theorem no_site_missed {env : Env} {v : Vol} {c : Gen ℝ} {x : Voxel ℝ} {sites : List (V3 ℝ × ℤ)} {box : List (V3 ℝ)}
    (hb : v.boundingBox env = .ok (.rows box)) (hbox : box ≠ []) (hg : v.gen = some (.crystal c)) (hP : Gen.Plain c x sites)
    (hd : x.sbases.det ≠ 0) (hs : FracNearCell sites) (n : ℕ) :
    ∃ v' ps zs, v.populate env n = (v', .ok ()) ∧ v'.atoms = some ps ∧ v'.species = some zs ∧
      ∀ a ∈ Crystal x.sbases x.origin sites, a.1 ∈ Region box → Inside env (.vol v) a.1 → a ∈ ps.zip zs := by
  obtain ⟨⟨lo, hi⟩, he⟩ := Voxel.getExtents_ok hd hbox
  refine ⟨_, _, _, populate_crystal hb hg hP he n, rfl, rfl, ?_⟩
  rintro _ ⟨m, f, hf, rfl⟩ hin hI
  rw [List.zip_map']
  refine List.mem_map.mpr ⟨⟨siteAt x.sbases x.origin m f.1, f.2⟩, ?_, rfl⟩
  rw [List.mem_flatMap]
  exact ⟨m, cell_mem he (hs f hf) hin, mem_inCell.mpr ⟨⟨f, hf, rfl⟩, (Vol.interior_iff env v _).mpr hI⟩⟩

/-- **C15 (hull, partial).** A Volume given by hull points (and any further algebraic objects) and filled by an unstrained
crystal whose basis atoms have fractional coordinates strictly between -1 and 1: after populate_atoms, every site of the
infinite crystal lying in the convex hull of the points and in all algebraic objects is an atom of the volume.  Missing
from C15: basis atoms given outside that range (`C15_missed_site_refuted`). -/
theorem C15_hull_partial (env : Env) (henv : ExactHull env) (v : Vol) (ps : List (V3 ℝ)) (hp : v.points = some (.arr ps))
    (ht : v.tri = some ps) (htol : 0 ≤ v.tol) (hne : ps ≠ []) (c : Gen ℝ) (x : Voxel ℝ) (sites : List (V3 ℝ × ℤ))
    (hg : v.gen = some (.crystal c)) (hP : Gen.Plain c x sites) (hd : x.sbases.det ≠ 0) (hs : FracNearCell sites) (n : ℕ) :
    ∃ v' as zs, v.populate env n = (v', .ok ()) ∧ v'.atoms = some as ∧ v'.species = some zs ∧
      ∀ a ∈ Crystal x.sbases x.origin sites, a.1 ∈ Region ps → (∀ b ∈ v.algs, b.interior a.1 = true) → a ∈ as.zip zs := by
  have hb : v.boundingBox env = .ok (.rows ps) := by unfold Vol.boundingBox; rw [hp]
  obtain ⟨v', as, zs, h1, h2, h3, h4⟩ := no_site_missed hb hne hg hP hd hs n
  refine ⟨v', as, zs, h1, h2, h3, fun a ha hr hal => h4 a ha hr (.vol _ _ ?_ hal)⟩
  intro t htt
  rw [ht] at htt
  injection htt with htt
  subst htt
  exact henv.mem _ _ _ htol hr

/-- **C15 (sphere, partial).** The same for Volumes without points that are bounded by spheres (and any other algebraic
objects): every crystal site in all balls and all other objects is an atom of the volume. -/
theorem C15_sphere_partial (env : Env) (v : Vol) (hp : v.points = none) (ht : v.tri = none) (hsp : v.spheres ≠ [])
    (hr : ∀ s, Alg.sphere s ∈ v.algs → 0 < s.radius) (c : Gen ℝ) (x : Voxel ℝ) (sites : List (V3 ℝ × ℤ))
    (hg : v.gen = some (.crystal c)) (hP : Gen.Plain c x sites) (hd : x.sbases.det ≠ 0) (hs : FracNearCell sites) (n : ℕ) :
    ∃ v' as zs, v.populate env n = (v', .ok ()) ∧ v'.atoms = some as ∧ v'.species = some zs ∧
      ∀ a ∈ Crystal x.sbases x.origin sites, (∀ s, Alg.sphere s ∈ v.algs → Spec.dist a.1 s.center ≤ s.radius) →
        (∀ b ∈ v.algs, b.interior a.1 = true) → a ∈ as.zip zs := by
  obtain ⟨s, hm, hb⟩ := sphere_boundingBox (env := env) hp hsp
  have hm' := mem_spheres.mp hm
  obtain ⟨v', as, zs, h1, h2, h3, h4⟩ := no_site_missed hb (by simp [Vol.sphereBox, Vol.rectPrism]) hg hP hd hs n
  refine ⟨v', as, zs, h1, h2, h3, fun a ha hball hal => h4 a ha (ball_in_box s (hr s hm') _ (hball s hm')) (.vol _ _ ?_ hal)⟩
  intro t htt
  rw [ht] at htt
  cases htt

theorem crystal_one (f : V3 ℝ) (n : V3 ℤ) : siteAt (1 : M3 ℝ) 0 n f = ⟨n.x + f.x, n.y + f.y, n.z + f.z⟩ := by
  rw [M3.one_def]
  ext <;> simp [siteAt, cart, M3.col0, M3.col1, M3.col2]

/-- Concrete case: the hypotheses of `C15_sphere_partial` hold for a ball filled by a two-atom crystal, with sites in it. -/
example (env : Env) (n : ℕ) : ∃ v' as zs, Vol.populate env n
    ⟨none, none, none, [.sphere ⟨2, 0, 1 / 10⟩], some (.crystal ⟨some ⟨1, [(0, 11), (⟨1 / 2, 1 / 2, 1 / 2⟩, 17)]⟩,
      some ⟨1, .scalar 1, 0⟩, none, none⟩), 0, 1, none, none⟩ = (v', .ok ()) ∧ v'.atoms = some as ∧ v'.species = some zs ∧
    ((⟨1, 0, 0⟩, 11) : V3 ℝ × ℤ) ∈ as.zip zs := by
  have hsb : (⟨1, .scalar 1, 0⟩ : Voxel ℝ).sbases = 1 := by
    rw [M3.one_def]; ext <;> simp [Voxel.sbases, M3.smul_def]
  obtain ⟨v', as, zs, h1, h2, h3, h4⟩ := C15_sphere_partial env
    ⟨none, none, none, [.sphere ⟨2, 0, 1 / 10⟩], some (.crystal ⟨some ⟨1, [(0, 11), (⟨1 / 2, 1 / 2, 1 / 2⟩, 17)]⟩,
      some ⟨1, .scalar 1, 0⟩, none, none⟩), 0, 1, none, none⟩ rfl rfl (by simp [Vol.spheres])
    (by intro s hs; simp at hs; subst hs; norm_num) _ ⟨1, .scalar 1, 0⟩ _ rfl ⟨rfl, ⟨1, rfl⟩, rfl, rfl⟩
    (by rw [hsb, M3.det_one]; norm_num)
    (by
      intro f hf
      simp only [List.mem_cons, List.not_mem_nil, or_false] at hf
      rcases hf with rfl | rfl <;> norm_num) n
  refine ⟨v', as, zs, h1, h2, h3, h4 _ ⟨⟨1, 0, 0⟩, (0, 11), by simp, ?_⟩ ?_ ?_⟩
  · rw [hsb]
    ext1
    · simp only; rw [crystal_one 0]; ext <;> simp
    · rfl
  · intro s hs
    simp at hs
    subst hs
    simp [Spec.dist]
  · intro b hb
    simp at hb
    subst hb
    simp [Alg.interior, Sphere.interior, V3.normSq, V3.dot]
    norm_num

/-! ## C17 -/

theorem flatMap_nonempty {α β : Type} (g : α → List β) (l : List α) :
    l.flatMap g = (l.filter fun n => decide (g n ≠ [])).flatMap g := by
  induction l with
  | nil => rfl
  | cons a l ih =>
    simp only [List.flatMap_cons, List.filter_cons]
    by_cases h : g a = []
    · simp [h, ih]
    · simp [h, ih]

/-- Order of the cells in `itertools.product`. -/
def cellLt (a b : V3 ℤ) : Prop := a.x < b.x ∨ (a.x = b.x ∧ (a.y < b.y ∨ (a.y = b.y ∧ a.z < b.z)))

theorem irange_sorted (a b : ℤ) : (Gen.irange a b).Pairwise (· < ·) := by
  unfold Gen.irange
  rw [List.pairwise_map]
  refine List.pairwise_lt_range.imp ?_
  intro i j h
  omega

theorem cells_sorted (lo hi : V3 ℤ) : (Gen.cells lo hi).Pairwise cellLt := by
  unfold Gen.cells
  rw [List.pairwise_flatMap]
  refine ⟨fun i _ => ?_, ?_⟩
  · rw [List.pairwise_flatMap]
    refine ⟨fun j _ => ?_, ?_⟩
    · rw [List.pairwise_map]
      exact (irange_sorted _ _).imp fun h => Or.inr ⟨rfl, Or.inr ⟨rfl, h⟩⟩
    · refine (irange_sorted _ _).imp ?_
      intro j j' h x hx y hy
      obtain ⟨k, -, rfl⟩ := List.mem_map.mp hx
      obtain ⟨k', -, rfl⟩ := List.mem_map.mp hy
      exact Or.inr ⟨rfl, Or.inl h⟩
  · refine (irange_sorted _ _).imp ?_
    intro i i' h x hx y hy
    obtain ⟨j, -, hx⟩ := List.mem_flatMap.mp hx
    obtain ⟨k, -, rfl⟩ := List.mem_map.mp hx
    obtain ⟨j', -, hy⟩ := List.mem_flatMap.mp hy
    obtain ⟨k', -, rfl⟩ := List.mem_map.mp hy
    exact Or.inl h

/-- Two blocks of cells that both contain all cells with atoms give the same atoms in the same order. -/
theorem flatMap_cells {β : Type} (g : V3 ℤ → List β) (lo hi lo' hi' : V3 ℤ)
    (h1 : ∀ n, g n ≠ [] → n ∈ Gen.cells lo hi) (h2 : ∀ n, g n ≠ [] → n ∈ Gen.cells lo' hi') :
    (Gen.cells lo hi).flatMap g = (Gen.cells lo' hi').flatMap g := by
  rw [flatMap_nonempty, flatMap_nonempty g (Gen.cells lo' hi')]
  congr 1
  refine List.Perm.eq_of_pairwise (le := cellLt) ?_ ((cells_sorted lo hi).filter _) ((cells_sorted lo' hi').filter _) ?_
  · intro a b _ _ hab hba
    unfold cellLt at hab hba
    exfalso
    omega
  · rw [List.perm_ext_iff_of_nodup ((Gen.nodup_cells lo hi).filter _) ((Gen.nodup_cells lo' hi').filter _)]
    intro n
    simp only [List.mem_filter, decide_eq_true_eq]
    constructor
    · rintro ⟨-, h⟩; exact ⟨h2 n h, h⟩
    · rintro ⟨-, h⟩; exact ⟨h1 n h, h⟩

theorem alg_rigid_sphere {t : Tr ℝ} (ht : RigidMotion t) :
    (∀ s, t.alg (.sphere s) = (.sphere { s with center := t.apply s.center }, .ok ())) ∧
    (∀ p a r, t.alg (.plane p) = (a, r) → ∃ q, a = .plane q) ∧ ∀ c a r, t.alg (.cyl c) = (a, r) → ∃ q, a = .cyl q := by
  refine RigidMotion.induct (P := fun t =>
    (∀ s, t.alg (.sphere s) = (.sphere { s with center := t.apply s.center }, .ok ())) ∧
    (∀ p a r, t.alg (.plane p) = (a, r) → ∃ q, a = .plane q) ∧ ∀ c a r, t.alg (.cyl c) = (a, r) → ∃ q, a = .cyl q)
    ?_ ?_ ?_ ht
  · intro s l b
    refine ⟨fun s => by simp only [Tr.alg, Tr.apply], ?_, ?_⟩
    · intro p a r h; simp only [Tr.alg, Prod.mk.injEq] at h; exact ⟨_, h.1.symm⟩
    · intro p a r h; simp only [Tr.alg, Prod.mk.injEq] at h; exact ⟨_, h.1.symm⟩
  · intro k M o l b _ hk
    have e : ∀ a, Tr.alg (.matrix k M o l b) a = Tr.matAlg M o a := by
      intro a
      cases k with
      | reflection => exact absurd rfl hk
      | _ => rw [Tr.alg]; simp
    refine ⟨fun s => by rw [e]; simp only [Tr.matAlg, Tr.apply], ?_, ?_⟩
    · intro p a r h
      rw [e, Tr.matAlg] at h
      split at h <;> (simp only [Prod.mk.injEq] at h; exact ⟨_, h.1.symm⟩)
    · intro p a r h
      rw [e, Tr.matAlg] at h
      split at h <;> (simp only [Prod.mk.injEq] at h; exact ⟨_, h.1.symm⟩)
  · intro ts hts ih
    clear hts
    simp only [Tr.alg, Tr.apply]
    induction ts with
    | nil =>
      refine ⟨fun s => by simp only [Tr.algList, Tr.applyList], ?_, ?_⟩
      · intro p a r h; simp only [Tr.algList, Prod.mk.injEq] at h; exact ⟨_, h.1.symm⟩
      · intro p a r h; simp only [Tr.algList, Prod.mk.injEq] at h; exact ⟨_, h.1.symm⟩
    | cons t ts ihl =>
      obtain ⟨i1, i2, i3⟩ := ih t List.mem_cons_self
      obtain ⟨j1, j2, j3⟩ := ihl fun u hu => ih u (List.mem_cons_of_mem _ hu)
      refine ⟨fun s => ?_, ?_, ?_⟩
      · rw [Tr.algList, i1]; simp only [j1, Tr.applyList]
      · intro p a r h
        rw [Tr.algList] at h
        rcases hp : t.alg (.plane p) with ⟨a', r'⟩
        obtain ⟨q, rfl⟩ := i2 p a' r' hp
        rw [hp] at h
        cases r' with
        | ok u => exact j2 q a r h
        | error e => simp only [Prod.mk.injEq] at h; exact ⟨q, h.1.symm⟩
      · intro p a r h
        rw [Tr.algList] at h
        rcases hp : t.alg (.cyl p) with ⟨a', r'⟩
        obtain ⟨q, rfl⟩ := i3 p a' r' hp
        rw [hp] at h
        cases r' with
        | ok u => exact j3 q a r h
        | error e => simp only [Prod.mk.injEq] at h; exact ⟨q, h.1.symm⟩

/-- The spheres after a rigid motion are the moved spheres. -/
theorem transformAlgs_spheres {t : Tr ℝ} (ht : RigidMotion t) : ∀ (as bs : List Alg), Vol.transformAlgs t as = (bs, .ok ()) →
    ∀ s, Alg.sphere s ∈ bs ↔ ∃ s0, Alg.sphere s0 ∈ as ∧ s = { s0 with center := t.apply s0.center } := by
  obtain ⟨h1, h2, h3⟩ := alg_rigid_sphere ht
  intro as
  induction as with
  | nil => intro bs h s; simp only [Vol.transformAlgs, Prod.mk.injEq] at h; obtain ⟨rfl, -⟩ := h; simp
  | cons a as ih =>
    intro bs h s
    rw [Vol.transformAlgs] at h
    rcases ha : t.alg a with ⟨a', r⟩
    rw [ha] at h
    cases r with
    | error e => simp at h
    | ok u =>
      rcases hr : Vol.transformAlgs t as with ⟨bs', r'⟩
      rw [hr] at h
      simp only [Prod.mk.injEq] at h
      obtain ⟨rfl, rfl⟩ := h
      rw [List.mem_cons, ih bs' hr]
      cases a with
      | sphere s0 =>
        rw [h1] at ha
        simp only [Prod.mk.injEq] at ha
        obtain ⟨rfl, -⟩ := ha
        constructor
        · rintro (h | ⟨s1, h, rfl⟩)
          · injection h with h; exact ⟨s0, List.mem_cons_self, h⟩
          · exact ⟨s1, List.mem_cons_of_mem _ h, rfl⟩
        · rintro ⟨s1, h, rfl⟩
          rcases List.mem_cons.mp h with h | h
          · injection h with h; subst h; exact Or.inl rfl
          · exact Or.inr ⟨s1, h, rfl⟩
      | plane p =>
        obtain ⟨q, rfl⟩ := h2 p a' _ ha
        simp
      | cyl p =>
        obtain ⟨q, rfl⟩ := h3 p a' _ ha
        simp

theorem siteAt_affine {B : M3 ℝ} {o : V3 ℝ} {t : Tr ℝ} {L : M3 ℝ} (hL : ∀ p q, t.apply p - t.apply q = L.mulVec (p - q))
    (n : V3 ℤ) (f : V3 ℝ) : siteAt (L * B) (t.apply o) n f = t.apply (siteAt B o n f) := by
  have := hL (siteAt B o n f) o
  rw [siteAt_eq, siteAt_eq] at *
  rw [sub_eq_iff_eq_add] at this
  rw [this, add_sub_cancel_right, M3.mulVec_add, M3.mulVec_mul, M3.mulVec_mul]

/-- **C17 (partial).** A Volume without points, bounded by spheres and any other algebraic objects, filled by an unstrained
crystal: populate_atoms, then transform(T) for a locked rigid motion T, then populate_atoms again: all three succeed and
the new atoms are the images of the old ones, in the same order, with the same species.  Assumed: basis atoms have
fractional coordinates strictly between -1 and 1, the scale is a number or one factor per basis vector, and no crystal
site inside the Volume lies in the tolerance shell outside a ball.  Missing from C17: Volumes with points, which
cannot be transformed (`C18_always_raises`). -/
theorem C17_atoms_move_rigidly_partial (env : Env) (v : Vol) (hp : v.points = none) (htr : v.tri = none) (hsp : v.spheres ≠ [])
    (hwf : ∀ a ∈ v.algs, a.WF) (hr : ∀ s, Alg.sphere s ∈ v.algs → 0 < s.radius) (c : Gen ℝ) (x : Voxel ℝ)
    (sites : List (V3 ℝ × ℤ)) (hg : v.gen = some (.crystal c)) (hP : Gen.Plain c x sites) (hsc : ColumnScale x.scale)
    (hd : x.sbases.det ≠ 0) (hs : FracNearCell sites)
    (hshell : ∀ a ∈ Crystal x.sbases x.origin sites, Inside env (.vol v) a.1 →
      ∀ s, Alg.sphere s ∈ v.algs → Spec.dist a.1 s.center ≤ s.radius)
    (t : Tr ℝ) (ht : RigidMotion t) (hl : t.locked = true) (hb : t.basisOnly = false) (n n' : ℕ) :
    ∃ v1 v2 v3 ps zs, v.populate env n = (v1, .ok ()) ∧ v1.atoms = some ps ∧ v1.species = some zs ∧
      v1.transform env t = (v2, .ok ()) ∧ v2.populate env n' = (v3, .ok ()) ∧
      v3.atoms = some (ps.map t.apply) ∧ v3.species = some zs := by
  -- before
  obtain ⟨s, hm, hbb⟩ := sphere_boundingBox (env := env) hp hsp
  have hm' := mem_spheres.mp hm
  obtain ⟨⟨lo, hi⟩, he⟩ := Voxel.getExtents_ok (box := Vol.sphereBox s) hd (by simp [Vol.sphereBox, Vol.rectPrism])
  have hpop := populate_crystal hbb hg hP he n
  -- the transformation
  obtain ⟨bs, h4, h5, h6, h7⟩ := transformAlgs_rigid ht v.algs hwf
  have hsph := transformAlgs_spheres ht v.algs bs h4
  obtain ⟨L, hL, hLb, hLa⟩ := (rigid_invertible ht).linearPart
  have hset : Voxel.basesSet (t.bases x.bases) = .ok (L * x.bases) := by
    rw [hLb]; exact basesSet_of_det (by rw [M3.det_mul]; exact mul_ne_zero hL (bases_det_ne hsc hd))
  let y : Voxel ℝ := ⟨L * x.bases, x.scale, t.apply x.origin⟩
  have hy : y.sbases = L * x.sbases := sbases_mul hsc L _
  let c' : Gen ℝ := { c with voxel := some y }
  have hct : c.transform t = (c', .ok ()) := by
    unfold Gen.transform
    rw [hP.1]; simp only [hset, hb]; rfl
  have hP' : Gen.Plain c' y sites := ⟨rfl, hP.2.1, hP.2.2.1, hP.2.2.2⟩
  generalize hps : ((Gen.cells lo hi).flatMap (inCell (v.interior env) x sites)).map Atom.pos = ps at hpop
  generalize hzs : ((Gen.cells lo hi).flatMap (inCell (v.interior env) x sites)).map Atom.Z = zs at hpop
  let v2 : Vol := { v with points := none, atoms := some ps, species := some zs, algs := bs, gen := some (.crystal c') }
  have htrans : Vol.transform env { v with atoms := some ps, species := some zs } t = (v2, .ok ()) := by
    unfold Vol.transform Vol.transformRest
    simp only [hp, h4, hl, if_true, hg, GenObj.transform, hct]
    rfl
  -- after
  have hsp2 : v2.spheres ≠ [] := by
    intro h0
    have : ({ s with center := t.apply s.center } : Sphere) ∈ v2.spheres := mem_spheres.mpr ((hsph _).mpr ⟨s, hm', rfl⟩)
    rw [h0] at this
    cases this
  obtain ⟨s2, hm2, hbb2⟩ := sphere_boundingBox (env := env) (v := v2) rfl hsp2
  obtain ⟨s0, hs0, rfl⟩ := (hsph s2).mp (mem_spheres.mp hm2)
  have hd' : y.sbases.det ≠ 0 := by rw [hy, M3.det_mul]; exact mul_ne_zero hL hd
  obtain ⟨⟨lo', hi'⟩, he'⟩ := Voxel.getExtents_ok
    (box := Vol.sphereBox ({ s0 with center := t.apply s0.center } : Sphere)) hd' (by simp [Vol.sphereBox, Vol.rectPrism])
  have hpop2 := populate_crystal hbb2 (show v2.gen = some (.crystal c') from rfl) hP' he' n'
  refine ⟨_, v2, _, ps, zs, hpop, rfl, rfl, htrans, hpop2, ?_⟩
  have hsite : ∀ m f, siteAt y.sbases y.origin m f = t.apply (siteAt x.sbases x.origin m f) := by
    intro m f; rw [hy]; exact siteAt_affine hLa m f
  have hint : ∀ p, v2.interior env (t.apply p) = v.interior env p := by
    intro p
    simp only [Vol.interior, v2, htr, h7]
  have hcell : ∀ m, inCell (v2.interior env) y sites m =
      (inCell (v.interior env) x sites m).map fun a => ⟨t.apply a.pos, a.Z⟩ := by
    intro m
    unfold inCell
    rw [List.filter_map, List.filter_map, List.map_map]
    simp only [Function.comp_def, hsite, hint]
  have hsame : (Gen.cells lo' hi').flatMap (inCell (v.interior env) x sites) =
      (Gen.cells lo hi).flatMap (inCell (v.interior env) x sites) := by
    have hne : ∀ m, inCell (v.interior env) x sites m ≠ [] → ∃ f ∈ sites, v.interior env (siteAt x.sbases x.origin m f.1) = true := by
      intro m hm
      obtain ⟨a, ha⟩ := List.exists_mem_of_ne_nil _ hm
      obtain ⟨⟨f, hf, rfl⟩, hi⟩ := mem_inCell.mp ha
      exact ⟨f, hf, hi⟩
    apply flatMap_cells
    · intro m hm
      obtain ⟨f, hf, hi⟩ := hne m hm
      refine cell_mem he' (hs f hf) ?_
      rw [hsite]
      refine ball_in_box ({ s0 with center := t.apply s0.center } : Sphere) (hr s0 hs0) _ ?_
      rw [C39_distances_preserved t (.motion t ht)]
      exact hshell _ ⟨m, f, hf, rfl⟩ ((Vol.interior_iff env v _).mp hi) s0 hs0
    · intro m hm
      obtain ⟨f, hf, hi⟩ := hne m hm
      refine cell_mem he (hs f hf) (ball_in_box s (hr s hm') _ ?_)
      exact hshell _ ⟨m, f, hf, rfl⟩ ((Vol.interior_iff env v _).mp hi) s hm'
  have hflat : (Gen.cells lo' hi').flatMap (inCell (v2.interior env) y sites) =
      ((Gen.cells lo hi).flatMap (inCell (v.interior env) x sites)).map fun a => ⟨t.apply a.pos, a.Z⟩ := by
    rw [← hsame, List.map_flatMap]
    congr 1
    funext m
    exact hcell m
  simp only [hflat, List.map_map, ← hps, ← hzs, Function.comp_def, and_self]

theorem solve_one {b e : V3 ℝ} (h : (1 : M3 ℝ).solve b = .ok e) : e = b := by
  have hd : (1 : M3 ℝ).det ≠ 0 := by rw [M3.det_one]; norm_num
  rw [M3.solve_ok _ _ hd] at h
  injection h with h
  rw [← h, M3.one_def]
  ext <;> simp [M3.det, M3.adj, M3.mulVec]

/-- In a unit cubic voxel the extents do not go beyond integer bounds of the box. -/
theorem extents_tight {x : Voxel ℝ} (hx : x.sbases = 1) (ho : x.origin = 0) {box : List (V3 ℝ)} {lo hi : V3 ℤ}
    (he : x.getExtents box = .ok (lo, hi)) {a b : ℤ} (hab : ∀ p ∈ box, (a : ℝ) ≤ p.x ∧ p.x ≤ b) : a ≤ lo.x ∧ hi.x ≤ b := by
  obtain ⟨e, es, hf, rfl, rfl⟩ := Voxel.getExtents_inv he
  have hsp := Voxel.fracBox_spec hf
  have hes : e :: es = box := by
    have h2 : List.Forall₂ (fun p e => e = p) box (e :: es) := by
      refine hsp.imp ?_
      intro p e h
      rw [hx, ho, sub_zero] at h
      exact solve_one h
    have h3 : List.Forall₂ Eq (e :: es) box := h2.flip
    exact List.forall₂_eq_eq_eq ▸ h3
  subst hes
  constructor
  · rw [Int.le_floor]
    refine Voxel.le_minL _ _ _ (hab e List.mem_cons_self).1 ?_
    intro y hy
    obtain ⟨q, hq, rfl⟩ := List.mem_map.mp hy
    exact (hab q (List.mem_cons_of_mem _ hq)).1
  · rw [Int.ceil_le]
    refine Voxel.maxL_le _ _ _ (hab e List.mem_cons_self).2 ?_
    intro y hy
    obtain ⟨q, hq, rfl⟩ := List.mem_map.mp hy
    exact (hab q (List.mem_cons_of_mem _ hq)).2

/-- The unit cubic voxel. -/
def unitVoxel : Voxel ℝ := ⟨1, .scalar 1, 0⟩

theorem unitVoxel_sbases : unitVoxel.sbases = 1 := by
  rw [M3.one_def]; ext <;> simp [unitVoxel, Voxel.sbases, M3.smul_def, M3.one_def]

/-- A ball of radius 1 (tolerance 1/10) about the origin, filled by a cubic crystal with one atom per cell. -/
def unitBall (f : V3 ℝ) : Vol :=
  ⟨none, none, none, [.sphere ⟨1, 0, 1 / 10⟩], some (.crystal ⟨some ⟨1, [(f, 6)]⟩, some unitVoxel, none, none⟩), 0, 1, none, none⟩

theorem unitBall_box (env : Env) (f : V3 ℝ) : (unitBall f).boundingBox env = .ok (.rows (Vol.sphereBox ⟨1, 0, 1 / 10⟩)) := by
  unfold Vol.boundingBox unitBall
  simp [Vol.spheres, Vol.smallest]

theorem unitBox_bound {p : V3 ℝ} (hp : p ∈ Vol.sphereBox ⟨1, 0, 1 / 10⟩) : ((-1 : ℤ) : ℝ) ≤ p.x ∧ p.x ≤ ((1 : ℤ) : ℝ) := by
  unfold Vol.sphereBox Vol.rectPrism at hp
  simp only [List.map_cons, List.map_nil, List.mem_cons, List.not_mem_nil, or_false] at hp
  rcases hp with rfl | rfl | rfl | rfl | rfl | rfl | rfl | rfl <;> norm_num

/-- The atoms of `unitBall` come from cells -1, 0, 1 in x. -/
theorem unitBall_atoms (env : Env) (f : V3 ℝ) (n : ℕ) : ∃ v' ps zs, (unitBall f).populate env n = (v', .ok ()) ∧
    v' = { unitBall f with atoms := some ps, species := some zs } ∧
    ∀ p ∈ ps, ∃ m : V3 ℤ, -1 ≤ m.x ∧ m.x ≤ 1 ∧ p = ⟨m.x + f.x, m.y + f.y, m.z + f.z⟩ := by
  obtain ⟨⟨lo, hi⟩, he⟩ := Voxel.getExtents_ok (v := unitVoxel) (box := Vol.sphereBox ⟨1, 0, 1 / 10⟩)
    (by rw [unitVoxel_sbases, M3.det_one]; norm_num) (by simp [Vol.sphereBox, Vol.rectPrism])
  obtain ⟨hlo, hhi⟩ := extents_tight unitVoxel_sbases rfl he fun p hp => unitBox_bound hp
  have hP : Gen.Plain ⟨some ⟨1, [(f, 6)]⟩, some unitVoxel, none, none⟩ unitVoxel [(f, 6)] := ⟨rfl, ⟨1, rfl⟩, rfl, rfl⟩
  refine ⟨_, _, _, populate_crystal (unitBall_box env f) rfl hP he n, rfl, ?_⟩
  intro p hp
  obtain ⟨a, ha, rfl⟩ := List.mem_map.mp hp
  obtain ⟨m, hm, ha⟩ := List.mem_flatMap.mp ha
  obtain ⟨⟨g, hg, rfl⟩, -⟩ := mem_inCell.mp ha
  simp only [List.mem_singleton] at hg
  subst hg
  rw [Gen.mem_cells] at hm
  refine ⟨m, by omega, by omega, ?_⟩
  simp only
  rw [unitVoxel_sbases]
  exact crystal_one f m

/-- **C15, finding.** A cubic crystal whose basis atom is given with fractional coordinate 10 (equivalent to 0): the site at
the centre of the ball is not among the atoms. -/
theorem C15_missed_site_refuted (env : Env) (n : ℕ) :
    ∃ v' ps, (unitBall ⟨10, 0, 0⟩).populate env n = (v', .ok ()) ∧ v'.atoms = some ps ∧
      (0, 6) ∈ Crystal unitVoxel.sbases unitVoxel.origin [((⟨10, 0, 0⟩ : V3 ℝ), 6)] ∧
      Inside env (.vol (unitBall ⟨10, 0, 0⟩)) 0 ∧ (0 : V3 ℝ) ∉ ps := by
  obtain ⟨v', ps, zs, h1, h2, h3⟩ := unitBall_atoms env ⟨10, 0, 0⟩ n
  refine ⟨v', ps, h1, by rw [h2], ⟨⟨-10, 0, 0⟩, _, List.mem_singleton.mpr rfl, ?_⟩, ?_, ?_⟩
  · rw [unitVoxel_sbases]
    ext1
    · simp only; rw [show unitVoxel.origin = 0 from rfl, crystal_one]; ext <;> simp
    · rfl
  · refine .vol _ _ (by simp [unitBall]) ?_
    intro a ha
    simp only [unitBall, List.mem_singleton] at ha
    subst ha
    simp [Alg.interior, Sphere.interior, V3.normSq, V3.dot]
    norm_num
  · intro h
    obtain ⟨m, hm1, hm2, hm⟩ := h3 _ h
    have := congrArg V3.x hm
    simp at this
    have h4 : ((m.x + 10 : ℤ) : ℝ) = ((0 : ℤ) : ℝ) := by push_cast; linarith
    have := Int.cast_injective h4
    omega

/-- The rotation by the angle with cosine 3/5 about z. -/
def rot345 : M3 ℝ := ⟨3 / 5, -4 / 5, 0, 4 / 5, 3 / 5, 0, 0, 0, 1⟩

theorem rot345_orth : Orthogonal rot345 := by
  unfold Orthogonal
  rw [M3.one_def]
  ext <;> norm_num [rot345, M3.mul_def, M3.transpose]

theorem rot345_det : rot345.det = 1 := by norm_num [rot345, M3.det]

/-- **C17, finding.** A site in the tolerance shell of the ball, at (-1.01, 0, 0): it is interior to the Volume, but not
enclosed by the bounding box and not supplied.  After a rotation it is supplied: the transformed volume has an atom that
is not the image of an atom the volume had before. -/
theorem C17_tolerance_shell_refuted (env : Env) (n n' : ℕ) :
    ∃ t v1 v2 v3 ps qs, RigidMotion t ∧ t.locked = true ∧ t.basisOnly = false ∧
      (unitBall ⟨99 / 100, 0, 0⟩).populate env n = (v1, .ok ()) ∧ v1.atoms = some ps ∧
      v1.transform env t = (v2, .ok ()) ∧ v2.populate env n' = (v3, .ok ()) ∧ v3.atoms = some qs ∧
      ∃ p, p ∉ ps ∧ t.apply p ∈ qs := by
  obtain ⟨v1, ps, zs, h1, h2, h3⟩ := unitBall_atoms env ⟨99 / 100, 0, 0⟩ n
  let t : Tr ℝ := .matrix .general rot345 none true false
  let y : Voxel ℝ := ⟨rot345 * 1, .scalar 1, 0⟩
  let c' : Gen ℝ := ⟨some ⟨1, [(⟨99 / 100, 0, 0⟩, 6)]⟩, some y, none, none⟩
  let v2 : Vol := { v1 with gen := some (.crystal c') }
  have hset : Voxel.basesSet (rot345 * 1) = .ok (rot345 * 1) :=
    basesSet_of_det (by rw [M3.det_mul, rot345_det, M3.det_one]; norm_num)
  have hsb : y.sbases = rot345 * 1 := by
    have := sbases_mul (v := unitVoxel) trivial rot345 0
    rw [unitVoxel_sbases] at this
    exact this
  have ht : v1.transform env t = (v2, .ok ()) := by
    rw [h2]
    unfold Vol.transform Vol.transformRest
    simp [unitBall, Vol.transformAlgs, t, Tr.alg, Tr.matAlg, Tr.matApply, Tr.locked, GenObj.transform, Gen.transform, unitVoxel,
      Tr.bases, hset, Tr.basisOnly, Tr.apply, M3.mulVec_zero, v2, h2, c', y]
  have hbb : v2.boundingBox env = .ok (.rows (Vol.sphereBox ⟨1, 0, 1 / 10⟩)) := by
    simp only [v2, h2]
    exact unitBall_box env ⟨99 / 100, 0, 0⟩
  have hd : y.sbases.det ≠ 0 := by rw [hsb, M3.det_mul, rot345_det, M3.det_one]; norm_num
  obtain ⟨v3, qs, ws, h4, h5, h6, h7⟩ := no_site_missed (env := env) (v := v2) (c := c') (x := y) (sites := [(⟨99 / 100, 0, 0⟩, 6)]) hbb
    (by simp [Vol.sphereBox, Vol.rectPrism]) rfl ⟨rfl, ⟨1, rfl⟩, rfl, rfl⟩ hd (by
      intro f hf
      simp only [List.mem_singleton] at hf
      subst hf
      norm_num) n'
  refine ⟨t, v1, v2, v3, ps, qs, .matrix _ _ _ _ rot345_orth, rfl, rfl, h1, by rw [h2], ht, h4, h5, ⟨-101 / 100, 0, 0⟩, ?_, ?_⟩
  · intro h
    obtain ⟨m, hm1, hm2, hm⟩ := h3 _ h
    have := congrArg V3.x hm
    simp at this
    have h4 : ((m.x + 2 : ℤ) : ℝ) = ((0 : ℤ) : ℝ) := by push_cast; linarith
    have := Int.cast_injective h4
    omega
  · have hp : t.apply ⟨-101 / 100, 0, 0⟩ = ⟨-303 / 500, -101 / 125, 0⟩ := by
      simp only [t, Tr.apply, Tr.matApply]
      ext <;> norm_num [rot345, M3.mulVec]
    rw [hp]
    have := h7 (⟨-303 / 500, -101 / 125, 0⟩, 6) ⟨⟨-2, 0, 0⟩, _, List.mem_singleton.mpr rfl, ?_⟩ ?_ ?_
    · exact (List.of_mem_zip this).1
    · rw [hsb]
      ext1
      · rw [M3.one_def]
        ext <;> norm_num [siteAt, cart, rot345, M3.mul_def, M3.col0, M3.col1, M3.col2, y]
      · rfl
    · have key : ∀ a b c : ℝ, (a = 0 ∨ a = 2 * 1) → (b = 0 ∨ b = 2 * 1) → (c = 0 ∨ c = 2 * 1) →
          (⟨a, b, c⟩ : V3 ℝ) + ((0 : V3 ℝ) - (2 * 1 / 2 : ℝ) • (⟨1, 1, 1⟩ : V3 ℝ)) ∈ Region (Vol.sphereBox ⟨1, 0, 1 / 10⟩) := by
        intro a b c ha hb hc
        apply region_mem
        unfold Vol.sphereBox
        refine List.mem_map.mpr ⟨_, ?_, rfl⟩
        rcases ha with rfl | rfl <;> rcases hb with rfl | rfl <;> rcases hc with rfl | rfl <;> simp [Vol.rectPrism]
      have := ball_in_box ⟨1, 0, 1 / 10⟩ (by norm_num) ⟨-303 / 500, 0, 0⟩ (by simp [Spec.dist, Real.sqrt_sq_eq_abs, abs_le]; norm_num)
      have e := parallelepiped_mem (region_convex (Vol.sphereBox ⟨1, 0, 1 / 10⟩)) (c := 0) (u := ⟨1, 0, 0⟩) (v := ⟨0, 1, 0⟩)
        (w := ⟨0, 0, 1⟩) (r := -303 / 500) (s := -101 / 125) (t := 0) ?_ ?_ ?_ ?_ ?_ ?_ ?_ ?_ (by norm_num [abs_le])
        (by norm_num [abs_le]) (by norm_num [abs_le])
      · convert e using 1
        ext <;> norm_num
      · convert key (2 * 1) (2 * 1) (2 * 1) (.inr rfl) (.inr rfl) (.inr rfl) using 1; ext <;> norm_num
      · convert key 0 (2 * 1) (2 * 1) (.inl rfl) (.inr rfl) (.inr rfl) using 1; ext <;> norm_num
      · convert key (2 * 1) 0 (2 * 1) (.inr rfl) (.inl rfl) (.inr rfl) using 1; ext <;> norm_num
      · convert key 0 0 (2 * 1) (.inl rfl) (.inl rfl) (.inr rfl) using 1; ext <;> norm_num
      · convert key (2 * 1) (2 * 1) 0 (.inr rfl) (.inr rfl) (.inl rfl) using 1; ext <;> norm_num
      · convert key 0 (2 * 1) 0 (.inl rfl) (.inr rfl) (.inl rfl) using 1; ext <;> norm_num
      · convert key (2 * 1) 0 0 (.inr rfl) (.inl rfl) (.inl rfl) using 1; ext <;> norm_num
      · convert key 0 0 0 (.inl rfl) (.inl rfl) (.inl rfl) using 1; ext <;> norm_num
    · refine .vol _ _ (by simp [v2, h2, unitBall]) ?_
      intro a ha
      simp only [v2, h2, unitBall, List.mem_singleton] at ha
      subst ha
      simp [Alg.interior, Sphere.interior, V3.normSq, V3.dot]
      norm_num

/-- Concrete case: with the basis atom at 0, `unitBall` meets the hypotheses of `C17_atoms_move_rigidly_partial`. -/
example (env : Env) (n n' : ℕ) : ∃ v1 v2 v3 ps zs, (unitBall 0).populate env n = (v1, .ok ()) ∧ v1.atoms = some ps ∧
    v1.species = some zs ∧ v1.transform env (.matrix .general rot345 (some ⟨1, 2, 3⟩) true false) = (v2, .ok ()) ∧
    v2.populate env n' = (v3, .ok ()) ∧
    v3.atoms = some (ps.map (Tr.apply (.matrix .general rot345 (some ⟨1, 2, 3⟩) true false))) ∧ v3.species = some zs := by
  refine C17_atoms_move_rigidly_partial env (unitBall 0) rfl rfl (by simp [unitBall, Vol.spheres]) ?_ ?_ _ unitVoxel [(0, 6)] rfl
    ⟨rfl, ⟨1, rfl⟩, rfl, rfl⟩ trivial (by rw [unitVoxel_sbases, M3.det_one]; norm_num) ?_ ?_ _ (.matrix _ _ _ _ rot345_orth) rfl rfl
    n n'
  · intro a ha; simp only [unitBall, List.mem_singleton] at ha; subst ha; simp [Alg.WF]
  · intro s hs; simp [unitBall] at hs; subst hs; norm_num
  · intro f hf; simp only [List.mem_singleton] at hf; subst hf; norm_num
  · rintro _ ⟨m, f, hf, rfl⟩ hI s hs
    simp [unitBall] at hs
    subst hs
    simp only [List.mem_singleton] at hf
    subst hf
    rcases hI with ⟨_, _, -, ha⟩ | _
    have := ha (.sphere ⟨1, 0, 1 / 10⟩) (by simp [unitBall])
    simp only at this ⊢
    rw [unitVoxel_sbases, show unitVoxel.origin = 0 from rfl, crystal_one] at *
    simp only [Alg.interior, Sphere.interior, decide_eq_true_eq, V3.normSq, V3.dot] at this
    simp only [Spec.dist]
    norm_num at this ⊢
    have h2 : ((m.x * m.x + m.y * m.y + m.z * m.z : ℤ) : ℝ) < ((2 : ℤ) : ℝ) := by push_cast; linarith
    have h3 : m.x * m.x + m.y * m.y + m.z * m.z < 2 := Int.cast_lt.mp h2
    have h4 : m.x * m.x + m.y * m.y + m.z * m.z ≤ 1 := by omega
    have h5 : ((m.x * m.x + m.y * m.y + m.z * m.z : ℤ) : ℝ) ≤ ((1 : ℤ) : ℝ) := Int.cast_le.mpr h4
    push_cast at h5
    nlinarith

end

end CZ
