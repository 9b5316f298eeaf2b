import Verif.Props.Bounding
import Verif.Props.Algebraic
import Verif.Spec.Crystal

/-!
# C114: planes through points of the region, and the round trip from a convex hull

`get_bounding_box(convex_hull_to_planes(points))` gives back the vertices of the hull of the points.
-/

namespace CZ
open Spec

noncomputable section
open Classical

theorem cell_convex (hs : List (V3 ℝ × V3 ℝ)) : Convex ℝ (Cell hs) := by
  rw [cell_ineqs]; exact ineqs_convex _

/-- Balls move towards points of a convex region when shrunk. -/
theorem ball_towards {hs : List (V3 ℝ × V3 ℝ)} {c m : V3 ℝ} {r e : ℝ} (hr : 0 ≤ r) (h : BallIn (Cell hs) c r)
    (hm : m ∈ Cell hs) (he : 0 ≤ e) (he1 : e ≤ 1) : BallIn (Cell hs) ((1 - e) • m + e • c) (e * r) := by
  rw [ball_iff _ _ _ (mul_nonneg he hr)]
  intro t ht
  have h1 := (ball_iff _ _ _ hr).mp h t ht
  have h2 : (m - t.2).dot t.1 ≤ 0 := hm t ht
  have : ((1 - e) • m + e • c - t.2).dot t.1 + norm3 t.1 * (e * r) =
      (1 - e) * (m - t.2).dot t.1 + e * ((c - t.2).dot t.1 + norm3 t.1 * r) := by
    simp only [V3.dot, V3.add_x, V3.add_y, V3.add_z, V3.sub_x, V3.sub_y, V3.sub_z, V3.smul_x, V3.smul_y, V3.smul_z]; ring
  rw [this]
  nlinarith

/-- A small weight keeps a positive number positive. -/
theorem small_weight (a b : ℝ) (ha : 0 < a) : ∃ e0, 0 < e0 ∧ ∀ e, 0 ≤ e → e ≤ e0 → 0 ≤ (1 - e) * a + e * b := by
  refine ⟨a / (a + |b|), div_pos ha (by positivity), fun e he hle => ?_⟩
  have hpos : 0 < a + |b| := by positivity
  rw [le_div_iff₀ hpos] at hle
  have := neg_abs_le b
  nlinarith [abs_nonneg b]

theorem mean_pos (l : List ℝ) (h : ∀ x ∈ l, 0 ≤ x) (hp : ∃ x ∈ l, 0 < x) : 0 < l.sum := by
  induction l with
  | nil => obtain ⟨x, hx, _⟩ := hp; cases hx
  | cons a l ih =>
    rw [List.sum_cons]
    have ha := h a List.mem_cons_self
    have hl : 0 ≤ l.sum := List.sum_nonneg fun x hx => h x (List.mem_cons_of_mem _ hx)
    obtain ⟨x, hx, hx0⟩ := hp
    rcases List.mem_cons.mp hx with rfl | hx
    · linarith
    · have := ih (fun y hy => h y (List.mem_cons_of_mem _ hy)) ⟨x, hx, hx0⟩
      linarith

theorem mean_mem {S : Set (V3 ℝ)} (hc : Convex ℝ S) (l : List (V3 ℝ)) (hne : l ≠ []) (h : ∀ p ∈ l, p ∈ S) : mean3 l ∈ S := by
  induction l with
  | nil => exact absurd rfl hne
  | cons a l ih =>
    by_cases hl : l = []
    · subst hl
      have : mean3 [a] = a := by ext <;> simp [mean3]
      rw [this]; exact h a List.mem_cons_self
    · have hm := ih hl fun p hp => h p (List.mem_cons_of_mem _ hp)
      have hn : (0 : ℝ) < l.length := by exact_mod_cast List.length_pos_iff.mpr hl
      have := hc (h a List.mem_cons_self) hm (a := 1 / (l.length + 1)) (b := l.length / (l.length + 1)) (by positivity)
        (by positivity) (by field_simp; ring)
      convert this using 1
      ext <;> simp only [mean3, List.length_cons, List.sum_cons, V3.add_x, V3.add_y, V3.add_z, V3.smul_x, V3.smul_y,
        V3.smul_z] <;> push_cast <;> field_simp

/-- **C114.** Planes through points of the region: a bounded region with room for a ball is found unless all plane points have the
same vanishing coordinate. -/
theorem C114_touching_partial (S : Solvers) (hS : ExactSolvers S) (planes : List Plane) (hm : Made planes)
    (hb : BoundedSet (Cell (faces planes))) (hroom : ∃ c r, 0 < r ∧ BallIn (Cell (faces planes)) c r)
    (ht : ∀ pl ∈ planes, pl.point ∈ Cell (faces planes))
    (hx : ∃ pl ∈ planes, pl.point.x ≠ 0) (hy : ∃ pl ∈ planes, pl.point.y ≠ 0) (hz : ∃ pl ∈ planes, pl.point.z ≠ 0) :
    ∃ vs, getBoundingBox S planes = .ok (vs, 0) ∧ {v | v ∈ vs} = (Cell (faces planes)).extremePoints ℝ ∧
      convexHull ℝ {v | v ∈ vs} = Cell (faces planes) := by
  have hne : planes ≠ [] := by rintro rfl; obtain ⟨pl, hpl, _⟩ := hx; cases hpl
  obtain ⟨c, r, hr, hball⟩ := hroom
  set s := planeShift planes with hs
  -- every plane point is in the octant after the shift, strictly in a coordinate that is not 0
  have hoct : ∀ pl ∈ planes, (0 ≤ pl.point.x + s.x ∧ (pl.point.x ≠ 0 → 0 < pl.point.x + s.x)) ∧
      (0 ≤ pl.point.y + s.y ∧ (pl.point.y ≠ 0 → 0 < pl.point.y + s.y)) ∧
      (0 ≤ pl.point.z + s.z ∧ (pl.point.z ≠ 0 → 0 < pl.point.z + s.z)) := by
    intro pl hpl
    obtain ⟨f1, f2, f3⟩ := fold_le planes 0 pl.point
    obtain ⟨g1, g2, g3⟩ := fold_le planes 0 (0 : V3 ℝ)
    have m1 := f1.mpr (Or.inr ⟨pl, hpl, le_rfl⟩)
    have m2 := f2.mpr (Or.inr ⟨pl, hpl, le_rfl⟩)
    have m3 := f3.mpr (Or.inr ⟨pl, hpl, le_rfl⟩)
    have n1 := g1.mpr (Or.inl le_rfl)
    have n2 := g2.mpr (Or.inl le_rfl)
    have n3 := g3.mpr (Or.inl le_rfl)
    simp only [V3.zero_x, V3.zero_y, V3.zero_z] at n1 n2 n3
    simp only [hs, planeShift, V3.smul_x, V3.smul_y, V3.smul_z]
    refine ⟨⟨by linarith, fun h => ?_⟩, ⟨by linarith, fun h => ?_⟩, ⟨by linarith, fun h => ?_⟩⟩
    · rcases lt_or_gt_of_ne h with h | h <;> linarith
    · rcases lt_or_gt_of_ne h with h | h <;> linarith
    · rcases lt_or_gt_of_ne h with h | h <;> linarith
  -- the mean of the plane points
  set l := planes.map Plane.point with hl
  have hlne : l ≠ [] := by simpa [hl] using hne
  have hmem : mean3 l ∈ Cell (faces planes) := mean_mem (cell_convex _) l hlne (by
    intro p hp; obtain ⟨pl, hpl, rfl⟩ := List.mem_map.mp hp; exact ht pl hpl)
  have hlen : (0 : ℝ) < l.length := by exact_mod_cast List.length_pos_iff.mpr hlne
  have hsum : ∀ (f : V3 ℝ → ℝ), (∀ a b, f (a + b) = f a + f b) → f 0 = 0 → (∀ k a, f (k • a) = k * f a) → ∀ d : ℝ,
      f (mean3 l) + d = (l.length : ℝ)⁻¹ * (l.map fun p => f p + d).sum := by
    intro f fadd f0 fsmul d
    have h1 : ∀ l : List (V3 ℝ), f l.sum = (l.map f).sum := by
      intro l; induction l with
      | nil => simpa using f0
      | cons a l ih => simp [fadd, ih]
    have h2 : ∀ l : List (V3 ℝ), (l.map fun p => f p + d).sum = (l.map f).sum + l.length * d := by
      intro l; induction l with
      | nil => simp
      | cons a l ih => simp only [List.map_cons, List.sum_cons, ih, List.length_cons]; push_cast; ring
    rw [mean3, fsmul, h1, h2]; field_simp
  have hpos : ∀ (f : V3 ℝ → ℝ), (∀ a b, f (a + b) = f a + f b) → f 0 = 0 → (∀ k a, f (k • a) = k * f a) →
      (∀ pl ∈ planes, 0 ≤ f pl.point + f s ∧ (f pl.point ≠ 0 → 0 < f pl.point + f s)) → (∃ pl ∈ planes, f pl.point ≠ 0) →
      0 < f (mean3 l) + f s := by
    intro f fadd f0 fsmul hf hex
    rw [hsum f fadd f0 fsmul]
    refine mul_pos (inv_pos.mpr hlen) (mean_pos _ ?_ ?_)
    · intro x hx
      obtain ⟨p, hp, rfl⟩ := List.mem_map.mp hx
      obtain ⟨pl, hpl, rfl⟩ := List.mem_map.mp hp
      exact (hf pl hpl).1
    · obtain ⟨pl, hpl, h⟩ := hex
      exact ⟨_, List.mem_map.mpr ⟨pl.point, List.mem_map.mpr ⟨pl, hpl, rfl⟩, rfl⟩, (hf pl hpl).2 h⟩
  have px := hpos V3.x (fun _ _ => rfl) rfl (fun _ _ => rfl) (fun pl hpl => (hoct pl hpl).1) hx
  have py := hpos V3.y (fun _ _ => rfl) rfl (fun _ _ => rfl) (fun pl hpl => (hoct pl hpl).2.1) hy
  have pz := hpos V3.z (fun _ _ => rfl) rfl (fun _ _ => rfl) (fun pl hpl => (hoct pl hpl).2.2) hz
  obtain ⟨e1, he1, k1⟩ := small_weight _ (c.x + s.x) px
  obtain ⟨e2, he2, k2⟩ := small_weight _ (c.y + s.y) py
  obtain ⟨e3, he3, k3⟩ := small_weight _ (c.z + s.z) pz
  set e := min 1 (min e1 (min e2 e3)) with he
  have e0 : 0 < e := lt_min one_pos (lt_min he1 (lt_min he2 he3))
  have l1 : e ≤ 1 := min_le_left _ _
  have l2 : e ≤ e1 := le_trans (min_le_right _ _) (min_le_left _ _)
  have l3 : e ≤ e2 := le_trans (min_le_right _ _) (le_trans (min_le_right _ _) (min_le_left _ _))
  have l4 : e ≤ e3 := le_trans (min_le_right _ _) (le_trans (min_le_right _ _) (min_le_right _ _))
  obtain ⟨vs, hvs⟩ := (C114_success S hS planes hne hm hb).mpr ⟨(1 - e) • mean3 l + e • c, e * r, mul_pos e0 hr,
    ball_towards hr.le hball hmem e0.le l1, (shift_nonneg _ _).mp (by
      have q1 := k1 e e0.le l2
      have q2 := k2 e e0.le l3
      have q3 := k3 e e0.le l4
      simp only [V3.add_x, V3.add_y, V3.add_z, V3.smul_x, V3.smul_y, V3.smul_z, ← hs]
      exact ⟨by linarith, by linarith, by linarith⟩)⟩
  exact ⟨vs, hvs, C114_vertices S hS planes vs hb hvs⟩

/-- A tetrahedron with one face in the plane x = 0 and its fourth vertex on the negative x axis. -/
def leaning : List (V3 ℝ × V3 ℝ) :=
  [(⟨1, 0, 0⟩, ⟨0, 1, 0⟩), (⟨0, -1, 0⟩, ⟨0, 0, 1⟩), (⟨0, 0, -1⟩, ⟨0, 1, 0⟩), (⟨-1, 1, 1⟩, ⟨0, 1, 0⟩)]

/-- **C114, the exception is real.** A tetrahedron given by planes through its vertices, of which all plane points have x = 0, is
reported as absent. -/
theorem C114_touching_refuted : ∃ planes, Made planes ∧ planes ≠ [] ∧ BoundedSet (Cell (faces planes)) ∧
    (∃ c, BallIn (Cell (faces planes)) c (1 / 10)) ∧ (∀ pl ∈ planes, pl.point ∈ Cell (faces planes)) ∧
    ∀ S, ExactSolvers S → getBoundingBox S planes = .ok ([], 2) := by
  have hn : ∀ t ∈ leaning, 1 ≤ t.1.normSq := by
    intro t ht
    simp only [leaning, List.mem_cons, List.not_mem_nil, or_false] at ht
    rcases ht with rfl | rfl | rfl | rfl <;> norm_num [V3.normSq, V3.dot]
  have hcell : ∀ q, q ∈ Cell leaning ↔ q.x ≤ 0 ∧ 0 ≤ q.y ∧ 0 ≤ q.z ∧ -q.x + q.y + q.z ≤ 1 := by
    intro q
    simp only [Cell, leaning, Set.mem_ofPred_eq, List.forall_mem_cons, Below]
    constructor
    · rintro ⟨h1, h2, h3, h4, -⟩
      exact ⟨by linarith, by linarith, by linarith, by linarith⟩
    · rintro ⟨h1, h2, h3, h4⟩
      exact ⟨by linarith, by linarith, by linarith, by linarith, by simp⟩
  have hne : leaning.map (fun t => mk t.1 t.2) ≠ [] := by simp [leaning]
  refine ⟨leaning.map fun t => mk t.1 t.2, mk_made _ hn, hne, ?_, ?_, ?_, ?_⟩
  · rw [mk_cell _ hn]
    refine ⟨1, fun q hq => ?_⟩
    obtain ⟨h1, h2, h3, h4⟩ := (hcell q).mp hq
    exact ⟨abs_le.mpr ⟨by linarith, by linarith⟩, abs_le.mpr ⟨by linarith, by linarith⟩, abs_le.mpr ⟨by linarith, by linarith⟩⟩
  · rw [mk_cell _ hn]
    refine ⟨⟨-1 / 5, 1 / 5, 1 / 5⟩, fun q hq => (hcell q).mpr ?_⟩
    obtain ⟨h1, h2, h3⟩ := ball_coords hq
    simp only [abs_le] at h1 h2 h3
    exact ⟨by linarith, by linarith, by linarith, by linarith⟩
  · rw [mk_cell _ hn]
    intro pl hpl
    rw [hcell]
    simp only [leaning, List.map_cons, List.map_nil, mk, List.mem_cons, List.not_mem_nil, or_false] at hpl
    rcases hpl with rfl | rfl | rfl | rfl <;> norm_num
  · intro S hS
    refine C114_out_of_reach S hS _ hne ?_
    rintro ⟨c, r, hr, hball, ⟨w, hw, hle⟩, -, -⟩
    rw [mk_cell _ hn] at hball
    have hw0 : w.x = 0 := by
      simp only [leaning, List.map_cons, List.map_nil, mk, List.mem_cons, List.not_mem_nil, or_false] at hw
      rcases hw with rfl | rfl | rfl | rfl | rfl <;> rfl
    rw [hw0] at hle
    have hd : Spec.dist (c + (⟨r, 0, 0⟩ : V3 ℝ)) c ≤ r := by
      have : Spec.dist (c + (⟨r, 0, 0⟩ : V3 ℝ)) c = |r| := by
        rw [dist_eq, show c + (⟨r, 0, 0⟩ : V3 ℝ) - c = ⟨r, 0, 0⟩ by abel]
        simp only [norm3, V3.normSq, V3.dot, mul_zero, add_zero]; exact Real.sqrt_mul_self_eq_abs r
      rw [this, abs_of_pos hr]
    have h1 := ((hcell _).mp (hball _ hd)).1
    simp only [V3.add_x] at h1
    linarith

/-! ### Round trip -/

/-- `q` is on the same closed side of the plane through `p0`, `p1`, `p2` as all of the points. -/
def SameSide (pts : List (V3 ℝ)) (p0 p1 p2 q : V3 ℝ) : Prop :=
  ((∀ p ∈ pts, (p - p0).dot ((p1 - p0).cross (p2 - p0)) ≤ 0) ∧ (q - p0).dot ((p1 - p0).cross (p2 - p0)) ≤ 0) ∨
  ((∀ p ∈ pts, 0 ≤ (p - p0).dot ((p1 - p0).cross (p2 - p0))) ∧ 0 ≤ (q - p0).dot ((p1 - p0).cross (p2 - p0)))

/-- What Delaunay's `convex_hull` is: index triples of points, the planes through which bound the hull of the points. -/
def HullFacets (pts : List (V3 ℝ)) (fs : List (ℕ × ℕ × ℕ)) : Prop :=
  ∀ q, q ∈ Region pts ↔ ∀ f ∈ fs, ∃ p0 p1 p2, pts[f.1]? = some p0 ∧ pts[f.2.1]? = some p1 ∧ pts[f.2.2]? = some p2 ∧
    SameSide pts p0 p1 p2 q

theorem region_bounded (pts : List (V3 ℝ)) : BoundedSet (Region pts) := by
  have h : ∃ R : ℝ, ∀ p ∈ pts, |p.x| ≤ R ∧ |p.y| ≤ R ∧ |p.z| ≤ R := by
    induction pts with
    | nil => exact ⟨0, by simp⟩
    | cons a l ih =>
      obtain ⟨R, hR⟩ := ih
      refine ⟨max R (max |a.x| (max |a.y| |a.z|)), ?_⟩
      intro p hp
      rcases List.mem_cons.mp hp with rfl | hp
      · simp
      · obtain ⟨h1, h2, h3⟩ := hR p hp
        exact ⟨le_max_of_le_left h1, le_max_of_le_left h2, le_max_of_le_left h3⟩
  obtain ⟨R, hR⟩ := h
  refine ⟨R, fun q hq => ?_⟩
  have hconv : Convex ℝ {q : V3 ℝ | |q.x| ≤ R ∧ |q.y| ≤ R ∧ |q.z| ≤ R} := by
    intro x hx y hy a b ha hb hab
    simp only [Set.mem_ofPred_eq, abs_le, V3.add_x, V3.add_y, V3.add_z, V3.smul_x, V3.smul_y, V3.smul_z] at *
    have hb' : b = 1 - a := by linarith
    subst hb'
    refine ⟨⟨?_, ?_⟩, ⟨?_, ?_⟩, ⟨?_, ?_⟩⟩ <;> nlinarith
  exact convexHull_min (fun p hp => hR p hp) hconv hq

theorem facet_make {pts : List (V3 ℝ)} {f : ℕ × ℕ × ℕ} {pl : Plane} (h : facetToPlane pts f = .ok pl) :
    ∃ p0 p1 p2 k, 0 < k ∧ pts[f.1]? = some p0 ∧ pts[f.2.1]? = some p1 ∧ pts[f.2.2]? = some p2 ∧ pl.point = p0 ∧
      ∀ q, pl.sdist q = k * (q - p0).dot ((p1 - p0).cross (p2 - p0)) := by
  unfold facetToPlane pyGet at h
  cases h0 : pts[f.1]? with
  | none => simp [h0, bind, Except.bind] at h
  | some p0 =>
    cases h1 : pts[f.2.1]? with
    | none => simp [h0, h1, bind, Except.bind] at h
    | some p1 =>
      cases h2 : pts[f.2.2]? with
      | none => simp [h0, h1, h2, bind, Except.bind] at h
      | some p2 =>
        simp only [h0, h1, h2, bind, Except.bind] at h
        obtain ⟨e1, e2, e3⟩ := make_normal h
        refine ⟨p0, p1, p2, (norm3 ((p1 - p0).cross (p2 - p0)))⁻¹, inv_pos.mpr e3, rfl, rfl, rfl, e2, fun q => ?_⟩
        rw [Plane.sdist, e1, e2]
        simp only [V3.dot, V3.smul_x, V3.smul_y, V3.smul_z, V3.sub_x, V3.sub_y, V3.sub_z]; ring

/-- One plane of `convex_hull_to_planes`. -/
theorem oriented {pts : List (V3 ℝ)} {f : ℕ × ℕ × ℕ} {pl0 pl : Plane} (hf : facetToPlane pts f = .ok pl0)
    (hpl : (pl0.sdist (mean3 pts) < pl0.tol ∧ pl = pl0) ∨
       (pl0.tol ≤ pl0.sdist (mean3 pts) ∧ pl = { pl0 with normal := -pl0.normal }))
    (hfar : 1 / 10 ^ 5 ≤ pl.distFrom (mean3 pts)) :
    pl.sdist (mean3 pts) < 0 ∧ (∃ n p t, Plane.make n p t = .ok pl) ∧ ∃ p0 p1 p2, pts[f.1]? = some p0 ∧ pts[f.2.1]? = some p1 ∧
      pts[f.2.2]? = some p2 ∧ pl.point = p0 ∧
      ((∃ q, SameSide pts p0 p1 p2 q) → ∀ q, SameSide pts p0 p1 p2 q ↔ Below pl.normal pl.point q) := by
  obtain ⟨hu, htol, -⟩ := facetToPlane_unit hf
  obtain ⟨p0, p1, p2, k, hk, g0, g1, g2, hp, hsd⟩ := facet_make hf
  have hpts : pts ≠ [] := by rintro rfl; simp at g0
  have hbel : ∀ (P : Plane) q, Below P.normal P.point q ↔ P.sdist q ≤ 0 := by
    intro P q
    simp only [Below, Plane.sdist, V3.dot]
    constructor <;> intro h <;> linarith
  have hmean := sdist_mean pl0 pts hpts
  have hlen : (0 : ℝ) < pts.length := by exact_mod_cast List.length_pos_iff.mpr hpts
  have hall0 : (∀ p ∈ pts, 0 ≤ (p - p0).dot ((p1 - p0).cross (p2 - p0))) → 0 ≤ pl0.sdist (mean3 pts) := by
    intro h
    rw [hmean]
    refine mul_nonneg (inv_nonneg.mpr hlen.le) (List.sum_nonneg ?_)
    intro x hx
    obtain ⟨p, hp, rfl⟩ := List.mem_map.mp hx
    rw [hsd]; exact mul_nonneg hk.le (h p hp)
  have hall1 : (∀ p ∈ pts, (p - p0).dot ((p1 - p0).cross (p2 - p0)) ≤ 0) → pl0.sdist (mean3 pts) ≤ 0 := by
    intro h
    rw [hmean]
    refine mul_nonpos_of_nonneg_of_nonpos (inv_nonneg.mpr hlen.le) (sum_nonpos' ?_)
    intro x hx
    obtain ⟨p, hp, rfl⟩ := List.mem_map.mp hx
    rw [hsd]; exact mul_nonpos_of_nonneg_of_nonpos hk.le (h p hp)
  rcases hpl with ⟨hlt, rfl⟩ | ⟨hle, rfl⟩
  · have hneg : pl.sdist (mean3 pts) < 0 := by
      rw [htol] at hlt
      simp only [Plane.distFrom] at hfar
      rcases abs_cases (pl.sdist (mean3 pts)) with ⟨h1, h2⟩ | ⟨h1, h2⟩
      · rw [h1] at hfar; linarith
      · exact h2
    refine ⟨hneg, ⟨pl.normal, pl.point, pl.tol, ?_⟩, p0, p1, p2, g0, g1, g2, hp, ?_⟩
    · have htp : 0 < pl.tol := by rw [htol]; norm_num
      simp [Plane.make, plane_normalSet_unit hu, tolSet, htp, bind, Except.bind, pure, Except.pure]
    · rintro ⟨q', hq'⟩ q
      rw [hbel, hsd q]
      have hside : ∀ p ∈ pts, (p - p0).dot ((p1 - p0).cross (p2 - p0)) ≤ 0 := by
        rcases hq' with ⟨h, -⟩ | ⟨h, -⟩
        · exact h
        · exact absurd (hall0 h) (not_le.mpr hneg)
      constructor
      · rintro (⟨-, h⟩ | ⟨h, -⟩)
        · exact mul_nonpos_of_nonneg_of_nonpos hk.le h
        · exact absurd (hall0 h) (not_le.mpr hneg)
      · intro h
        refine Or.inl ⟨hside, ?_⟩
        by_contra hc
        push Not at hc
        exact absurd h (not_le.mpr (mul_pos hk hc))
  · have hpos : 0 < pl0.sdist (mean3 pts) := by rw [htol] at hle; linarith [show (0 : ℝ) < 1 / 10 ^ 5 by norm_num]
    refine ⟨by rw [sdist_flip]; linarith, ⟨-pl0.normal, pl0.point, pl0.tol, ?_⟩, p0, p1, p2, g0, g1, g2, hp, ?_⟩
    · simp [Plane.make, plane_normalSet_unit (n := -pl0.normal) (by rw [norm3_neg]; exact hu), tolSet, htol, bind, Except.bind,
        pure, Except.pure]
    · rintro ⟨q', hq'⟩ q
      rw [hbel, sdist_flip, hsd q]
      have hside : ∀ p ∈ pts, 0 ≤ (p - p0).dot ((p1 - p0).cross (p2 - p0)) := by
        rcases hq' with ⟨h, -⟩ | ⟨h, -⟩
        · exact absurd (hall1 h) (not_le.mpr hpos)
        · exact h
      constructor
      · rintro (⟨h, -⟩ | ⟨-, h⟩)
        · exact absurd (hall1 h) (not_le.mpr hpos)
        · have := mul_nonneg hk.le h; linarith
      · intro h
        refine Or.inr ⟨hside, ?_⟩
        by_contra hc
        push Not at hc
        have := mul_pos_of_neg_of_neg (neg_neg_of_pos hk) hc
        linarith

/-- **C114, round trip.** The vertices of the hull of points are what `get_bounding_box` finds from the planes of
`convex_hull_to_planes`, if the centroid of the points is farther than the tolerance from the facets and the first points of the
facets do not all have the same vanishing coordinate. -/
theorem C114_round_trip_partial (S : Solvers) (hS : ExactSolvers S) (pts : List (V3 ℝ)) (fs : List (ℕ × ℕ × ℕ)) (ins : V3 ℝ → Bool)
    (planes : List Plane) (h : convexHullToPlanes pts fs ins = .ok planes) (hf : HullFacets pts fs)
    (hfar : ∀ pl ∈ planes, 1 / 10 ^ 5 ≤ pl.distFrom (mean3 pts))
    (hx : ∃ f ∈ fs, ∃ p, pts[f.1]? = some p ∧ p.x ≠ 0) (hy : ∃ f ∈ fs, ∃ p, pts[f.1]? = some p ∧ p.y ≠ 0)
    (hz : ∃ f ∈ fs, ∃ p, pts[f.1]? = some p ∧ p.z ≠ 0) :
    ∃ vs, getBoundingBox S planes = .ok (vs, 0) ∧ {v | v ∈ vs} = (Region pts).extremePoints ℝ ∧ (∀ v ∈ vs, v ∈ pts) ∧
      convexHull ℝ {v | v ∈ vs} = Region pts := by
  have hspec := convexHullToPlanes_spec h
  have hpts : pts ≠ [] := by obtain ⟨f, _, p, hp, _⟩ := hx; rintro rfl; simp at hp
  obtain ⟨q0, hq0⟩ := List.exists_mem_of_ne_nil pts hpts
  have hreg0 : ∀ p ∈ pts, p ∈ Region pts := fun p hp => subset_convexHull ℝ _ hp
  -- pairs of facets and planes
  have hright : ∀ pl ∈ planes, ∃ f ∈ fs, ∃ pl0, facetToPlane pts f = .ok pl0 ∧
      ((pl0.sdist (mean3 pts) < pl0.tol ∧ pl = pl0) ∨
       (pl0.tol ≤ pl0.sdist (mean3 pts) ∧ pl = { pl0 with normal := -pl0.normal })) := by
    clear hfar h hf hx hy hz
    induction hspec with
    | nil => intro pl hpl; cases hpl
    | cons ha _ ih =>
      intro pl hpl
      rcases List.mem_cons.mp hpl with rfl | hpl
      · exact ⟨_, List.mem_cons_self, ha⟩
      · obtain ⟨f, hf, h⟩ := ih pl hpl; exact ⟨f, List.mem_cons_of_mem _ hf, h⟩
  have hleft : ∀ f ∈ fs, ∃ pl ∈ planes, ∃ pl0, facetToPlane pts f = .ok pl0 ∧
      ((pl0.sdist (mean3 pts) < pl0.tol ∧ pl = pl0) ∨
       (pl0.tol ≤ pl0.sdist (mean3 pts) ∧ pl = { pl0 with normal := -pl0.normal })) := by
    clear hfar h hf hx hy hz hright
    induction hspec with
    | nil => intro f hf; cases hf
    | cons ha _ ih =>
      intro f hf
      rcases List.mem_cons.mp hf with rfl | hf
      · exact ⟨_, List.mem_cons_self, ha⟩
      · obtain ⟨pl, hpl, h⟩ := ih f hf; exact ⟨pl, List.mem_cons_of_mem _ hpl, h⟩
  have hsome : ∀ f ∈ fs, ∀ p0 p1 p2, pts[f.1]? = some p0 → pts[f.2.1]? = some p1 → pts[f.2.2]? = some p2 →
      ∃ q, SameSide pts p0 p1 p2 q := by
    intro f hff p0 p1 p2 e0 e1 e2
    obtain ⟨a0, a1, a2, b0, b1, b2, hs⟩ := (hf q0).mp (hreg0 q0 hq0) f hff
    rw [e0] at b0; rw [e1] at b1; rw [e2] at b2
    cases b0; cases b1; cases b2
    exact ⟨_, hs⟩
  have hcell : Cell (faces planes) = Region pts := by
    ext q
    rw [hf q]
    constructor
    · intro hq f hff
      obtain ⟨pl, hpl, pl0, hpl0, hor⟩ := hleft f hff
      obtain ⟨-, -, p0, p1, p2, e0, e1, e2, -, hss⟩ := oriented hpl0 hor (hfar pl hpl)
      exact ⟨p0, p1, p2, e0, e1, e2, (hss (hsome f hff p0 p1 p2 e0 e1 e2) q).mpr
        (hq (pl.normal, pl.point) (List.mem_map.mpr ⟨pl, hpl, rfl⟩))⟩
    · intro hq t ht
      obtain ⟨pl, hpl, rfl⟩ := List.mem_map.mp ht
      obtain ⟨f, hff, pl0, hpl0, hor⟩ := hright pl hpl
      obtain ⟨-, -, p0, p1, p2, e0, e1, e2, -, hss⟩ := oriented hpl0 hor (hfar pl hpl)
      obtain ⟨a0, a1, a2, b0, b1, b2, hs⟩ := hq f hff
      rw [e0] at b0; rw [e1] at b1; rw [e2] at b2
      cases b0; cases b1; cases b2
      exact (hss ⟨_, hs⟩ q).mp hs
  have hmade : Made planes := by
    intro pl hpl
    obtain ⟨f, hff, pl0, hpl0, hor⟩ := hright pl hpl
    exact (oriented hpl0 hor (hfar pl hpl)).2.1
  have hroom : ∃ c r, 0 < r ∧ BallIn (Cell (faces planes)) c r := by
    refine ⟨mean3 pts, room (faces planes) (mean3 pts) ?_⟩
    intro t ht
    obtain ⟨pl, hpl, rfl⟩ := List.mem_map.mp ht
    obtain ⟨f, hff, pl0, hpl0, hor⟩ := hright pl hpl
    have := (oriented hpl0 hor (hfar pl hpl)).1
    rw [Plane.sdist, ← dot_sub_left] at this
    exact this
  have htouch : ∀ pl ∈ planes, pl.point ∈ Cell (faces planes) := by
    intro pl hpl
    obtain ⟨f, hff, pl0, hpl0, hor⟩ := hright pl hpl
    obtain ⟨-, -, p0, p1, p2, e0, e1, e2, hp, -⟩ := oriented hpl0 hor (hfar pl hpl)
    rw [hcell, hp]
    exact hreg0 _ (List.mem_of_getElem? e0)
  have hco : ∀ (g : V3 ℝ → ℝ), (∃ f ∈ fs, ∃ p, pts[f.1]? = some p ∧ g p ≠ 0) → ∃ pl ∈ planes, g pl.point ≠ 0 := by
    rintro g ⟨f, hff, p, hp, hg⟩
    obtain ⟨pl, hpl, pl0, hpl0, hor⟩ := hleft f hff
    obtain ⟨-, -, p0, p1, p2, e0, e1, e2, hpp, -⟩ := oriented hpl0 hor (hfar pl hpl)
    rw [hp] at e0; cases e0
    exact ⟨pl, hpl, by rw [hpp]; exact hg⟩
  obtain ⟨vs, h1, h2, h3⟩ := C114_touching_partial S hS planes hmade (by rw [hcell]; exact region_bounded pts) hroom htouch
    (hco V3.x hx) (hco V3.y hy) (hco V3.z hz)
  rw [hcell] at h2 h3
  refine ⟨vs, h1, h2, fun v hv => ?_, h3⟩
  have : v ∈ (Region pts).extremePoints ℝ := by rw [← h2]; exact hv
  exact extremePoints_convexHull_subset (A := {p | p ∈ pts}) this

/-- A corner with its three neighbours. -/
def cornerPts : List (V3 ℝ) := [⟨1, 1, 1⟩, ⟨2, 1, 1⟩, ⟨1, 2, 1⟩, ⟨1, 1, 2⟩]

/-- The four facets, as Delaunay may list them. -/
def cornerFacets : List (ℕ × ℕ × ℕ) := [(0, 1, 2), (0, 1, 3), (0, 2, 3), (1, 2, 3)]

theorem corner_region (q : V3 ℝ) : q ∈ Region cornerPts ↔ 1 ≤ q.x ∧ 1 ≤ q.y ∧ 1 ≤ q.z ∧ q.x + q.y + q.z ≤ 4 := by
  constructor
  · intro h
    have hconv : Convex ℝ {q : V3 ℝ | 1 ≤ q.x ∧ 1 ≤ q.y ∧ 1 ≤ q.z ∧ q.x + q.y + q.z ≤ 4} := by
      intro x hx y hy a b ha hb hab
      simp only [Set.mem_ofPred_eq, V3.add_x, V3.add_y, V3.add_z, V3.smul_x, V3.smul_y, V3.smul_z] at *
      have hb' : b = 1 - a := by linarith
      subst hb'
      refine ⟨?_, ?_, ?_, ?_⟩ <;> nlinarith
    refine convexHull_min ?_ hconv h
    intro p hp
    simp only [cornerPts, Set.mem_ofPred_eq, List.mem_cons, List.not_mem_nil, or_false] at hp
    rcases hp with rfl | rfl | rfl | rfl <;> norm_num
  · rintro ⟨h1, h2, h3, h4⟩
    have hc := convex_convexHull ℝ {p | p ∈ cornerPts}
    have := hc.sum_mem (t := Finset.univ) (w := ![4 - q.x - q.y - q.z, q.x - 1, q.y - 1, q.z - 1])
      (z := ![⟨1, 1, 1⟩, ⟨2, 1, 1⟩, ⟨1, 2, 1⟩, ⟨1, 1, 2⟩]) (by
        intro i _; fin_cases i <;> simp <;> linarith) (by simp [Fin.sum_univ_four]; ring) (by
        intro i _; apply subset_convexHull; fin_cases i <;> simp [cornerPts])
    convert this using 1
    · rfl
    · simp only [Fin.sum_univ_four]
      ext <;> simp <;> ring

/-- The corner meets the hypotheses of `C114_round_trip_partial`. -/
example : HullFacets cornerPts cornerFacets ∧ ∃ planes, convexHullToPlanes cornerPts cornerFacets (fun _ => true) = .ok planes ∧
    (∀ pl ∈ planes, 1 / 10 ^ 5 ≤ pl.distFrom (mean3 cornerPts)) := by
  constructor
  · intro q
    rw [corner_region]
    simp only [cornerFacets, List.forall_mem_cons, cornerPts]
    simp only [List.getElem?_cons_zero, List.getElem?_cons_succ, Option.some.injEq, exists_eq_left', exists_and_left]
    simp only [SameSide, List.forall_mem_cons, V3.dot, V3.cross, V3.sub_x, V3.sub_y, V3.sub_z]
    norm_num
    constructor
    · rintro ⟨h1, h2, h3, h4⟩
      exact ⟨by linarith, by linarith, by linarith, by linarith⟩
    · rintro ⟨h1, h2, h3, h4⟩
      exact ⟨by linarith, by linarith, by linarith, by linarith⟩
  · have hmean : mean3 cornerPts = ⟨5 / 4, 5 / 4, 5 / 4⟩ := by
      ext <;> simp [mean3, cornerPts] <;> norm_num
    have key : ∀ f ∈ cornerFacets, ∃ pl, facetToPlane cornerPts f = .ok pl ∧ 1 / 10 ^ 5 ≤ |pl.sdist (mean3 cornerPts)| := by
      have one : ∀ (f : ℕ × ℕ × ℕ) (p0 p1 p2 : V3 ℝ), cornerPts[f.1]? = some p0 → cornerPts[f.2.1]? = some p1 →
          cornerPts[f.2.2]? = some p2 → 1 ≤ ((p1 - p0).cross (p2 - p0)).normSq → ((p1 - p0).cross (p2 - p0)).normSq ≤ 4 →
          1 / 4 ≤ |((⟨5 / 4, 5 / 4, 5 / 4⟩ : V3 ℝ) - p0).dot ((p1 - p0).cross (p2 - p0))| →
          ∃ pl, facetToPlane cornerPts f = .ok pl ∧ 1 / 10 ^ 5 ≤ |pl.sdist (mean3 cornerPts)| := by
        intro f p0 p1 p2 h0 h1 h2 hlo hhi hs
        refine ⟨_, (facet_sdist h0 h1 h2 (eps_lt_norm (le_trans (by norm_num) hlo))).mpr rfl, ?_⟩
        have hn1 : 1 ≤ norm3 ((p1 - p0).cross (p2 - p0)) := Real.one_le_sqrt.mpr hlo
        have hn2 : norm3 ((p1 - p0).cross (p2 - p0)) ≤ 2 := by
          rw [norm3, Real.sqrt_le_iff]; constructor <;> linarith
        rw [hmean, Plane.sdist, dot_smul_right, dot_smul_right, ← mul_sub, ← dot_sub_left, abs_mul,
          abs_of_pos (inv_pos.mpr (by linarith))]
        have hk : (1 / 2 : ℝ) ≤ (norm3 ((p1 - p0).cross (p2 - p0)))⁻¹ := by
          rw [← one_div]; exact one_div_le_one_div_of_le (by linarith) hn2
        calc (1 : ℝ) / 10 ^ 5 ≤ 1 / 2 * (1 / 4) := by norm_num
          _ ≤ _ := mul_le_mul hk hs (by norm_num) (by linarith)
      intro f hf
      simp only [cornerFacets, List.mem_cons, List.not_mem_nil, or_false] at hf
      rcases hf with rfl | rfl | rfl | rfl
      · exact one _ ⟨1, 1, 1⟩ ⟨2, 1, 1⟩ ⟨1, 2, 1⟩ rfl rfl rfl (by norm_num [V3.cross, V3.normSq, V3.dot])
          (by norm_num [V3.cross, V3.normSq, V3.dot]) (by norm_num [V3.cross, V3.dot])
      · exact one _ ⟨1, 1, 1⟩ ⟨2, 1, 1⟩ ⟨1, 1, 2⟩ rfl rfl rfl (by norm_num [V3.cross, V3.normSq, V3.dot])
          (by norm_num [V3.cross, V3.normSq, V3.dot]) (by norm_num [V3.cross, V3.dot, abs_div])
      · exact one _ ⟨1, 1, 1⟩ ⟨1, 2, 1⟩ ⟨1, 1, 2⟩ rfl rfl rfl (by norm_num [V3.cross, V3.normSq, V3.dot])
          (by norm_num [V3.cross, V3.normSq, V3.dot]) (by norm_num [V3.cross, V3.dot])
      · exact one _ ⟨2, 1, 1⟩ ⟨1, 2, 1⟩ ⟨1, 1, 2⟩ rfl rfl rfl (by norm_num [V3.cross, V3.normSq, V3.dot])
          (by norm_num [V3.cross, V3.normSq, V3.dot]) (by norm_num [V3.cross, V3.dot, abs_div])
    obtain ⟨planes, hp⟩ := convexHullToPlanes_ok (pts := cornerPts) (fs := cornerFacets) (ins := fun _ => true)
      (fun f hf => by obtain ⟨pl, h, -⟩ := key f hf; exact ⟨pl, h⟩) rfl
    refine ⟨planes, hp, ?_⟩
    have hspec := convexHullToPlanes_spec hp
    clear hp
    generalize cornerFacets = fs at hspec key
    induction hspec with
    | nil => simp
    | cons ha _ ih =>
      intro pl hpl
      rcases List.mem_cons.mp hpl with rfl | hpl
      · obtain ⟨pl0, h0, hor⟩ := ha
        obtain ⟨pl1, h1, h2⟩ := key _ List.mem_cons_self
        rw [h0] at h1; cases h1
        rcases hor with ⟨-, rfl⟩ | ⟨-, rfl⟩
        · exact h2
        · rw [Plane.distFrom, sdist_flip, abs_neg]; exact h2
      · exact ih (fun f hf => key f (List.mem_cons_of_mem _ hf)) pl hpl

end
end CZ
