import Verif.BoundingLemmas

/-!
# C114: the region cut out by planes

`get_bounding_box(planes)` is documented to return the vertices of the region interior to all planes with status 0, status 2 if
there is no such region and status 3 if it is unbounded.  `linprog` is called without `bounds`, so the centre of the ball it looks
for has non-negative coordinates after the shift by 3/2 of the lowest coordinates of the plane points.
-/

namespace CZ
open Spec

noncomputable section
open Classical

/-- Outward normal and point of every plane. -/
def faces (planes : List Plane) : List (V3 ℝ × V3 ℝ) := planes.map fun pl => (pl.normal, pl.point)

/-- Planes as the constructor makes them. -/
def Made (planes : List Plane) : Prop := ∀ pl ∈ planes, ∃ n p t, Plane.make n p t = .ok pl

theorem make_normal {n p : V3 ℝ} {t : ℝ} {pl : Plane} (h : Plane.make n p t = .ok pl) :
    pl.normal = (norm3 n)⁻¹ • n ∧ pl.point = p ∧ 0 < norm3 n := by
  simp only [Plane.make, Plane.normalSet, tolSet] at h
  split_ifs at h with h1 h2
  · cases h; exact ⟨rfl, rfl, lt_trans machEps_pos h1⟩
  · cases h
  · cases h
  · cases h

theorem make_below {n p : V3 ℝ} {t : ℝ} {pl : Plane} (h : Plane.make n p t = .ok pl) (q : V3 ℝ) :
    Below pl.normal pl.point q ↔ Below n p q := by
  obtain ⟨h1, h2, h3⟩ := make_normal h
  rw [h1, h2]
  simp only [Below, V3.smul_x, V3.smul_y, V3.smul_z]
  have : (q.x - p.x) * ((norm3 n)⁻¹ * n.x) + (q.y - p.y) * ((norm3 n)⁻¹ * n.y) + (q.z - p.z) * ((norm3 n)⁻¹ * n.z) =
      (norm3 n)⁻¹ * ((q.x - p.x) * n.x + (q.y - p.y) * n.y + (q.z - p.z) * n.z) := by ring
  rw [this]
  have hpos : 0 < (norm3 n)⁻¹ := inv_pos.mpr h3
  constructor
  · intro h; by_contra hc; push Not at hc; nlinarith [mul_pos hpos hc]
  · intro h; nlinarith

theorem made_norm {planes : List Plane} (h : Made planes) : ∀ pl ∈ planes, norm3 pl.normal = 1 := by
  intro pl hpl
  obtain ⟨n, p, t, hm⟩ := h pl hpl
  obtain ⟨h1, -, h3⟩ := make_normal hm
  rw [h1, norm3_unit h3.ne']

/-! ### Balls and rows -/

theorem ball_iff (hs : List (V3 ℝ × V3 ℝ)) (c : V3 ℝ) (r : ℝ) (hr : 0 ≤ r) :
    BallIn (Cell hs) c r ↔ ∀ h ∈ hs, (c - h.2).dot h.1 + norm3 h.1 * r ≤ 0 := by
  constructor
  · intro hb h hh
    by_cases h0 : norm3 h.1 = 0
    · have : h.1 = 0 := (norm3_eq_zero _).mp h0
      rw [h0, this]; simp [V3.dot]
    · have hq := hb (c + (r / norm3 h.1) • h.1) (by
        rw [dist_eq, show c + (r / norm3 h.1) • h.1 - c = (r / norm3 h.1) • h.1 by abel, norm3_smul,
          abs_of_nonneg (div_nonneg hr (norm3_nonneg _)), div_mul_cancel₀ _ h0]) h hh
      have hns : h.1.normSq = norm3 h.1 * norm3 h.1 := (norm3_mul_self _).symm
      simp only [Below, V3.add_x, V3.add_y, V3.add_z, V3.smul_x, V3.smul_y, V3.smul_z] at hq
      have hr' : r / norm3 h.1 * (norm3 h.1 * norm3 h.1) = norm3 h.1 * r := by field_simp
      rw [← hns] at hr'
      simp only [V3.normSq, V3.dot] at hr'
      simp only [V3.dot, V3.sub_x, V3.sub_y, V3.sub_z]
      nlinarith
  · intro hall q hq h hh
    have h1 := hall h hh
    have h2 := (abs_le.mp (abs_dot_le (q - c) h.1)).2
    rw [dist_eq] at hq
    have h3 : norm3 (q - c) * norm3 h.1 ≤ r * norm3 h.1 := mul_le_mul_of_nonneg_right hq (norm3_nonneg _)
    simp only [V3.dot, V3.sub_x, V3.sub_y, V3.sub_z] at h1 h2
    simp only [Below]
    nlinarith

/-- The rows handed to `linprog`. -/
def lpRows (planes : List Plane) : List (V3 ℝ × ℝ × ℝ) :=
  (planes.map (planeRow (planeShift planes))).map fun t => (t.1, t.2.2, -1 * t.2.1)

/-- The rows handed to `HalfspaceIntersection`. -/
def hsRows (planes : List Plane) : List (V3 ℝ × ℝ) :=
  (planes.map (planeRow (planeShift planes))).map fun t => (t.1, t.2.1)

theorem feasible_iff (planes : List Plane) (x : V3 ℝ) (r : ℝ) :
    Feasible (lpRows planes) x r ↔ 0 ≤ x.x ∧ 0 ≤ x.y ∧ 0 ≤ x.z ∧ 0 ≤ r ∧
      BallIn (Cell (faces planes)) (x - planeShift planes) r := by
  unfold Feasible
  constructor
  · rintro ⟨h1, h2, h3, h4, h5⟩
    refine ⟨h1, h2, h3, h4, (ball_iff _ _ _ h4).mpr ?_⟩
    intro h hh
    obtain ⟨pl, hpl, rfl⟩ := List.mem_map.mp hh
    have := h5 (pl.normal, norm3 pl.normal, -1 * (-1 * pl.normal.dot (pl.point + planeShift planes))) (by
      simp only [lpRows, List.map_map, List.mem_map]
      exact ⟨pl, hpl, rfl⟩)
    simp only [V3.dot, V3.add_x, V3.add_y, V3.add_z] at this
    simp only [V3.dot, V3.sub_x, V3.sub_y, V3.sub_z]
    nlinarith
  · rintro ⟨h1, h2, h3, h4, h5⟩
    refine ⟨h1, h2, h3, h4, ?_⟩
    intro t ht
    simp only [lpRows, List.map_map, List.mem_map] at ht
    obtain ⟨pl, hpl, rfl⟩ := ht
    have := (ball_iff _ _ _ h4).mp h5 (pl.normal, pl.point) (List.mem_map.mpr ⟨pl, hpl, rfl⟩)
    simp only [V3.dot, V3.sub_x, V3.sub_y, V3.sub_z] at this
    simp only [planeRow, Function.comp, V3.dot, V3.add_x, V3.add_y, V3.add_z]
    nlinarith

theorem hs_lhs (planes : List Plane) (pl : Plane) (q : V3 ℝ) :
    lhs (pl.normal, -1 * pl.normal.dot (pl.point + planeShift planes)) q =
      (q - planeShift planes - pl.point).dot pl.normal := by
  simp only [lhs, V3.dot, V3.add_x, V3.add_y, V3.add_z, V3.sub_x, V3.sub_y, V3.sub_z]; ring

theorem hs_ineqs (planes : List Plane) (q : V3 ℝ) :
    q ∈ Ineqs (hsRows planes) ↔ q - planeShift planes ∈ Cell (faces planes) := by
  rw [mem_ineqs]
  constructor
  · intro h t ht
    obtain ⟨pl, hpl, rfl⟩ := List.mem_map.mp ht
    have := h (pl.normal, -1 * pl.normal.dot (pl.point + planeShift planes)) (by
      simp only [hsRows, List.map_map, List.mem_map]; exact ⟨pl, hpl, rfl⟩)
    rw [hs_lhs] at this
    exact this
  · intro h t ht
    simp only [hsRows, List.map_map, List.mem_map] at ht
    obtain ⟨pl, hpl, rfl⟩ := ht
    have := h (pl.normal, pl.point) (List.mem_map.mpr ⟨pl, hpl, rfl⟩)
    show lhs (pl.normal, -1 * pl.normal.dot (pl.point + planeShift planes)) q ≤ 0
    rw [hs_lhs]
    exact this

theorem hs_strict (planes : List Plane) (q : V3 ℝ) :
    Strict (hsRows planes) q ↔ ∀ pl ∈ planes, (q - planeShift planes - pl.point).dot pl.normal < 0 := by
  constructor
  · intro h pl hpl
    rw [← hs_lhs]
    exact h _ (by simp only [hsRows, List.map_map, List.mem_map]; exact ⟨pl, hpl, rfl⟩)
  · intro h t ht
    simp only [hsRows, List.map_map, List.mem_map] at ht
    obtain ⟨pl, hpl, rfl⟩ := ht
    have := h pl hpl
    rw [← hs_lhs] at this
    exact this

/-- Slack in finitely many inequalities leaves room for a ball. -/
theorem room (hs : List (V3 ℝ × V3 ℝ)) (c : V3 ℝ) (h : ∀ t ∈ hs, (c - t.2).dot t.1 < 0) :
    ∃ r, 0 < r ∧ BallIn (Cell hs) c r := by
  have : ∃ r : ℝ, 0 < r ∧ ∀ t ∈ hs, (c - t.2).dot t.1 + norm3 t.1 * r ≤ 0 := by
    induction hs with
    | nil => exact ⟨1, one_pos, by simp⟩
    | cons t ts ih =>
      obtain ⟨r, hr, hts⟩ := ih (fun u hu => h u (List.mem_cons_of_mem _ hu))
      have ht := h t List.mem_cons_self
      have hpos : 0 < norm3 t.1 + 1 := by have := norm3_nonneg t.1; linarith
      refine ⟨min r (-(c - t.2).dot t.1 / (norm3 t.1 + 1)), lt_min hr (div_pos (by linarith) hpos), ?_⟩
      have hmin0 : 0 ≤ min r (-(c - t.2).dot t.1 / (norm3 t.1 + 1)) := le_of_lt (lt_min hr (div_pos (by linarith) hpos))
      intro u hu
      rcases List.mem_cons.mp hu with rfl | hu
      · have h1 : min r (-(c - u.2).dot u.1 / (norm3 u.1 + 1)) * (norm3 u.1 + 1) ≤ -(c - u.2).dot u.1 := by
          rw [← le_div_iff₀ hpos]; exact min_le_right _ _
        nlinarith
      · have h1 := hts u hu
        have h2 : min r (-(c - t.2).dot t.1 / (norm3 t.1 + 1)) ≤ r := min_le_left _ _
        have h3 := mul_le_mul_of_nonneg_left h2 (norm3_nonneg u.1)
        linarith
  obtain ⟨r, hr, h⟩ := this
  exact ⟨r, hr, (ball_iff _ _ _ hr.le).mpr h⟩

/-- A ball in a bounded set is small. -/
theorem ball_small {S : Set (V3 ℝ)} {R : ℝ} (hR : ∀ q ∈ S, |q.x| ≤ R ∧ |q.y| ≤ R ∧ |q.z| ≤ R) {c : V3 ℝ} {r : ℝ}
    (hr : 0 ≤ r) (h : BallIn S c r) : |r| ≤ 2 * R := by
  have hd : ∀ s : ℝ, |s| ≤ r → Spec.dist (c + (⟨s, 0, 0⟩ : V3 ℝ)) c ≤ r := by
    intro s hs
    rw [dist_eq, show c + (⟨s, 0, 0⟩ : V3 ℝ) - c = ⟨s, 0, 0⟩ by abel]
    have : norm3 (⟨s, 0, 0⟩ : V3 ℝ) = |s| := by
      simp only [norm3, V3.normSq, V3.dot, mul_zero, add_zero]; exact Real.sqrt_mul_self_eq_abs s
    rw [this]; exact hs
  have h1 := (hR _ (h _ (hd r (abs_of_nonneg hr).le))).1
  have h2 := (hR _ (h _ (hd 0 (by simpa using hr)))).1
  simp only [V3.add_x, add_zero] at h1 h2
  rw [abs_le] at h1 h2 ⊢
  constructor <;> linarith [h1.1, h1.2, h2.1, h2.2]

theorem center_mem {S : Set (V3 ℝ)} {c : V3 ℝ} {r : ℝ} (hr : 0 ≤ r) (h : BallIn S c r) : c ∈ S :=
  h c (by rw [dist_eq, sub_self, (norm3_eq_zero _).mpr rfl]; exact hr)

/-! ### The shift -/

theorem fold_le (planes : List Plane) (s : V3 ℝ) (m : V3 ℝ) :
    ((planes.foldl (fun s pl => min3 s pl.point) s).x ≤ m.x ↔ s.x ≤ m.x ∨ ∃ pl ∈ planes, pl.point.x ≤ m.x) ∧
    ((planes.foldl (fun s pl => min3 s pl.point) s).y ≤ m.y ↔ s.y ≤ m.y ∨ ∃ pl ∈ planes, pl.point.y ≤ m.y) ∧
    ((planes.foldl (fun s pl => min3 s pl.point) s).z ≤ m.z ↔ s.z ≤ m.z ∨ ∃ pl ∈ planes, pl.point.z ≤ m.z) := by
  induction planes generalizing s with
  | nil => simp
  | cons pl ps ih =>
    obtain ⟨h1, h2, h3⟩ := ih (min3 s pl.point)
    simp only [List.foldl_cons, h1, h2, h3]
    simp only [min3, min_le_iff, List.exists_mem_cons_iff, or_assoc, and_self]

/-- Nothing in the coordinates of `c` is below 3/2 of every one of 0 and the coordinates of the plane points. -/
def Reach (planes : List Plane) (c : V3 ℝ) : Prop :=
  (∃ w ∈ (0 : V3 ℝ) :: planes.map Plane.point, 3 / 2 * w.x ≤ c.x) ∧
  (∃ w ∈ (0 : V3 ℝ) :: planes.map Plane.point, 3 / 2 * w.y ≤ c.y) ∧
  (∃ w ∈ (0 : V3 ℝ) :: planes.map Plane.point, 3 / 2 * w.z ≤ c.z)

theorem shift_nonneg (planes : List Plane) (c : V3 ℝ) :
    (0 ≤ (c + planeShift planes).x ∧ 0 ≤ (c + planeShift planes).y ∧ 0 ≤ (c + planeShift planes).z) ↔ Reach planes c := by
  obtain ⟨h1, h2, h3⟩ := fold_le planes 0 ((2 / 3 : ℝ) • c)
  simp only [V3.smul_x, V3.smul_y, V3.smul_z, V3.zero_x, V3.zero_y, V3.zero_z] at h1 h2 h3
  have conv : ∀ a b : ℝ, 3 / 2 * a ≤ b ↔ a ≤ 2 / 3 * b := fun a b => by constructor <;> intro h <;> linarith
  simp only [Reach, List.exists_mem_cons_iff, List.mem_map, exists_exists_and_eq_and, conv, V3.zero_x, V3.zero_y, V3.zero_z,
    ← h1, ← h2, ← h3, planeShift, V3.add_x, V3.add_y, V3.add_z, V3.smul_x, V3.smul_y, V3.smul_z]
  constructor
  · rintro ⟨a, b, c⟩; exact ⟨by linarith, by linarith, by linarith⟩
  · rintro ⟨a, b, c⟩; exact ⟨by linarith, by linarith, by linarith⟩

/-! ### The function -/

theorem box_eq (S : Solvers) (planes : List Plane) (hne : planes ≠ []) :
    getBoundingBox S planes =
      if (S.linprog (0, -1) (lpRows planes)).status = 0 then
        match S.halfspaces (hsRows planes) (S.linprog (0, -1) (lpRows planes)).x with
        | none => .ok ([], 2)
        | some vs => .ok (vs.map (· - planeShift planes), (S.linprog (0, -1) (lpRows planes)).status)
      else .ok ([], (S.linprog (0, -1) (lpRows planes)).status) := by
  unfold getBoundingBox
  rw [if_neg hne]
  rfl

theorem cost_eq (x : V3 ℝ) (r : ℝ) : cost (0, -1) x r = -r := by simp [cost]

/-- **C114.** The only error is the one for an empty list. -/
theorem C114_raises (S : Solvers) (planes : List Plane) (e : PyErr) :
    getBoundingBox S planes = .error e ↔ planes = [] ∧ e = .index := by
  by_cases hne : planes = []
  · subst hne; simp [getBoundingBox, eq_comm]
  · rw [box_eq S planes hne]
    constructor
    · intro h
      split at h
      · split at h <;> cases h
      · cases h
    · rintro ⟨h, _⟩; exact absurd h hne

/-- Cells and inequalities are the same up to the shift. -/
theorem bounded_shift (planes : List Plane) (hb : BoundedSet (Cell (faces planes))) : BoundedSet (Ineqs (hsRows planes)) := by
  obtain ⟨R, hR⟩ := hb
  set s := planeShift planes
  refine ⟨R + (|s.x| + |s.y| + |s.z|), ?_⟩
  intro q hq
  obtain ⟨h1, h2, h3⟩ := hR _ ((hs_ineqs planes q).mp hq)
  simp only [V3.sub_x, V3.sub_y, V3.sub_z] at h1 h2 h3
  have a1 := abs_nonneg s.x
  have a2 := abs_nonneg s.y
  have a3 := abs_nonneg s.z
  have b1 := abs_sub_abs_le_abs_sub q.x s.x
  have b2 := abs_sub_abs_le_abs_sub q.y s.y
  have b3 := abs_sub_abs_le_abs_sub q.z s.z
  refine ⟨by linarith, by linarith, by linarith⟩

theorem extreme_shift (planes : List Plane) (v : V3 ℝ) :
    v + planeShift planes ∈ (Ineqs (hsRows planes)).extremePoints ℝ ↔ v ∈ (Cell (faces planes)).extremePoints ℝ := by
  set s := planeShift planes
  have key : ∀ q, q + s ∈ Ineqs (hsRows planes) ↔ q ∈ Cell (faces planes) := by
    intro q; rw [hs_ineqs]; simp [s]
  simp only [mem_extremePoints, key]
  refine and_congr_right fun _ => ?_
  constructor
  · intro h a ha b hb hv
    have := h (a + s) ((key a).mpr ha) (b + s) ((key b).mpr hb) (by
      rw [add_comm v, add_comm a, add_comm b]; exact (mem_openSegment_translate ℝ s).mpr hv)
    exact ⟨add_right_cancel this.1, add_right_cancel this.2⟩
  · intro h a ha b hb hv
    have ha' : a - s ∈ Cell (faces planes) := (key _).mp (by rwa [sub_add_cancel])
    have hb' : b - s ∈ Cell (faces planes) := (key _).mp (by rwa [sub_add_cancel])
    have := h _ ha' _ hb' ((mem_openSegment_translate ℝ s).mp (by
      rw [add_comm s v, add_sub_cancel, add_sub_cancel]; exact hv))
    exact ⟨by rw [← this.1, sub_add_cancel], by rw [← this.2, sub_add_cancel]⟩

theorem cell_ineqs (hs : List (V3 ℝ × V3 ℝ)) :
    Cell hs = Ineqs (hs.map fun h => (h.1, -(h.2.dot h.1))) := by
  ext q
  simp only [Cell, Ineqs, Set.mem_setOf_eq, List.forall_mem_map, Below, V3.dot]
  refine forall₂_congr fun h _ => ?_
  constructor <;> intro h' <;> nlinarith

/-- **C114.** Status 0 for a bounded region: the points returned are exactly the vertices of the region, and the region is their
convex hull. -/
theorem C114_vertices (S : Solvers) (hS : ExactSolvers S) (planes : List Plane) (vs : List (V3 ℝ))
    (hb : BoundedSet (Cell (faces planes))) (h : getBoundingBox S planes = .ok (vs, 0)) :
    {v | v ∈ vs} = (Cell (faces planes)).extremePoints ℝ ∧ convexHull ℝ {v | v ∈ vs} = Cell (faces planes) := by
  have hne : planes ≠ [] := by
    intro h0; rw [(C114_raises S planes .index).mpr ⟨h0, rfl⟩] at h; cases h
  have hext : {v | v ∈ vs} = (Cell (faces planes)).extremePoints ℝ := by
    rw [box_eq S planes hne] at h
    split at h
    · split at h
      · cases h
      · rename_i vs' hvs
        have h' : vs'.map (· - planeShift planes) = vs := by injection h with h; injection h
        have hst : Strict (hsRows planes) (S.linprog (0, -1) (lpRows planes)).x := by
          by_contra hc
          rw [(hS.hs _ _).fails hc] at hvs; cases hvs
        obtain ⟨ws, hws, hset⟩ := (hS.hs _ _).succeeds hst (bounded_shift planes hb)
        rw [hvs] at hws
        cases hws
        ext v
        rw [← extreme_shift, ← hset, ← h']
        simp only [Set.mem_ofPred_eq, List.mem_map]
        constructor
        · rintro ⟨a, ha, rfl⟩; rwa [sub_add_cancel]
        · intro hv; exact ⟨_, hv, add_sub_cancel_right _ _⟩
    · rename_i h0
      have h' : (S.linprog (0, -1) (lpRows planes)).status = 0 := by injection h with h; injection h
      exact absurd h' h0
  refine ⟨hext, ?_⟩
  rw [hext]
  have := ineqs_hull ((faces planes).map fun h => (h.1, -(h.2.dot h.1))) (by rw [← cell_ineqs]; exact hb)
  rwa [← cell_ineqs] at this

/-- **C114.** For a bounded region: status 0 exactly when a ball fits into the region whose centre is in reach of the shift. -/
theorem C114_success (S : Solvers) (hS : ExactSolvers S) (planes : List Plane) (hne : planes ≠ []) (hm : Made planes)
    (hb : BoundedSet (Cell (faces planes))) :
    (∃ vs, getBoundingBox S planes = .ok (vs, 0)) ↔
      ∃ c r, 0 < r ∧ BallIn (Cell (faces planes)) c r ∧ Reach planes c := by
  have hlp := hS.lp (0, -1) (lpRows planes)
  set res := S.linprog (0, -1) (lpRows planes) with hres
  rw [box_eq S planes hne, ← hres]
  constructor
  · rintro ⟨vs, h⟩
    split at h
    · rename_i h0
      split at h
      · cases h
      · rename_i vs' hvs
        have hst : Strict (hsRows planes) res.x := by
          by_contra hc
          rw [(hS.hs _ _).fails hc] at hvs; cases hvs
        have hopt := (hlp.optimal h0).1
        obtain ⟨f1, f2, f3, -, -⟩ := (feasible_iff _ _ _).mp hopt
        obtain ⟨r, hr, hball⟩ := room (faces planes) (res.x - planeShift planes) (by
          intro t ht
          obtain ⟨pl, hpl, rfl⟩ := List.mem_map.mp ht
          exact (hs_strict planes res.x).mp hst pl hpl)
        refine ⟨_, r, hr, hball, (shift_nonneg _ _).mp ?_⟩
        rw [sub_add_cancel]; exact ⟨f1, f2, f3⟩
    · rename_i h0
      have h' : res.status = 0 := by injection h with h; injection h
      exact absurd h' h0
  · rintro ⟨c, r, hr, hball, hreach⟩
    obtain ⟨s1, s2, s3⟩ := (shift_nonneg planes c).mpr hreach
    have hfeas : Feasible (lpRows planes) (c + planeShift planes) r :=
      (feasible_iff _ _ _).mpr ⟨s1, s2, s3, hr.le, by rwa [add_sub_cancel_right]⟩
    obtain ⟨R, hR⟩ := bounded_shift planes hb
    obtain ⟨R', hR'⟩ := hb
    have h0 : res.status = 0 := hlp.zero.mpr (optimum_exists _ _ ⟨_, _, hfeas⟩ ⟨max R (2 * R'), by
      intro x r hf
      obtain ⟨-, -, -, hr, hball⟩ := (feasible_iff _ _ _).mp hf
      obtain ⟨b1, b2, b3⟩ := hR x ((hs_ineqs planes x).mpr (center_mem hr hball))
      exact ⟨le_max_of_le_left b1, le_max_of_le_left b2, le_max_of_le_left b3, le_max_of_le_right (ball_small hR' hr hball)⟩⟩)
    have hopt := hlp.optimal h0
    have hrpos : 0 < res.r := by
      have := hopt.2 _ _ hfeas
      rw [cost_eq, cost_eq] at this
      linarith
    have hst : Strict (hsRows planes) res.x := by
      rw [hs_strict]
      intro pl hpl
      obtain ⟨-, -, -, hr', hball'⟩ := (feasible_iff _ _ _).mp hopt.1
      have := (ball_iff _ _ _ hr').mp hball' (pl.normal, pl.point) (List.mem_map.mpr ⟨pl, hpl, rfl⟩)
      rw [made_norm hm pl hpl] at this
      linarith
    obtain ⟨ws, hws, -⟩ := (hS.hs _ _).succeeds hst ⟨R, hR⟩
    rw [if_pos h0, hws, h0]
    exact ⟨_, rfl⟩

/-- **C114.** No ball fits into the region with its centre in reach: no vertices, status 2. -/
theorem C114_out_of_reach (S : Solvers) (hS : ExactSolvers S) (planes : List Plane) (hne : planes ≠ [])
    (h : ¬ ∃ c r, 0 < r ∧ BallIn (Cell (faces planes)) c r ∧ Reach planes c) : getBoundingBox S planes = .ok ([], 2) := by
  have hlp := hS.lp (0, -1) (lpRows planes)
  set res := S.linprog (0, -1) (lpRows planes) with hres
  have hzero : ∀ x r, Feasible (lpRows planes) x r → r = 0 := by
    intro x r hf
    obtain ⟨f1, f2, f3, hr, hball⟩ := (feasible_iff _ _ _).mp hf
    by_contra hc
    exact h ⟨_, r, lt_of_le_of_ne hr (Ne.symm hc), hball, (shift_nonneg _ _).mp (by
      rw [sub_add_cancel]; exact ⟨f1, f2, f3⟩)⟩
  rw [box_eq S planes hne, ← hres]
  by_cases hf : ∃ x r, Feasible (lpRows planes) x r
  · obtain ⟨x, r, hx⟩ := hf
    have h0 : res.status = 0 := hlp.zero.mpr ⟨x, r, hx, fun y s hy => by
      rw [cost_eq, cost_eq, hzero _ _ hx, hzero _ _ hy]⟩
    have hns : ¬ Strict (hsRows planes) res.x := by
      intro hst
      obtain ⟨f1, f2, f3, -, -⟩ := (feasible_iff _ _ _).mp (hlp.optimal h0).1
      obtain ⟨r, hr, hball⟩ := room (faces planes) (res.x - planeShift planes) (by
          intro t ht
          obtain ⟨pl, hpl, rfl⟩ := List.mem_map.mp ht
          exact (hs_strict planes res.x).mp hst pl hpl)
      exact h ⟨_, r, hr, hball, (shift_nonneg _ _).mp (by rw [sub_add_cancel]; exact ⟨f1, f2, f3⟩)⟩
    rw [if_pos h0, (hS.hs _ _).fails hns]
  · have h2 : res.status = 2 := hlp.two.mpr hf
    rw [if_neg (by rw [h2]; norm_num), h2]

/-- **C114.** A region without room for any ball: no vertices, status 2. -/
theorem C114_no_region (S : Solvers) (hS : ExactSolvers S) (planes : List Plane) (hne : planes ≠ [])
    (h : ¬ ∃ c r, 0 < r ∧ BallIn (Cell (faces planes)) c r) : getBoundingBox S planes = .ok ([], 2) :=
  C114_out_of_reach S hS planes hne fun ⟨c, r, hr, hb, _⟩ => h ⟨c, r, hr, hb⟩

/-- **C114.** Status 3 exactly when balls of every size fit into the region with centres in reach of the shift. -/
theorem C114_unbounded (S : Solvers) (hS : ExactSolvers S) (planes : List Plane) (hne : planes ≠ []) :
    getBoundingBox S planes = .ok ([], 3) ↔ ∀ B : ℝ, ∃ c, BallIn (Cell (faces planes)) c B ∧ Reach planes c := by
  have hlp := hS.lp (0, -1) (lpRows planes)
  set res := S.linprog (0, -1) (lpRows planes) with hres
  have hthree : getBoundingBox S planes = .ok ([], 3) ↔ res.status = 3 := by
    rw [box_eq S planes hne, ← hres]
    constructor
    · intro h
      split at h
      · rename_i h0
        split at h
        · cases h
        · injection h with h; injection h
      · injection h with h; injection h
    · intro h; rw [if_neg (by rw [h]; norm_num), h]
  rw [hthree, hlp.three]
  constructor
  · intro h B
    obtain ⟨x, r, hf, hc⟩ := h (-B)
    obtain ⟨f1, f2, f3, hr, hball⟩ := (feasible_iff _ _ _).mp hf
    rw [cost_eq] at hc
    refine ⟨x - planeShift planes, fun q hq => hball q (by linarith), (shift_nonneg _ _).mp ?_⟩
    rw [sub_add_cancel]; exact ⟨f1, f2, f3⟩
  · intro h B
    obtain ⟨c, hball, hreach⟩ := h (|B| + 1)
    obtain ⟨s1, s2, s3⟩ := (shift_nonneg planes c).mpr hreach
    refine ⟨c + planeShift planes, |B| + 1, (feasible_iff _ _ _).mpr ⟨s1, s2, s3, by positivity, by
      rwa [add_sub_cancel_right]⟩, ?_⟩
    rw [cost_eq]
    have := neg_abs_le B
    linarith

/-- **C114.** Enough for success: a bounded region with room for a ball, no point of which has a coordinate lower than that
coordinate of every plane point. -/
theorem C114_region_partial (S : Solvers) (hS : ExactSolvers S) (planes : List Plane) (hne : planes ≠ []) (hm : Made planes)
    (hb : BoundedSet (Cell (faces planes))) (hroom : ∃ c r, 0 < r ∧ BallIn (Cell (faces planes)) c r)
    (hlow : ∀ q ∈ Cell (faces planes), (∃ pl ∈ planes, pl.point.x ≤ q.x) ∧ (∃ pl ∈ planes, pl.point.y ≤ q.y) ∧
      ∃ pl ∈ planes, pl.point.z ≤ q.z) :
    ∃ vs, getBoundingBox S planes = .ok (vs, 0) ∧ convexHull ℝ {v | v ∈ vs} = Cell (faces planes) := by
  obtain ⟨c, r, hr, hball⟩ := hroom
  obtain ⟨vs, hvs⟩ := (C114_success S hS planes hne hm hb).mpr ⟨c, r, hr, hball, by
    have pick : ∀ (f : V3 ℝ → ℝ), f 0 = 0 → (∃ pl ∈ planes, f pl.point ≤ f c) →
        ∃ w ∈ (0 : V3 ℝ) :: planes.map Plane.point, 3 / 2 * f w ≤ f c := by
      rintro f f0 ⟨pl, hpl, hle⟩
      by_cases h0 : 0 ≤ f c
      · exact ⟨0, List.mem_cons_self, by rw [f0]; simpa using h0⟩
      · exact ⟨pl.point, List.mem_cons_of_mem _ (List.mem_map.mpr ⟨pl, hpl, rfl⟩), by push Not at h0; linarith⟩
    obtain ⟨h1, h2, h3⟩ := hlow c (center_mem hr.le hball)
    exact ⟨pick V3.x rfl h1, pick V3.y rfl h2, pick V3.z rfl h3⟩⟩
  exact ⟨vs, hvs, (C114_vertices S hS planes vs hb hvs).2⟩

/-! ### Concrete regions -/

/-- The plane with the given normal and point, default tolerance. -/
def mk (n p : V3 ℝ) : Plane := ⟨(norm3 n)⁻¹ • n, p, 1 / 10 ^ 5⟩

theorem mk_make (n p : V3 ℝ) (h : 1 ≤ n.normSq) : Plane.make n p (1 / 10 ^ 5) = .ok (mk n p) := by
  have h1 : 1 ≤ norm3 n := by rw [norm3]; exact Real.one_le_sqrt.mpr h
  have h2 : norm3 n > machEps := by
    have : machEps < 1 := by unfold machEps; norm_num
    linarith
  simp only [Plane.make, Plane.normalSet, tolSet, if_pos h2]
  norm_num [mk]
  rfl

theorem mk_made (l : List (V3 ℝ × V3 ℝ)) (h : ∀ t ∈ l, 1 ≤ t.1.normSq) : Made (l.map fun t => mk t.1 t.2) := by
  intro pl hpl
  obtain ⟨t, ht, rfl⟩ := List.mem_map.mp hpl
  exact ⟨_, _, _, mk_make t.1 t.2 (h t ht)⟩

theorem mk_cell (l : List (V3 ℝ × V3 ℝ)) (h : ∀ t ∈ l, 1 ≤ t.1.normSq) :
    Cell (faces (l.map fun t => mk t.1 t.2)) = Cell l := by
  ext q
  simp only [Cell, faces, List.map_map, Set.mem_ofPred_eq, List.forall_mem_map, Function.comp]
  exact forall₂_congr fun t ht => make_below (mk_make t.1 t.2 (h t ht)) q

theorem ball_coords {q c : V3 ℝ} {r : ℝ} (h : Spec.dist q c ≤ r) : |q.x - c.x| ≤ r ∧ |q.y - c.y| ≤ r ∧ |q.z - c.z| ≤ r := by
  unfold Spec.dist at h
  refine ⟨le_trans (Real.abs_le_sqrt ?_) h, le_trans (Real.abs_le_sqrt ?_) h, le_trans (Real.abs_le_sqrt ?_) h⟩ <;>
    nlinarith [sq_nonneg (q.x - c.x), sq_nonneg (q.y - c.y), sq_nonneg (q.z - c.z)]

/-- A frustum in the octant of negative coordinates, its apex at the origin cut off. -/
def frustum : List (V3 ℝ × V3 ℝ) :=
  [(⟨2, -1, 0⟩, 0), (⟨-1, 2, 0⟩, 0), (⟨2, 0, -1⟩, 0), (⟨-1, 0, 2⟩, 0), (⟨-1, 0, 0⟩, ⟨-10, 0, 0⟩), (⟨1, 0, 0⟩, ⟨-1, 0, 0⟩)]

/-- **C114, refuted as documented (status 2).** A bounded region in which a ball of radius 1 fits is reported as absent. -/
theorem C114_infeasible_refuted : ∃ planes, Made planes ∧ planes ≠ [] ∧ BoundedSet (Cell (faces planes)) ∧
    (∃ c, BallIn (Cell (faces planes)) c 1) ∧ ∀ S, ExactSolvers S → getBoundingBox S planes = .ok ([], 2) := by
  have hn : ∀ t ∈ frustum, 1 ≤ t.1.normSq := by
    intro t ht
    simp only [frustum, List.mem_cons, List.not_mem_nil, or_false] at ht
    rcases ht with rfl | rfl | rfl | rfl | rfl | rfl <;> norm_num [V3.normSq, V3.dot]
  have hcell : ∀ q, q ∈ Cell frustum ↔
      2 * q.x ≤ q.y ∧ 2 * q.y ≤ q.x ∧ 2 * q.x ≤ q.z ∧ 2 * q.z ≤ q.x ∧ -10 ≤ q.x ∧ q.x ≤ -1 := by
    intro q
    simp only [Cell, frustum, Set.mem_ofPred_eq, List.forall_mem_cons, Below, V3.zero_x, V3.zero_y, V3.zero_z]
    constructor
    · rintro ⟨h1, h2, h3, h4, h5, h6, -⟩
      exact ⟨by linarith, by linarith, by linarith, by linarith, by linarith, by linarith⟩
    · rintro ⟨h1, h2, h3, h4, h5, h6⟩
      exact ⟨by linarith, by linarith, by linarith, by linarith, by linarith, by linarith, by simp⟩
  have hne : frustum.map (fun t => mk t.1 t.2) ≠ [] := by simp [frustum]
  refine ⟨frustum.map fun t => mk t.1 t.2, mk_made _ hn, hne, ?_, ?_, ?_⟩
  · rw [mk_cell _ hn]
    refine ⟨20, fun q hq => ?_⟩
    obtain ⟨h1, h2, h3, h4, h5, h6⟩ := (hcell q).mp hq
    exact ⟨abs_le.mpr ⟨by linarith, by linarith⟩, abs_le.mpr ⟨by linarith, by linarith⟩, abs_le.mpr ⟨by linarith, by linarith⟩⟩
  · rw [mk_cell _ hn]
    refine ⟨⟨-5, -5, -5⟩, fun q hq => (hcell q).mpr ?_⟩
    obtain ⟨h1, h2, h3⟩ := ball_coords hq
    simp only [abs_le] at h1 h2 h3
    exact ⟨by linarith, by linarith, by linarith, by linarith, by linarith, by linarith⟩
  · intro S hS
    refine C114_out_of_reach S hS _ hne ?_
    rintro ⟨c, r, hr, hball, -, ⟨w, hw, hle⟩, -⟩
    have hmem := center_mem hr.le hball
    rw [mk_cell _ hn, hcell] at hmem
    obtain ⟨h1, h2, h3, h4, h5, h6⟩ := hmem
    have hw0 : w.y = 0 := by
      simp only [frustum, List.map_cons, List.map_nil, mk, List.mem_cons, List.not_mem_nil, or_false] at hw
      rcases hw with rfl | rfl | rfl | rfl | rfl | rfl | rfl <;> rfl
    rw [hw0] at hle
    linarith

/-- The infinite prism around the z axis with a square of side 2 as base. -/
def prism : List (V3 ℝ × V3 ℝ) :=
  [(⟨1, 0, 0⟩, ⟨1, 0, 0⟩), (⟨-1, 0, 0⟩, ⟨-1, 0, 0⟩), (⟨0, 1, 0⟩, ⟨0, 1, 0⟩), (⟨0, -1, 0⟩, ⟨0, -1, 0⟩)]

/-- **C114, refuted as documented (status 3).** An unbounded region in which a ball of radius 1 fits is not reported as unbounded. -/
theorem C114_unbounded_refuted : ∃ planes, Made planes ∧ planes ≠ [] ∧ ¬ BoundedSet (Cell (faces planes)) ∧
    (∃ c, BallIn (Cell (faces planes)) c 1) ∧ ∀ S, ExactSolvers S → ∀ vs st, getBoundingBox S planes = .ok (vs, st) → st ≠ 3 := by
  have hn : ∀ t ∈ prism, 1 ≤ t.1.normSq := by
    intro t ht
    simp only [prism, List.mem_cons, List.not_mem_nil, or_false] at ht
    rcases ht with rfl | rfl | rfl | rfl <;> norm_num [V3.normSq, V3.dot]
  have hcell : ∀ q, q ∈ Cell prism ↔ q.x ≤ 1 ∧ -1 ≤ q.x ∧ q.y ≤ 1 ∧ -1 ≤ q.y := by
    intro q
    simp only [Cell, prism, Set.mem_ofPred_eq, List.forall_mem_cons, Below]
    constructor
    · rintro ⟨h1, h2, h3, h4, -⟩
      exact ⟨by linarith, by linarith, by linarith, by linarith⟩
    · rintro ⟨h1, h2, h3, h4⟩
      exact ⟨by linarith, by linarith, by linarith, by linarith, by simp⟩
  have hne : prism.map (fun t => mk t.1 t.2) ≠ [] := by simp [prism]
  refine ⟨prism.map fun t => mk t.1 t.2, mk_made _ hn, hne, ?_, ?_, ?_⟩
  · rw [mk_cell _ hn]
    rintro ⟨R, hR⟩
    have := (hR ⟨0, 0, |R| + 1⟩ ((hcell _).mpr (by norm_num))).2.2
    have h1 := le_abs_self (|R| + 1)
    have h2 := le_abs_self R
    simp only at this
    linarith
  · rw [mk_cell _ hn]
    refine ⟨0, fun q hq => (hcell q).mpr ?_⟩
    obtain ⟨h1, h2, -⟩ := ball_coords hq
    simp only [abs_le, V3.zero_x, V3.zero_y, sub_zero] at h1 h2
    exact ⟨h1.2, h1.1, h2.2, h2.1⟩
  · intro S hS vs st h h3
    subst h3
    have hvs : vs = [] := by
      rw [box_eq S _ hne] at h
      split at h
      · rename_i h0
        split at h
        · cases h
        · injection h with h; injection h with _ h; rw [h0] at h; norm_num at h
      · injection h with h; injection h with h; exact h.symm
    subst hvs
    obtain ⟨c, hball, -⟩ := (C114_unbounded S hS _ hne).mp h 2
    rw [mk_cell _ hn] at hball
    have hd : ∀ s : ℝ, |s| ≤ 2 → Spec.dist (c + (⟨s, 0, 0⟩ : V3 ℝ)) c ≤ 2 := by
      intro s hs
      have : Spec.dist (c + (⟨s, 0, 0⟩ : V3 ℝ)) c = |s| := by
        rw [dist_eq, show c + (⟨s, 0, 0⟩ : V3 ℝ) - c = ⟨s, 0, 0⟩ by abel]
        simp only [norm3, V3.normSq, V3.dot, mul_zero, add_zero]; exact Real.sqrt_mul_self_eq_abs s
      rw [this]; exact hs
    have h1 := ((hcell _).mp (hball _ (hd 2 (by norm_num)))).1
    have h2 := ((hcell _).mp (hball _ (hd (-2) (by norm_num)))).2.1
    simp only [V3.add_x] at h1 h2
    linarith

/-- The cube with edges from -3 to -2. -/
def cube : List (V3 ℝ × V3 ℝ) :=
  [(⟨1, 0, 0⟩, ⟨-2, 0, 0⟩), (⟨-1, 0, 0⟩, ⟨-3, 0, 0⟩), (⟨0, 1, 0⟩, ⟨0, -2, 0⟩), (⟨0, -1, 0⟩, ⟨0, -3, 0⟩),
   (⟨0, 0, 1⟩, ⟨0, 0, -2⟩), (⟨0, 0, -1⟩, ⟨0, 0, -3⟩)]

/-- A cube away from the origin, on the negative side: solvers as documented exist and the hypotheses of `C114_region_partial` hold. -/
example : (∃ S, ExactSolvers S) ∧ ∀ S, ExactSolvers S → ∃ vs, getBoundingBox S (cube.map fun t => mk t.1 t.2) = .ok (vs, 0) ∧
    ∀ q : V3 ℝ, q ∈ convexHull ℝ {v | v ∈ vs} ↔
      (-3 ≤ q.x ∧ q.x ≤ -2) ∧ (-3 ≤ q.y ∧ q.y ≤ -2) ∧ (-3 ≤ q.z ∧ q.z ≤ -2) := by
  refine ⟨exists_exact, fun S hS => ?_⟩
  have hn : ∀ t ∈ cube, 1 ≤ t.1.normSq := by
    intro t ht
    simp only [cube, List.mem_cons, List.not_mem_nil, or_false] at ht
    rcases ht with rfl | rfl | rfl | rfl | rfl | rfl <;> norm_num [V3.normSq, V3.dot]
  have hcell : ∀ q, q ∈ Cell cube ↔ (-3 ≤ q.x ∧ q.x ≤ -2) ∧ (-3 ≤ q.y ∧ q.y ≤ -2) ∧ (-3 ≤ q.z ∧ q.z ≤ -2) := by
    intro q
    simp only [Cell, cube, Set.mem_ofPred_eq, List.forall_mem_cons, Below]
    constructor
    · rintro ⟨h1, h2, h3, h4, h5, h6, -⟩
      exact ⟨⟨by linarith, by linarith⟩, ⟨by linarith, by linarith⟩, ⟨by linarith, by linarith⟩⟩
    · rintro ⟨⟨h1, h2⟩, ⟨h3, h4⟩, ⟨h5, h6⟩⟩
      exact ⟨by linarith, by linarith, by linarith, by linarith, by linarith, by linarith, by simp⟩
  obtain ⟨vs, hvs, hhull⟩ := C114_region_partial S hS (cube.map fun t => mk t.1 t.2) (by simp [cube]) (mk_made _ hn)
    (by
      rw [mk_cell _ hn]
      refine ⟨3, fun q hq => ?_⟩
      obtain ⟨⟨h1, h2⟩, ⟨h3, h4⟩, ⟨h5, h6⟩⟩ := (hcell q).mp hq
      exact ⟨abs_le.mpr ⟨by linarith, by linarith⟩, abs_le.mpr ⟨by linarith, by linarith⟩, abs_le.mpr ⟨by linarith, by linarith⟩⟩)
    (by
      rw [mk_cell _ hn]
      refine ⟨⟨-5 / 2, -5 / 2, -5 / 2⟩, 1 / 2, by norm_num, fun q hq => (hcell q).mpr ?_⟩
      obtain ⟨h1, h2, h3⟩ := ball_coords hq
      simp only [abs_le] at h1 h2 h3
      exact ⟨⟨by linarith, by linarith⟩, ⟨by linarith, by linarith⟩, ⟨by linarith, by linarith⟩⟩)
    (by
      rw [mk_cell _ hn]
      intro q hq
      obtain ⟨⟨h1, h2⟩, ⟨h3, h4⟩, ⟨h5, h6⟩⟩ := (hcell q).mp hq
      exact ⟨⟨mk ⟨-1, 0, 0⟩ ⟨-3, 0, 0⟩, by simp [cube], h1⟩, ⟨mk ⟨0, -1, 0⟩ ⟨0, -3, 0⟩, by simp [cube], h3⟩,
        ⟨mk ⟨0, 0, -1⟩ ⟨0, 0, -3⟩, by simp [cube], h5⟩⟩)
  refine ⟨vs, hvs, fun q => ?_⟩
  rw [hhull, mk_cell _ hn, hcell]

end
end CZ
