import Verif.GeomLemmas

/-!
# Properties C48-C52: algebraic surfaces
-/

namespace CZ

open Spec (Ball HalfSpace Tube Perp)

/-! ## C48 -/

/-- **C48, spheres.** Construction succeeds iff radius and tolerance are positive, and then the interior is the open
ball of radius `radius + tol`. -/
theorem C48_sphere (r : ℝ) (c : V3 ℝ) (t : ℝ) :
    (0 < r ∧ 0 < t → ∃ s, Sphere.make r c t = .ok s ∧ ∀ p, s.interior p = true ↔ Ball c (r + t) p) ∧
    (¬ (0 < r) → Sphere.make r c t = .error .value) ∧
    (0 < r → ¬ (0 < t) → Sphere.make r c t = .error .assertion) := by
  refine ⟨?_, ?_, ?_⟩
  · rintro ⟨hr, ht⟩
    refine ⟨⟨r, c, t⟩, by simp [Sphere.make, Sphere.radiusSet, tolSet, hr, ht, bind, Except.bind, pure, Except.pure], ?_⟩
    intro p
    simp only [Sphere.interior, Ball, dist_eq, decide_eq_true_eq]
    rw [← norm3_sq]
    exact pow_lt_pow_iff_left₀ (norm3_nonneg _) (by linarith) (by norm_num)
  · intro hr; simp [Sphere.make, Sphere.radiusSet, hr, bind, Except.bind]
  · intro hr ht; simp [Sphere.make, Sphere.radiusSet, tolSet, hr, ht, bind, Except.bind]

example : ∃ s, Sphere.make 2 ⟨0, 0, 1⟩ (1 / 10 ^ 5) = .ok s ∧ s.interior ⟨0, 0, 0⟩ = true := by
  obtain ⟨s, hs, h⟩ := (C48_sphere 2 ⟨0, 0, 1⟩ (1 / 10 ^ 5)).1 ⟨by norm_num, by norm_num⟩
  refine ⟨s, hs, (h _).mpr ?_⟩
  simp [Ball, Spec.dist]; norm_num

theorem plane_interior_iff (pl : Plane) (h : norm3 pl.normal = 1) (p : V3 ℝ) :
    pl.interior p = true ↔ HalfSpace pl.normal pl.point pl.tol p := by
  have h1 : pl.normal.dot pl.normal = 1 := by rw [dot_self]; exact norm3_eq_one.mp h
  have hi : pl.interior p = true ↔ pl.sdist p < pl.tol := by simp [Plane.interior]
  rw [hi]
  simp only [HalfSpace, Plane.sdist]
  constructor
  · intro hs
    refine ⟨_, hs, ?_⟩
    rw [perp_iff, dot_sub_left, dot_sub_left, dot_smul_left, h1]; ring
  · rintro ⟨s, hs, hp⟩
    rw [perp_iff, dot_sub_left, dot_sub_left, dot_smul_left, h1] at hp
    linarith

/-- **C48, planes.** Construction succeeds iff the normal is longer than machine precision and the tolerance is
positive; the interior is everything less than `tol` beyond the plane, measured along the normalised normal. -/
theorem C48_plane (n q : V3 ℝ) (t : ℝ) :
    (machEps < Spec.len n ∧ 0 < t →
      ∃ pl, Plane.make n q t = .ok pl ∧ ∀ p, pl.interior p = true ↔ HalfSpace ((Spec.len n)⁻¹ • n) q t p) ∧
    (¬ machEps < Spec.len n → Plane.make n q t = .error .value) ∧
    (machEps < Spec.len n → ¬ (0 < t) → Plane.make n q t = .error .assertion) := by
  rw [len_eq]
  refine ⟨?_, ?_, ?_⟩
  · rintro ⟨hn, ht⟩
    have hs : Plane.normalSet n = .ok ((norm3 n)⁻¹ • n) := by simp [Plane.normalSet, hn]
    refine ⟨⟨(norm3 n)⁻¹ • n, q, t⟩, by simp [Plane.make, hs, tolSet, ht, bind, Except.bind, pure, Except.pure], ?_⟩
    intro p
    exact plane_interior_iff _ (plane_normalSet_ok hs).1 p
  · intro hn; simp [Plane.make, Plane.normalSet, hn, bind, Except.bind]
  · intro hn ht; simp [Plane.make, Plane.normalSet, tolSet, hn, ht, bind, Except.bind]

example : ∃ pl, Plane.make ⟨0, 0, 2⟩ ⟨0, 0, 0⟩ (1 / 10 ^ 5) = .ok pl ∧ pl.interior ⟨5, 0, -1⟩ = true := by
  have hl : Spec.len ⟨0, 0, 2⟩ = 2 := by
    simp only [Spec.len]; rw [show ((0:ℝ) ^ 2 + 0 ^ 2 + 2 ^ 2) = 2 ^ 2 by norm_num]; simp
  obtain ⟨s, hs, h⟩ := (C48_plane ⟨0, 0, 2⟩ ⟨0, 0, 0⟩ (1 / 10 ^ 5)).1
    ⟨by rw [hl]; linarith [machEps_lt_one], by norm_num⟩
  refine ⟨s, hs, (h _).mpr ⟨-1, by norm_num, ?_⟩⟩
  rw [hl]; simp [Perp]

theorem cylinder_interior_iff (c : Cylinder) (h : norm3 c.axis = 1) (p : V3 ℝ) :
    c.interior p = true ↔ Tube c.point c.axis (c.radius + c.tol) (c.length / 2 + c.tol) p := by
  have h1 : c.axis.normSq = 1 := norm3_eq_one.mp h
  have key : ∀ t, Perp (p - (c.point + t • c.axis)) c.axis ↔ t = (p - c.point).dot c.axis := by
    intro t
    rw [perp_iff, dot_sub_left, dot_sub_left, dot_add_left, dot_smul_left, dot_self, h1]
    constructor <;> intro h <;> linarith
  have hd : norm3 (p - (c.point + (p - c.point).dot c.axis • c.axis)) = norm3 ((p - c.point).cross c.axis) := by
    rw [norm3, norm3]
    congr 1
    have e : p - (c.point + (p - c.point).dot c.axis • c.axis)
        = (p - c.point) - (p - c.point).dot c.axis • c.axis := by
      ext <;> simp <;> ring
    rw [e, normSq_cross, h1]
    generalize p - c.point = d
    rw [← dot_self, dot_sub_left, dot_sub_right, dot_sub_right, dot_smul_left, dot_smul_right, dot_smul_left,
      dot_smul_right, dot_self, dot_self, h1, dot_comm c.axis d]
    ring
  simp only [Cylinder.interior, Bool.and_eq_true, decide_eq_true_eq, Tube]
  constructor
  · rintro ⟨hr, hl⟩
    exact ⟨_, hl, (key _).mpr rfl, by rw [dist_eq, hd]; exact hr⟩
  · rintro ⟨t, hl, hp, hr⟩
    have := (key t).mp hp
    subst this
    rw [dist_eq, hd] at hr
    exact ⟨hr, hl⟩

/-- **C48, cylinders.** Construction succeeds iff the axis is longer than machine precision, radius and length are at
least machine precision and the tolerance is positive; the interior is the open finite cylinder with radius
`radius + tol` and half length `length/2 + tol`. -/
theorem C48_cylinder (a q : V3 ℝ) (r l t : ℝ) :
    (machEps < Spec.len a ∧ machEps ≤ r ∧ machEps ≤ l ∧ 0 < t →
      ∃ c, Cylinder.make a q r l t = .ok c ∧
        ∀ p, c.interior p = true ↔ Tube q ((Spec.len a)⁻¹ • a) (r + t) (l / 2 + t) p) ∧
    (¬ (machEps < Spec.len a ∧ machEps ≤ r ∧ machEps ≤ l) → Cylinder.make a q r l t = .error .value) ∧
    (machEps < Spec.len a ∧ machEps ≤ r ∧ machEps ≤ l → ¬ (0 < t) →
      Cylinder.make a q r l t = .error .assertion) := by
  rw [len_eq]
  have ha : machEps < norm3 a → Cylinder.axisSet a = .ok ((norm3 a)⁻¹ • a) := fun h => by
    simp [Cylinder.axisSet, h]
  have hz : ∀ x : ℝ, machEps ≤ x → Cylinder.sizeSet x = .ok x := fun x h => by
    simp [Cylinder.sizeSet, h]
  refine ⟨?_, ?_, ?_⟩
  · rintro ⟨h1, h2, h3, h4⟩
    refine ⟨⟨(norm3 a)⁻¹ • a, q, r, l, t⟩, ?_, ?_⟩
    · simp [Cylinder.make, ha h1, hz r h2, hz l h3, tolSet, h4, bind, Except.bind, pure, Except.pure]
    · intro p
      exact cylinder_interior_iff _ (cyl_axisSet_ok (ha h1)).1 p
  · intro h
    by_cases h1 : machEps < norm3 a
    · by_cases h2 : machEps ≤ r
      · have h3 : ¬ machEps ≤ l := fun h3 => h ⟨h1, h2, h3⟩
        simp [Cylinder.make, ha h1, Cylinder.sizeSet, not_le.mp h3, bind, Except.bind]
        simp [not_lt.mpr h2]
      · simp [Cylinder.make, ha h1, Cylinder.sizeSet, not_le.mp h2, bind, Except.bind]
    · simp [Cylinder.make, Cylinder.axisSet, not_lt.mp h1, bind, Except.bind]
  · rintro ⟨h1, h2, h3⟩ h4
    simp [Cylinder.make, ha h1, hz r h2, hz l h3, tolSet, h4, bind, Except.bind]

example : ∃ c, Cylinder.make ⟨0, 0, 1⟩ ⟨0, 0, 0⟩ 1 4 (1 / 10 ^ 5) = .ok c ∧ c.interior ⟨0, 0, 1⟩ = true := by
  have hl : Spec.len ⟨0, 0, 1⟩ = 1 := by simp [Spec.len]
  have he := machEps_lt_one
  obtain ⟨s, hs, h⟩ := (C48_cylinder ⟨0, 0, 1⟩ ⟨0, 0, 0⟩ 1 4 (1 / 10 ^ 5)).1
    ⟨by rw [hl]; exact he, he.le, by linarith, by norm_num⟩
  refine ⟨s, hs, (h _).mpr ⟨1, by norm_num, ?_, ?_⟩⟩
  · rw [hl]; simp [Perp]
  · rw [hl]; simp [Spec.dist]; norm_num

/-! ## C50 -/

/-- A point lies on the plane. -/
def OnPlane (pl : Plane) (q : V3 ℝ) : Prop := Perp (q - pl.point) pl.normal

/-- **C50.** Each projected row lies on the plane, is at distance `dist_from_plane` from the original row, and every
point of the plane is at least that far away. -/
theorem C50_projection_is_nearest (pl : Plane) (hn : Spec.len pl.normal = 1) (ps : List (V3 ℝ)) :
    ∃ qs, pl.project (.rows ps) = .ok qs ∧ qs.length = ps.length ∧
      ∀ i (hi : i < ps.length) (hq : i < qs.length),
        OnPlane pl qs[i] ∧ Spec.dist ps[i] qs[i] = pl.distFrom ps[i] ∧
        ∀ r, OnPlane pl r → pl.distFrom ps[i] ≤ Spec.dist ps[i] r ∧
          (Spec.dist ps[i] r = pl.distFrom ps[i] → r = qs[i]) := by
  rw [len_eq] at hn
  have h1 : pl.normal.normSq = 1 := norm3_eq_one.mp hn
  refine ⟨_, rfl, by simp, ?_⟩
  intro i hi hq
  simp only [List.getElem_map, OnPlane]
  generalize ps[i] = p
  have hon : (p - pl.sdist p • pl.normal - pl.point).dot pl.normal = 0 := by
    rw [dot_sub_left, dot_sub_left, dot_smul_left, dot_self, h1, Plane.sdist]; ring
  have hdist : Spec.dist p (p - pl.sdist p • pl.normal) = pl.distFrom p := by
    rw [dist_eq, show p - (p - pl.sdist p • pl.normal) = pl.sdist p • pl.normal by ext <;> simp,
      norm3_smul, hn, mul_one, Plane.distFrom]
  refine ⟨hon, hdist, ?_⟩
  intro r hr
  rw [perp_iff] at hr
  have hs : pl.sdist p = (p - r).dot pl.normal := by
    rw [dot_sub_left] at hr ⊢; rw [Plane.sdist]; linarith
  have hle : pl.distFrom p ≤ Spec.dist p r := by
    rw [Plane.distFrom, hs, dist_eq]
    have := abs_dot_le (p - r) pl.normal
    rwa [hn, mul_one] at this
  refine ⟨hle, ?_⟩
  intro he
  -- equality in Cauchy-Schwarz
  have h2 : (p - r).normSq = (p - r).dot pl.normal ^ 2 := by
    rw [← norm3_sq, ← dist_eq, he, Plane.distFrom, sq_abs, hs]
  have h3 : ((p - r) - (p - r).dot pl.normal • pl.normal).normSq = 0 := by
    generalize p - r = d at h2 ⊢
    rw [← dot_self, dot_sub_left, dot_sub_right, dot_sub_right, dot_smul_left, dot_smul_right, dot_smul_left,
      dot_smul_right, dot_self, dot_self, h1, h2, dot_comm pl.normal]
    ring
  have h4 := (normSq_eq_zero _).mp h3
  rw [hs]
  have hx := congrArg V3.x h4
  have hy := congrArg V3.y h4
  have hz := congrArg V3.z h4
  simp only [V3.sub_x, V3.sub_y, V3.sub_z, V3.smul_x, V3.smul_y, V3.smul_z, V3.zero_x, V3.zero_y, V3.zero_z] at hx hy hz
  ext <;> simp only [V3.sub_x, V3.sub_y, V3.sub_z, V3.smul_x, V3.smul_y, V3.smul_z]
  · linarith
  · linarith
  · linarith

/-- **C50, single points.** `project_point` with one point of shape (3,) raises IndexError, whatever the plane and the point. -/
theorem C50_single_point_raises (pl : Plane) (p : V3 ℝ) : pl.project (.vec p) = .error .index := rfl

/-- **C50, finding.** A single point of shape (3,), as the docstring asks for, raises IndexError. -/
theorem C50_single_point_refuted : ¬ ∀ (pl : Plane) (p : V3 ℝ), ∃ qs, pl.project (.vec p) = .ok qs := by
  intro h
  obtain ⟨qs, hq⟩ := h ⟨⟨0, 0, 1⟩, 0, 1⟩ 0
  cases hq

example : Spec.len (⟨0, 3 / 5, 4 / 5⟩ : V3 ℝ) = 1 := by
  simp only [Spec.len]; rw [show ((0:ℝ) ^ 2 + (3 / 5) ^ 2 + (4 / 5) ^ 2) = 1 by norm_num]; simp

/-- **C48, thresholds.** The machine precision that decides is 2^-52 = 1/4503599627370496: a normal or axis of exactly that length is
refused and any longer one accepted, a radius or length of exactly that size is accepted and any smaller one refused. -/
theorem C48_thresholds (l : ℝ) (hl : 0 < l) :
    ((∃ n, Plane.normalSet ⟨0, 0, l⟩ = .ok n) ↔ 1 / 4503599627370496 < l) ∧
    ((∃ n, Cylinder.axisSet ⟨0, 0, l⟩ = .ok n) ↔ 1 / 4503599627370496 < l) ∧
    ((∃ r, Cylinder.sizeSet l = .ok r) ↔ 1 / 4503599627370496 ≤ l) := by
  have hn : norm3 ⟨0, 0, l⟩ = l := by
    unfold norm3
    rw [show V3.normSq (⟨0, 0, l⟩ : V3 ℝ) = l ^ 2 by simp [V3.normSq, V3.dot]; try ring]
    exact Real.sqrt_sq hl.le
  have he : machEps = 1 / 4503599627370496 := by unfold machEps; norm_num
  unfold Plane.normalSet Cylinder.axisSet Cylinder.sizeSet
  rw [hn, he]
  refine ⟨?_, ?_, ?_⟩
  · by_cases h : l > 1 / 4503599627370496
    · rw [if_pos h]; exact ⟨fun _ => h, fun _ => ⟨_, rfl⟩⟩
    · rw [if_neg h]; exact ⟨fun ⟨_, hc⟩ => (by cases hc), fun hc => absurd hc h⟩
  · by_cases h : l ≤ 1 / 4503599627370496
    · rw [if_pos h]; exact ⟨fun ⟨_, hc⟩ => (by cases hc), fun hc => absurd h (not_le.mpr hc)⟩
    · rw [if_neg h]; exact ⟨fun _ => not_le.mp h, fun _ => ⟨_, rfl⟩⟩
  · by_cases h : l < 1 / 4503599627370496
    · rw [if_pos h]; exact ⟨fun ⟨_, hc⟩ => (by cases hc), fun hc => absurd h (not_lt.mpr hc)⟩
    · rw [if_neg h]; exact ⟨fun _ => not_lt.mp h, fun _ => ⟨_, rfl⟩⟩

/-- Lengths on both sides of the threshold. -/
example : (∃ n, Plane.normalSet ⟨0, 0, 1 / 4503599627370495⟩ = .ok n) ∧ ¬ ∃ n, Plane.normalSet ⟨0, 0, 1 / 4503599627370496⟩ = .ok n :=
  ⟨(C48_thresholds _ (by norm_num)).1.mpr (by norm_num), fun h => absurd ((C48_thresholds _ (by norm_num)).1.mp h) (lt_irrefl _)⟩

/-! ## C51 -/

/-- **C51.** Flipping succeeds for a plane with unit normal; it negates the interior test of every point further than
`tol` from the plane, and flipping twice gives the plane back. -/
theorem C51_flip_swaps_sides (pl : Plane) (hn : Spec.len pl.normal = 1) (ht : 0 < pl.tol) :
    ∃ q, pl.flip = .ok q ∧ q.flip = .ok pl ∧ q.point = pl.point ∧ q.tol = pl.tol ∧
      ∀ p, pl.tol < pl.distFrom p → q.interior p = !pl.interior p := by
  rw [len_eq] at hn
  have h1 : Plane.normalSet (-pl.normal) = .ok (-pl.normal) :=
    plane_normalSet_unit (by rw [norm3_neg]; exact hn)
  refine ⟨{ pl with normal := -pl.normal }, by simp [Plane.flip, h1, bind, Except.bind, pure, Except.pure], ?_, rfl, rfl, ?_⟩
  · simp [Plane.flip, plane_normalSet_unit hn, bind, Except.bind, pure, Except.pure]
  · intro p hp
    have : ({ pl with normal := -pl.normal } : Plane).sdist p = - pl.sdist p := by
      simp only [Plane.sdist, dot_neg_right]; ring
    simp only [Plane.interior, this]
    rw [Plane.distFrom, lt_abs] at hp
    rcases hp with hp | hp
    · rw [decide_eq_true (by linarith), decide_eq_false (by linarith)]; rfl
    · rw [decide_eq_false (by linarith), decide_eq_true (by linarith)]; rfl

example : ∃ (pl : Plane) (p : V3 ℝ), Spec.len pl.normal = 1 ∧ 0 < pl.tol ∧ pl.tol < pl.distFrom p :=
  ⟨⟨⟨0, 0, 1⟩, 0, 1⟩, ⟨0, 0, 5⟩, by simp [Spec.len], by norm_num, by norm_num [Plane.distFrom, Plane.sdist, V3.dot]⟩

/-! ## C52 -/

theorem mapM_except_ok {α β : Type} {f : α → Py β} {l : List α} {r : List β} (h : l.mapM f = .ok r) :
    List.Forall₂ (fun a b => f a = .ok b) l r := by
  induction l generalizing r with
  | nil => simp [pure, Except.pure] at h; subst h; constructor
  | cons a l ih =>
    rw [List.mapM_cons] at h
    cases ha : f a with
    | error e => rw [ha] at h; cases h
    | ok b =>
      rw [ha] at h
      cases hl : l.mapM f with
      | error e => rw [hl] at h; cases h
      | ok bs =>
        rw [hl] at h
        cases h
        exact .cons ha (ih hl)

/-- The plane produced for a facet, before orientation. -/
theorem facetToPlane_unit {pts : List (V3 ℝ)} {f : ℕ × ℕ × ℕ} {pl : Plane} (h : facetToPlane pts f = .ok pl) :
    norm3 pl.normal = 1 ∧ pl.tol = 1 / 10 ^ 5 ∧ ∃ p0 p1 p2, pts[f.1]? = some p0 ∧ pts[f.2.1]? = some p1 ∧
      pts[f.2.2]? = some p2 ∧ pl.sdist p0 = 0 ∧ pl.sdist p1 = 0 ∧ pl.sdist p2 = 0 := by
  unfold facetToPlane pyGet at h
  cases h0 : pts[f.1]? with
  | none => simp [h0, bind, Except.bind] at h
  | some p0 =>
    cases h1 : pts[f.2.1]? with
    | none => simp [h0, h1, bind, Except.bind] at h
    | some p1 =>
      cases h2 : pts[f.2.2]? with
      | none => simp [h0, h1, h2, bind, Except.bind] at h
      | some p2 =>
        simp only [h0, h1, h2, bind, Except.bind, Plane.make] at h
        cases hn : Plane.normalSet ((p1 - p0).cross (p2 - p0)) with
        | error e => simp [hn] at h
        | ok n =>
          have ht : tolSet (1 / 10 ^ 5) = .ok (1 / 10 ^ 5) := by simp [tolSet]
          rw [hn, ht] at h
          simp only [pure, Except.pure, Except.ok.injEq] at h
          subst h
          obtain ⟨hu, he, -⟩ := plane_normalSet_ok hn
          refine ⟨hu, rfl, p0, p1, p2, rfl, rfl, rfl, ?_, ?_, ?_⟩
          · simp [Plane.sdist]
          · simp only [Plane.sdist, he, dot_smul_right]
            have : p1.dot ((p1 - p0).cross (p2 - p0)) = p0.dot ((p1 - p0).cross (p2 - p0)) := by
              simp [V3.dot, V3.cross]; ring
            rw [this]; ring
          · simp only [Plane.sdist, he, dot_smul_right]
            have : p2.dot ((p1 - p0).cross (p2 - p0)) = p0.dot ((p1 - p0).cross (p2 - p0)) := by
              simp [V3.dot, V3.cross]; ring
            rw [this]; ring

theorem flip_unit {pl : Plane} (hn : norm3 pl.normal = 1) : pl.flip = .ok { pl with normal := -pl.normal } := by
  simp [Plane.flip, plane_normalSet_unit (n := -pl.normal) (by rw [norm3_neg]; exact hn), bind, Except.bind, pure,
    Except.pure]

theorem sdist_flip (pl : Plane) (p : V3 ℝ) :
    ({ pl with normal := -pl.normal } : Plane).sdist p = - pl.sdist p := by
  simp only [Plane.sdist, dot_neg_right]; ring

/-- What `convex_hull_to_planes` returns, facet by facet. -/
theorem convexHullToPlanes_spec {pts : List (V3 ℝ)} {fs : List (ℕ × ℕ × ℕ)} {ins : V3 ℝ → Bool} {r : List Plane}
    (h : convexHullToPlanes pts fs ins = .ok r) :
    List.Forall₂ (fun f pl => ∃ pl0, facetToPlane pts f = .ok pl0 ∧
      ((pl0.sdist (mean3 pts) < pl0.tol ∧ pl = pl0) ∨
       (pl0.tol ≤ pl0.sdist (mean3 pts) ∧ pl = { pl0 with normal := -pl0.normal }))) fs r := by
  unfold convexHullToPlanes at h
  cases hp : fs.mapM (facetToPlane pts) with
  | error e => simp [hp, bind, Except.bind] at h
  | ok planes =>
    rw [hp] at h
    simp only [bind, Except.bind] at h
    split at h
    · cases h
    · have h1 := mapM_except_ok hp
      have h2 := mapM_except_ok h
      clear h hp
      induction h1 generalizing r with
      | nil => cases h2; constructor
      | cons ha _ ih =>
        cases h2 with
        | cons hb hbs =>
          refine .cons ⟨_, ha, ?_⟩ (ih hbs)
          have hu := (facetToPlane_unit ha).1
          simp only [Plane.interior, decide_eq_false_iff_not, not_lt] at hb
          split at hb
          · rename_i hc
            rw [flip_unit hu] at hb
            exact Or.inr ⟨hc, (Except.ok.inj hb).symm⟩
          · rename_i hc
            exact Or.inl ⟨not_le.mp hc, (Except.ok.inj hb).symm⟩

/-- **C52, centroid.** Every returned plane contains the three vertices of its facet, has unit normal, and has the
centroid of the points on its interior side. -/
theorem C52_centroid_interior (pts : List (V3 ℝ)) (fs : List (ℕ × ℕ × ℕ)) (ins : V3 ℝ → Bool) (r : List Plane)
    (h : convexHullToPlanes pts fs ins = .ok r) :
    List.Forall₂ (fun f pl => pl.interior (mean3 pts) = true ∧ Spec.len pl.normal = 1 ∧
      ∀ p, (pts[f.1]? = some p ∨ pts[f.2.1]? = some p ∨ pts[f.2.2]? = some p) → OnPlane pl p) fs r := by
  refine (convexHullToPlanes_spec h).imp ?_
  rintro f pl ⟨pl0, hf, hpl⟩
  obtain ⟨hu, ht, p0, p1, p2, e0, e1, e2, z0, z1, z2⟩ := facetToPlane_unit hf
  have hon : ∀ q : Plane, ∀ p, q.sdist p = 0 → OnPlane q p := by
    intro q p hq
    rw [OnPlane, perp_iff, dot_sub_left]; exact hq
  have hz : ∀ p, (pts[f.1]? = some p ∨ pts[f.2.1]? = some p ∨ pts[f.2.2]? = some p) → pl0.sdist p = 0 := by
    rintro p (hp | hp | hp)
    · rw [e0] at hp; cases hp; exact z0
    · rw [e1] at hp; cases hp; exact z1
    · rw [e2] at hp; cases hp; exact z2
  rcases hpl with ⟨hlt, rfl⟩ | ⟨hle, rfl⟩
  · exact ⟨by simpa [Plane.interior] using hlt, by rw [len_eq]; exact hu, fun p hp => hon _ _ (hz p hp)⟩
  · refine ⟨?_, by rw [len_eq]; simpa [norm3_neg] using hu, fun p hp => hon _ _ (by rw [sdist_flip, hz p hp, neg_zero])⟩
    simp only [Plane.interior, sdist_flip, decide_eq_true_eq]
    have : 0 < pl0.tol := by rw [ht]; norm_num
    show - pl0.sdist _ < pl0.tol
    linarith

/-- `pl0` supports the point set: all points on one (closed) side. -/
def Supports (pts : List (V3 ℝ)) (pl : Plane) : Prop :=
  (∀ p ∈ pts, 0 ≤ pl.sdist p) ∨ (∀ p ∈ pts, pl.sdist p ≤ 0)

theorem sum_nonpos' {l : List ℝ} (h : ∀ x ∈ l, x ≤ 0) : l.sum ≤ 0 := by
  induction l with
  | nil => simp
  | cons a l ih =>
    rw [List.sum_cons]
    linarith [h a List.mem_cons_self, ih fun x hx => h x (List.mem_cons_of_mem _ hx)]

theorem sum_dot (pts : List (V3 ℝ)) (n : V3 ℝ) : pts.sum.dot n = (pts.map (·.dot n)).sum := by
  induction pts with
  | nil => simp [V3.dot]
  | cons p ps ih => simp [dot_add_left, ih]

theorem sdist_mean (pl : Plane) (pts : List (V3 ℝ)) (hne : pts ≠ []) :
    pl.sdist (mean3 pts) = (pts.length : ℝ)⁻¹ * (pts.map pl.sdist).sum := by
  have hl : (pts.length : ℝ) ≠ 0 := by simpa using hne
  have h : ∀ l : List (V3 ℝ), (l.map pl.sdist).sum = (l.map (·.dot pl.normal)).sum - l.length * pl.point.dot pl.normal := by
    intro l
    induction l with
    | nil => simp
    | cons p ps ih => simp only [List.map_cons, List.sum_cons, ih, List.length_cons, Plane.sdist]; push_cast; ring
  rw [h, Plane.sdist, mean3, dot_smul_left, sum_dot, mul_sub, ← mul_assoc, inv_mul_cancel₀ hl, one_mul]

/-- **C52, hull points (partial).** If a facet's plane supports the hull and the centroid is not strictly between 0
and `tol` beyond it, then every hull point is interior to the returned plane.  Missing: hulls so thin that the
centroid is within the tolerance of a facet, see `C52_thin_hull_refuted`. -/
theorem C52_hull_points_interior_partial (pts : List (V3 ℝ)) (fs : List (ℕ × ℕ × ℕ)) (ins : V3 ℝ → Bool)
    (r : List Plane) (h : convexHullToPlanes pts fs ins = .ok r) (hne : pts ≠ [])
    (hs : ∀ f ∈ fs, ∀ pl, facetToPlane pts f = .ok pl → Supports pts pl ∧
      (pl.sdist (mean3 pts) ≤ 0 ∨ 1 / 10 ^ 5 ≤ pl.sdist (mean3 pts))) :
    ∀ pl ∈ r, ∀ p ∈ pts, pl.interior p = true := by
  have hspec := convexHullToPlanes_spec h
  have key : List.Forall₂ (fun _ (pl : Plane) => ∀ p ∈ pts, pl.interior p = true) fs r := by
    clear h
    induction hspec with
    | nil => constructor
    | cons ha _ ih =>
      refine .cons ?_ (ih fun f hf => hs f (List.mem_cons_of_mem _ hf))
      obtain ⟨pl0, hf, hpl⟩ := ha
      obtain ⟨hsup, hc⟩ := hs _ List.mem_cons_self pl0 hf
      obtain ⟨hu, ht, -⟩ := facetToPlane_unit hf
      have htp : 0 < pl0.tol := by rw [ht]; norm_num
      rcases hpl with ⟨hlt, hpl⟩ | ⟨hle, rfl⟩
      · rw [hpl]
        intro p hp
        have hm : _ := sdist_mean pl0 pts hne
        rcases hc with hc | hc
        · rcases hsup with hsup | hsup
          · -- all ≥ 0 and mean ≤ 0: all zero
            have hsum : (pts.map pl0.sdist).sum ≤ 0 := by
              have hl : (0:ℝ) < pts.length := by
                have := List.length_pos_iff.mpr hne; exact_mod_cast this
              rw [hm] at hc
              by_contra hcon
              push Not at hcon
              have := mul_pos (inv_pos.mpr hl) hcon
              linarith
            have : pl0.sdist p ≤ (pts.map pl0.sdist).sum :=
              List.single_le_sum (by
                intro x hx
                obtain ⟨q, hq, rfl⟩ := List.mem_map.mp hx
                exact hsup q hq) _ (List.mem_map_of_mem hp)
            simp only [Plane.interior, decide_eq_true_eq]
            linarith
          · simp only [Plane.interior, decide_eq_true_eq]
            linarith [hsup p hp]
        · rw [ht] at hlt; linarith
      · intro p hp
        simp only [Plane.interior, decide_eq_true_eq, sdist_flip]
        rcases hsup with hsup | hsup
        · linarith [hsup p hp]
        · exfalso
          have hm := sdist_mean pl0 pts hne
          have hsum : (pts.map pl0.sdist).sum ≤ 0 := by
            apply sum_nonpos'
            intro x hx
            obtain ⟨q, hq, rfl⟩ := List.mem_map.mp hx
            exact hsup q hq
          have hl : (0:ℝ) ≤ (pts.length : ℝ)⁻¹ := by positivity
          have := mul_nonpos_of_nonneg_of_nonpos hl hsum
          linarith
  intro pl hpl
  clear hspec h hs
  induction key with
  | nil => simp at hpl
  | cons ha _ ih =>
    rcases List.mem_cons.mp hpl with rfl | hpl
    · exact ha
    · exact ih hpl

/-! A tetrahedron of given height: example for the partial theorem (height 1), counterexample (height 3e-5). -/

theorem facet_sdist {pts : List (V3 ℝ)} {f : ℕ × ℕ × ℕ} {pl : Plane} {p0 p1 p2 : V3 ℝ}
    (h0 : pts[f.1]? = some p0) (h1 : pts[f.2.1]? = some p1) (h2 : pts[f.2.2]? = some p2)
    (hc : machEps < norm3 ((p1 - p0).cross (p2 - p0))) :
    facetToPlane pts f = .ok pl ↔
      pl = ⟨(norm3 ((p1 - p0).cross (p2 - p0)))⁻¹ • (p1 - p0).cross (p2 - p0), p0, 1 / 10 ^ 5⟩ := by
  have ht : tolSet (1 / 10 ^ 5) = .ok (1 / 10 ^ 5) := by simp [tolSet]
  have hn : Plane.normalSet ((p1 - p0).cross (p2 - p0))
      = .ok ((norm3 ((p1 - p0).cross (p2 - p0)))⁻¹ • (p1 - p0).cross (p2 - p0)) := by
    simp [Plane.normalSet, hc]
  simp only [facetToPlane, pyGet, h0, h1, h2, bind, Except.bind, Plane.make, hn, ht, pure, Except.pure,
    Except.ok.injEq]
  exact eq_comm

/-- Vertices of a tetrahedron of height `h` (the counterexample has `h = 3e-5`). -/
noncomputable def tetPts (h : ℝ) : List (V3 ℝ) := [⟨0, 0, 0⟩, ⟨1, 0, 0⟩, ⟨0, 1, 0⟩, ⟨0, 0, h⟩]
/-- Its four facets. -/
def tetFacets : List (ℕ × ℕ × ℕ) := [(0, 1, 2), (0, 1, 3), (0, 2, 3), (1, 2, 3)]

theorem eps_lt_norm {v : V3 ℝ} (h : 1 / 10 ^ 10 ≤ v.normSq) : machEps < norm3 v := by
  have h1 : (1 / 10 ^ 5 : ℝ) ≤ norm3 v := by
    rw [norm3]; apply Real.le_sqrt_of_sq_le; norm_num at h ⊢; linarith
  have h2 : machEps < 1 / 10 ^ 5 := by unfold machEps; norm_num
  linarith

theorem tet_mean (h : ℝ) : mean3 (tetPts h) = ⟨1 / 4, 1 / 4, h / 4⟩ := by
  simp only [mean3, tetPts, List.length_cons, List.length_nil, List.sum_cons, List.sum_nil]
  ext <;> simp <;> ring

/-- Each facet gives a plane, which supports the tetrahedron; the centroid is on the side of the other points. -/
theorem tet_facets_ok (h : ℝ) (hh : 3 / 10 ^ 5 ≤ h) : ∀ f ∈ tetFacets, ∃ pl, facetToPlane (tetPts h) f = .ok pl ∧
    Supports (tetPts h) pl ∧ (f = (0, 1, 2) ∧ pl.sdist (mean3 (tetPts h)) = h / 4 ∨ pl.sdist (mean3 (tetPts h)) ≤ 0
      ∨ pl.sdist (mean3 (tetPts h)) = 1 / 4) := by
  have h0 : 0 < h := by norm_num at hh; linarith
  have hsq : 1 / 10 ^ 10 ≤ h * h := by norm_num at hh ⊢; nlinarith
  have key : ∀ (f : ℕ × ℕ × ℕ) (p0 p1 p2 : V3 ℝ), (tetPts h)[f.1]? = some p0 → (tetPts h)[f.2.1]? = some p1 →
      (tetPts h)[f.2.2]? = some p2 → 1 / 10 ^ 10 ≤ ((p1 - p0).cross (p2 - p0)).normSq →
      ((∀ p ∈ tetPts h, 0 ≤ (p - p0).dot ((p1 - p0).cross (p2 - p0))) ∨
       (∀ p ∈ tetPts h, (p - p0).dot ((p1 - p0).cross (p2 - p0)) ≤ 0)) →
      ∃ pl, facetToPlane (tetPts h) f = .ok pl ∧ Supports (tetPts h) pl ∧ ∀ p, pl.sdist p =
        (norm3 ((p1 - p0).cross (p2 - p0)))⁻¹ * (p - p0).dot ((p1 - p0).cross (p2 - p0)) := by
    intro f p0 p1 p2 h0 h1 h2 hc hs
    have hpos : 0 ≤ (norm3 ((p1 - p0).cross (p2 - p0)))⁻¹ := inv_nonneg.mpr (norm3_nonneg _)
    have hsd : ∀ p, Plane.sdist ⟨(norm3 ((p1 - p0).cross (p2 - p0)))⁻¹ • (p1 - p0).cross (p2 - p0), p0, 1 / 10 ^ 5⟩ p
        = (norm3 ((p1 - p0).cross (p2 - p0)))⁻¹ * (p - p0).dot ((p1 - p0).cross (p2 - p0)) := by
      intro p
      rw [Plane.sdist, dot_smul_right, dot_smul_right, dot_sub_left]; ring
    refine ⟨_, (facet_sdist h0 h1 h2 (eps_lt_norm hc)).mpr rfl, ?_, hsd⟩
    rcases hs with hs | hs
    · left; intro p hp; rw [hsd]; exact mul_nonneg hpos (hs p hp)
    · right; intro p hp; rw [hsd]; exact mul_nonpos_of_nonneg_of_nonpos hpos (hs p hp)
  intro f hf
  simp only [tetFacets, List.mem_cons, List.not_mem_nil, or_false] at hf
  rcases hf with rfl | rfl | rfl | rfl
  · obtain ⟨pl, h1, h2, h3⟩ := key (0, 1, 2) ⟨0, 0, 0⟩ ⟨1, 0, 0⟩ ⟨0, 1, 0⟩ rfl rfl rfl
      (by norm_num [V3.cross, V3.normSq, V3.dot]) (Or.inl (by simp [tetPts, V3.cross, V3.dot, h0.le]))
    refine ⟨pl, h1, h2, Or.inl ⟨rfl, ?_⟩⟩
    have hn : norm3 ((⟨1, 0, 0⟩ - ⟨0, 0, 0⟩ : V3 ℝ).cross (⟨0, 1, 0⟩ - ⟨0, 0, 0⟩)) = 1 := by
      rw [norm3_eq_one]; norm_num [V3.cross, V3.normSq, V3.dot]
    rw [h3, hn, tet_mean]; norm_num [V3.cross, V3.dot]
  · obtain ⟨pl, h1, h2, h3⟩ := key (0, 1, 3) ⟨0, 0, 0⟩ ⟨1, 0, 0⟩ ⟨0, 0, h⟩ rfl rfl rfl
      (by simp only [V3.cross, V3.normSq, V3.dot, V3.sub_x, V3.sub_y, V3.sub_z]; linarith)
      (Or.inr (by simp [tetPts, V3.cross, V3.dot, h0.le]))
    refine ⟨pl, h1, h2, Or.inr (Or.inl ?_)⟩
    rw [h3, tet_mean]
    apply mul_nonpos_of_nonneg_of_nonpos (inv_nonneg.mpr (norm3_nonneg _))
    simp [V3.cross, V3.dot, h0.le]
  · obtain ⟨pl, h1, h2, h3⟩ := key (0, 2, 3) ⟨0, 0, 0⟩ ⟨0, 1, 0⟩ ⟨0, 0, h⟩ rfl rfl rfl
      (by simp only [V3.cross, V3.normSq, V3.dot, V3.sub_x, V3.sub_y, V3.sub_z]; linarith)
      (Or.inl (by simp [tetPts, V3.cross, V3.dot, h0.le]))
    refine ⟨pl, h1, h2, Or.inr (Or.inr ?_)⟩
    have hn : norm3 ((⟨0, 1, 0⟩ - ⟨0, 0, 0⟩ : V3 ℝ).cross (⟨0, 0, h⟩ - ⟨0, 0, 0⟩)) = h := by
      rw [norm3, Real.sqrt_eq_iff_mul_self_eq_of_pos h0]; simp [V3.cross, V3.normSq, V3.dot]
    rw [h3, hn, tet_mean]
    simp [V3.cross, V3.dot]; field_simp
  · obtain ⟨pl, h1, h2, h3⟩ := key (1, 2, 3) ⟨1, 0, 0⟩ ⟨0, 1, 0⟩ ⟨0, 0, h⟩ rfl rfl rfl
      (by simp only [V3.cross, V3.normSq, V3.dot, V3.sub_x, V3.sub_y, V3.sub_z]; norm_num; nlinarith)
      (Or.inr (by simp [tetPts, V3.cross, V3.dot, h0.le]))
    refine ⟨pl, h1, h2, Or.inr (Or.inl ?_)⟩
    rw [h3, tet_mean]
    apply mul_nonpos_of_nonneg_of_nonpos (inv_nonneg.mpr (norm3_nonneg _))
    simp [V3.cross, V3.dot]; linarith

theorem mapM_ok_of {α β : Type} {f : α → Py β} {l : List α} (h : ∀ a ∈ l, ∃ b, f a = .ok b) :
    ∃ r, l.mapM f = .ok r := by
  induction l with
  | nil => exact ⟨[], rfl⟩
  | cons a l ih =>
    obtain ⟨b, hb⟩ := h a List.mem_cons_self
    obtain ⟨bs, hbs⟩ := ih fun x hx => h x (List.mem_cons_of_mem _ hx)
    exact ⟨b :: bs, by simp [List.mapM_cons, hb, hbs, bind, Except.bind, pure, Except.pure]⟩

/-- `convex_hull_to_planes` succeeds when no facet is degenerate and the centroid is inside. -/
theorem convexHullToPlanes_ok {pts : List (V3 ℝ)} {fs : List (ℕ × ℕ × ℕ)} {ins : V3 ℝ → Bool}
    (h : ∀ f ∈ fs, ∃ pl, facetToPlane pts f = .ok pl) (hi : ins (mean3 pts) = true) :
    ∃ r, convexHullToPlanes pts fs ins = .ok r := by
  obtain ⟨planes, hp⟩ := mapM_ok_of h
  have hu : ∀ pl ∈ planes, norm3 pl.normal = 1 := by
    have := mapM_except_ok hp
    clear hp h
    induction this with
    | nil => simp
    | cons ha _ ih =>
      intro pl hpl
      rcases List.mem_cons.mp hpl with rfl | hpl
      · exact (facetToPlane_unit ha).1
      · exact ih pl hpl
  have : ∃ r, planes.mapM (fun pl => if pl.interior (mean3 pts) = false then pl.flip else pure pl) = .ok r := by
    apply mapM_ok_of
    intro pl hpl
    split
    · exact ⟨_, flip_unit (hu pl hpl)⟩
    · exact ⟨pl, rfl⟩
  obtain ⟨r, hr⟩ := this
  refine ⟨r, ?_⟩
  simp only [convexHullToPlanes, hp, bind, Except.bind, hi]
  exact hr

/-- The unit tetrahedron meets the hypotheses of `C52_hull_points_interior_partial`. -/
example : ∃ r, convexHullToPlanes (tetPts 1) tetFacets (fun _ => true) = .ok r ∧
    (∀ f ∈ tetFacets, ∀ pl, facetToPlane (tetPts 1) f = .ok pl → Supports (tetPts 1) pl ∧
      (pl.sdist (mean3 (tetPts 1)) ≤ 0 ∨ 1 / 10 ^ 5 ≤ pl.sdist (mean3 (tetPts 1)))) := by
  have hk := tet_facets_ok 1 (by norm_num)
  obtain ⟨r, hr⟩ := convexHullToPlanes_ok (pts := tetPts 1) (fs := tetFacets) (ins := fun _ => true)
    (fun f hf => by obtain ⟨pl, h, -⟩ := hk f hf; exact ⟨pl, h⟩) rfl
  refine ⟨r, hr, ?_⟩
  intro f hf pl hpl
  obtain ⟨pl', h', hs, hc⟩ := hk f hf
  rw [hpl] at h'
  cases h'
  refine ⟨hs, ?_⟩
  rcases hc with ⟨-, hc⟩ | hc | hc
  · right; rw [hc]; norm_num
  · exact Or.inl hc
  · right; rw [hc]; norm_num

/-- **C52, finding.** For a hull thinner than the tolerance the facet plane is left facing outwards although every
facet supports the hull: a vertex of the hull is not interior. -/
theorem C52_thin_hull_refuted :
    ¬ ∀ (pts : List (V3 ℝ)) (fs : List (ℕ × ℕ × ℕ)) (ins : V3 ℝ → Bool) (r : List Plane),
      convexHullToPlanes pts fs ins = .ok r → pts ≠ [] →
      (∀ f ∈ fs, ∀ pl, facetToPlane pts f = .ok pl → Supports pts pl) →
      ∀ pl ∈ r, ∀ p ∈ pts, pl.interior p = true := by
  intro h
  obtain ⟨r, hr⟩ := convexHullToPlanes_ok (pts := tetPts (3 / 10 ^ 5)) (fs := tetFacets) (ins := fun _ => true)
    (fun f hf => by obtain ⟨pl, h, -⟩ := tet_facets_ok _ le_rfl f hf; exact ⟨pl, h⟩) rfl
  have h1 := h (tetPts (3 / 10 ^ 5)) tetFacets _ r hr (by simp [tetPts]) (by
    intro f hf pl hpl
    obtain ⟨pl', h', hs, -⟩ := tet_facets_ok _ le_rfl f hf
    rw [hpl] at h'
    cases h'
    exact hs)
  have h2 := convexHullToPlanes_spec hr
  cases h2 with
  | cons ha hrest =>
    obtain ⟨pl0, hf, hpl⟩ := ha
    have hf' := (facet_sdist (pts := (tetPts (3 / 10 ^ 5))) (f := (0, 1, 2)) (p0 := ⟨0, 0, 0⟩) (p1 := ⟨1, 0, 0⟩) (p2 := ⟨0, 1, 0⟩)
      rfl rfl rfl (eps_lt_norm (by norm_num [V3.cross, V3.normSq, V3.dot]))).mp hf
    have hn : norm3 ((⟨1, 0, 0⟩ - ⟨0, 0, 0⟩ : V3 ℝ).cross (⟨0, 1, 0⟩ - ⟨0, 0, 0⟩)) = 1 := by
      rw [norm3_eq_one]; norm_num [V3.cross, V3.normSq, V3.dot]
    rw [hn] at hf'
    rcases hpl with ⟨hlt, rfl⟩ | ⟨hle, -⟩
    · have h3 := h1 _ List.mem_cons_self ⟨0, 0, 3 / 10 ^ 5⟩ (by simp [tetPts])
      rw [hf'] at h3
      simp only [Plane.interior, decide_eq_true_eq] at h3
      norm_num [Plane.sdist, V3.cross, V3.dot] at h3
    · rw [hf', tet_mean] at hle
      norm_num [Plane.sdist, V3.cross, V3.dot] at hle

end CZ
