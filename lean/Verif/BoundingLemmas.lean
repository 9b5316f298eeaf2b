import Verif.Spec.Bounding
import Verif.GeomLemmas
import Mathlib.Analysis.Convex.KreinMilman
import Mathlib.Analysis.Convex.Topology
import Mathlib.Topology.Order.Compact

/-! Polyhedra in space: finitely many vertices, hull of the vertices, existence of optima. -/

namespace CZ
open Spec

noncomputable section
open Classical

/-- Value of the left side of an inequality. -/
def lhs (t : V3 ℝ × ℝ) (q : V3 ℝ) : ℝ := t.1.x * q.x + t.1.y * q.y + t.1.z * q.z + t.2

theorem mem_ineqs (rows : List (V3 ℝ × ℝ)) (q : V3 ℝ) : q ∈ Ineqs rows ↔ ∀ t ∈ rows, lhs t q ≤ 0 := Iff.rfl

theorem exists_step (rows : List (V3 ℝ × ℝ)) (x y : V3 ℝ) (hx : ∀ t ∈ rows, lhs t x ≤ 0)
    (h : ∀ t ∈ rows, lhs t x = 0 → lhs t y = 0) :
    ∃ e : ℝ, 0 < e ∧ ∀ t ∈ rows, lhs t x - e * (lhs t y - lhs t x) ≤ 0 := by
  induction rows with
  | nil => exact ⟨1, one_pos, by simp⟩
  | cons t ts ih =>
    obtain ⟨e, he, hts⟩ := ih (fun u hu => hx u (List.mem_cons_of_mem _ hu)) (fun u hu => h u (List.mem_cons_of_mem _ hu))
    have ht := hx t List.mem_cons_self
    by_cases h0 : lhs t x = 0
    · refine ⟨e, he, ?_⟩
      intro u hu
      rcases List.mem_cons.mp hu with rfl | hu
      · rw [h0, h u List.mem_cons_self h0]; simp
      · exact hts u hu
    · have hneg : lhs t x < 0 := lt_of_le_of_ne ht h0
      have hpos : (0 : ℝ) < |lhs t y - lhs t x| + 1 := by positivity
      refine ⟨min e (-(lhs t x) / (|lhs t y - lhs t x| + 1)), lt_min he (div_pos (by linarith) hpos), ?_⟩
      intro u hu
      have hmin0 : 0 ≤ min e (-(lhs t x) / (|lhs t y - lhs t x| + 1)) :=
        le_of_lt (lt_min he (div_pos (by linarith) hpos))
      rcases List.mem_cons.mp hu with rfl | hu
      · have h1 : min e (-(lhs u x) / (|lhs u y - lhs u x| + 1)) * (|lhs u y - lhs u x| + 1) ≤ -(lhs u x) := by
          rw [← le_div_iff₀ hpos]; exact min_le_right _ _
        have h2 : -|lhs u y - lhs u x| ≤ lhs u y - lhs u x := neg_abs_le _
        nlinarith
      · have h1 := hts u hu
        have h2 : min e (-(lhs t x) / (|lhs t y - lhs t x| + 1)) ≤ e := min_le_left _ _
        have h3 := hx u (List.mem_cons_of_mem _ hu)
        by_cases h4 : 0 ≤ lhs u y - lhs u x
        · nlinarith
        · push Not at h4; nlinarith

theorem extreme_finite (rows : List (V3 ℝ × ℝ)) : ((Ineqs rows).extremePoints ℝ).Finite := by
  have hfin : {t : V3 ℝ × ℝ | t ∈ rows}.Finite := rows.finite_toSet
  refine Set.Finite.of_injOn (f := fun x => {t | t ∈ rows ∧ lhs t x = 0}) (t := {s | s ⊆ {t | t ∈ rows}}) ?_ ?_
    hfin.finite_subsets
  · intro x _ t ht; exact ht.1
  · intro x hx y hy hxy
    by_contra hne
    have hact : ∀ t ∈ rows, lhs t x = 0 → lhs t y = 0 := by
      intro t ht h0
      have : t ∈ ({t | t ∈ rows ∧ lhs t x = 0} : Set _) := ⟨ht, h0⟩
      have hxy' : ({t | t ∈ rows ∧ lhs t x = 0} : Set _) = {t | t ∈ rows ∧ lhs t y = 0} := hxy
      rw [hxy'] at this
      exact this.2
    obtain ⟨e, he, hz⟩ := exists_step rows x y hx.1 hact
    have hzmem : x - e • (y - x) ∈ Ineqs rows := by
      rw [mem_ineqs]
      intro t ht
      have := hz t ht
      have heq : lhs t (x - e • (y - x)) = lhs t x - e * (lhs t y - lhs t x) := by
        simp only [lhs, V3.sub_x, V3.sub_y, V3.sub_z, V3.smul_x, V3.smul_y, V3.smul_z]; ring
      rw [heq]; exact this
    have := (mem_extremePoints.mp hx).2 _ hzmem _ hy.1 (by
      have h1e : (1 + e) ≠ 0 := by positivity
      refine ⟨1 / (1 + e), e / (1 + e), by positivity, by positivity, by field_simp, ?_⟩
      ext <;> simp only [V3.add_x, V3.add_y, V3.add_z, V3.sub_x, V3.sub_y, V3.sub_z, V3.smul_x, V3.smul_y, V3.smul_z] <;>
        field_simp <;> ring)
    exact hne this.2.symm

/-- Coordinates as a linear equivalence. -/
def coords : V3 ℝ ≃ₗ[ℝ] ℝ × ℝ × ℝ where
  toFun p := (p.x, p.y, p.z)
  invFun p := ⟨p.1, p.2.1, p.2.2⟩
  map_add' _ _ := rfl
  map_smul' _ _ := rfl
  left_inv _ := rfl
  right_inv _ := rfl

theorem ineqs_convex (rows : List (V3 ℝ × ℝ)) : Convex ℝ (Ineqs rows) := by
  intro x hx y hy a b ha hb hab
  intro t ht
  have h1 := hx t ht
  have h2 := hy t ht
  simp only [V3.add_x, V3.add_y, V3.add_z, V3.smul_x, V3.smul_y, V3.smul_z]
  have : t.1.x * (a * x.x + b * y.x) + t.1.y * (a * x.y + b * y.y) + t.1.z * (a * x.z + b * y.z) + t.2 =
      a * (t.1.x * x.x + t.1.y * x.y + t.1.z * x.z + t.2) + b * (t.1.x * y.x + t.1.y * y.y + t.1.z * y.z + t.2) := by
    have : a = 1 - b := by linarith
    subst this; ring
  rw [this]
  nlinarith

theorem coords_image (S : Set (V3 ℝ)) : coords '' S = {p | (⟨p.1, p.2.1, p.2.2⟩ : V3 ℝ) ∈ S} := by
  ext p
  constructor
  · rintro ⟨q, hq, rfl⟩; exact hq
  · intro hp; exact ⟨_, hp, rfl⟩

theorem image_compact (rows : List (V3 ℝ × ℝ)) (hb : BoundedSet (Ineqs rows)) : IsCompact (coords '' Ineqs rows) := by
  obtain ⟨R, hR⟩ := hb
  have hclosed : IsClosed (coords '' Ineqs rows) := by
    rw [coords_image]
    have : {p : ℝ × ℝ × ℝ | (⟨p.1, p.2.1, p.2.2⟩ : V3 ℝ) ∈ Ineqs rows} =
        ⋂ t ∈ {t | t ∈ rows}, {p : ℝ × ℝ × ℝ | t.1.x * p.1 + t.1.y * p.2.1 + t.1.z * p.2.2 + t.2 ≤ 0} := by
      ext p; simp [Ineqs]
    rw [this]
    refine isClosed_biInter ?_
    intro t _
    exact isClosed_le (by fun_prop) continuous_const
  refine IsCompact.of_isClosed_subset (s := Set.Icc (-R) R ×ˢ (Set.Icc (-R) R ×ˢ Set.Icc (-R) R)) 
    (isCompact_Icc.prod (isCompact_Icc.prod isCompact_Icc)) hclosed ?_
  rintro _ ⟨q, hq, rfl⟩
  obtain ⟨h1, h2, h3⟩ := hR q hq
  exact ⟨abs_le.mp h1, abs_le.mp h2, abs_le.mp h3⟩

/-- A bounded region cut out by finitely many half spaces is the convex hull of its vertices. -/
theorem ineqs_hull (rows : List (V3 ℝ × ℝ)) (hb : BoundedSet (Ineqs rows)) :
    convexHull ℝ ((Ineqs rows).extremePoints ℝ) = Ineqs rows := by
  have hinj : Function.Injective (Set.image coords) := Set.image_injective.mpr coords.injective
  apply hinj
  have h1 : coords '' convexHull ℝ ((Ineqs rows).extremePoints ℝ) = convexHull ℝ (coords '' (Ineqs rows).extremePoints ℝ) :=
    LinearMap.image_convexHull coords.toLinearMap _
  have h2 : coords '' (Ineqs rows).extremePoints ℝ = (coords '' Ineqs rows).extremePoints ℝ := image_extremePoints coords _
  have hf : ((coords '' Ineqs rows).extremePoints ℝ).Finite := by rw [← h2]; exact (extreme_finite rows).image _
  have hc : Convex ℝ (coords '' Ineqs rows) := (ineqs_convex rows).linear_image coords.toLinearMap
  rw [h1, h2]
  rw [← (hf.isClosed_convexHull ℝ).closure_eq]
  exact closure_convexHull_extremePoints (image_compact rows hb) hc

/-- A feasible linear program with bounded variables has an optimum. -/
theorem optimum_exists (c : V3 ℝ × ℝ) (rows : List (V3 ℝ × ℝ × ℝ)) (hf : ∃ x r, Feasible rows x r)
    (hb : ∃ R : ℝ, ∀ x r, Feasible rows x r → |x.x| ≤ R ∧ |x.y| ≤ R ∧ |x.z| ≤ R ∧ |r| ≤ R) :
    ∃ x r, Optimal c rows x r := by
  obtain ⟨R, hR⟩ := hb
  set F : Set (ℝ × ℝ × ℝ × ℝ) := {p | Feasible rows ⟨p.1, p.2.1, p.2.2.1⟩ p.2.2.2} with hF
  have hclosed : IsClosed F := by
    have : F = {p | 0 ≤ p.1} ∩ ({p | 0 ≤ p.2.1} ∩ ({p | 0 ≤ p.2.2.1} ∩ ({p | 0 ≤ p.2.2.2} ∩
        ⋂ t ∈ {t | t ∈ rows},
          {p : ℝ × ℝ × ℝ × ℝ | t.1.x * p.1 + t.1.y * p.2.1 + t.1.z * p.2.2.1 + t.2.1 * p.2.2.2 ≤ t.2.2}))) := by
      ext p; simp [hF, Feasible]
    rw [this]
    refine (isClosed_le continuous_const (by fun_prop)).inter ((isClosed_le continuous_const (by fun_prop)).inter
      ((isClosed_le continuous_const (by fun_prop)).inter ((isClosed_le continuous_const (by fun_prop)).inter
      (isClosed_biInter ?_))))
    intro t _
    exact isClosed_le (by fun_prop) continuous_const
  have hcomp : IsCompact F := by
    refine IsCompact.of_isClosed_subset (s := Set.Icc (-R) R ×ˢ (Set.Icc (-R) R ×ˢ (Set.Icc (-R) R ×ˢ Set.Icc (-R) R)))
      (isCompact_Icc.prod (isCompact_Icc.prod (isCompact_Icc.prod isCompact_Icc))) hclosed ?_
    intro p hp
    obtain ⟨h1, h2, h3, h4⟩ := hR _ _ hp
    exact ⟨abs_le.mp h1, abs_le.mp h2, abs_le.mp h3, abs_le.mp h4⟩
  obtain ⟨x, r, hx⟩ := hf
  have hne : F.Nonempty := ⟨(x.x, x.y, x.z, r), hx⟩
  obtain ⟨p, hp, hmin⟩ := hcomp.exists_isMinOn hne
    (f := fun p => cost c ⟨p.1, p.2.1, p.2.2.1⟩ p.2.2.2) (by unfold cost; fun_prop)
  refine ⟨⟨p.1, p.2.1, p.2.2.1⟩, p.2.2.2, hp, ?_⟩
  intro y s hy
  exact hmin (a := (y.x, y.y, y.z, s)) hy

/-- Solvers that answer as documented exist. -/
theorem exists_exact : ∃ S : Solvers, ExactSolvers S := by
  have hlp : ∀ c rows, ∃ res, LpAnswer c rows res := by
    intro c rows
    by_cases h0 : ∃ x r, Optimal c rows x r
    · obtain ⟨x, r, h⟩ := h0
      refine ⟨⟨0, x, r⟩, ⟨⟨fun _ => ⟨x, r, h⟩, fun _ => rfl⟩, fun _ => h, ⟨fun h2 => by norm_num at h2, fun h2 => ?_⟩,
        ⟨fun h3 => by norm_num at h3, fun h3 => ?_⟩⟩⟩
      · exact absurd ⟨x, r, h.1⟩ h2
      · obtain ⟨y, s, hy, hlt⟩ := h3 (cost c x r)
        exact absurd (h.2 y s hy) (not_le.mpr hlt)
    · by_cases h2 : ∃ x r, Feasible rows x r
      · by_cases h3 : ∀ B, ∃ x r, Feasible rows x r ∧ cost c x r < B
        · exact ⟨⟨3, 0, 0⟩, ⟨⟨fun h => by norm_num at h, fun h => absurd h h0⟩, fun h => by norm_num at h,
            ⟨fun h => by norm_num at h, fun h => absurd h2 h⟩, ⟨fun _ => h3, fun _ => rfl⟩⟩⟩
        · exact ⟨⟨4, 0, 0⟩, ⟨⟨fun h => by norm_num at h, fun h => absurd h h0⟩, fun h => by norm_num at h,
            ⟨fun h => by norm_num at h, fun h => absurd h2 h⟩, ⟨fun h => by norm_num at h, fun h => absurd h h3⟩⟩⟩
      · exact ⟨⟨2, 0, 0⟩, ⟨⟨fun h => by norm_num at h, fun h => absurd h h0⟩, fun h => by norm_num at h,
            ⟨fun _ => h2, fun _ => rfl⟩, ⟨fun h => by norm_num at h, fun h => by
              obtain ⟨x, r, hx, _⟩ := h 0; exact absurd ⟨x, r, hx⟩ h2⟩⟩⟩
  have hhs : ∀ rows x, ∃ res, HsAnswer rows x res := by
    intro rows x
    by_cases h : Strict rows x
    · refine ⟨some (extreme_finite rows).toFinset.toList, ⟨fun h' => absurd h h', fun _ _ => ⟨_, rfl, ?_⟩⟩⟩
      ext v; simp
    · exact ⟨none, ⟨fun _ => rfl, fun h' => absurd h' h⟩⟩
  choose lp hlp using hlp
  choose hs hhs using hhs
  exact ⟨⟨lp, hs⟩, ⟨hlp, hhs⟩⟩

end
end CZ
