import Verif.GeomLemmas
import Verif.Spec.Transform

/-! Lemmas on transformations. -/

namespace CZ
open Spec

theorem orth_dot {M : M3 ℝ} (h : Orthogonal M) (v w : V3 ℝ) : (M.mulVec v).dot (M.mulVec w) = v.dot w := by
  rw [M3.dot_mulVec, ← M3.mulVec_mul, h, M3.mulVec_one]

theorem orth_norm {M : M3 ℝ} (h : Orthogonal M) (v : V3 ℝ) : norm3 (M.mulVec v) = norm3 v := by
  rw [norm3, norm3, ← dot_self, ← dot_self, orth_dot h]

theorem orth_det {M : M3 ℝ} (h : Orthogonal M) : M.det = 1 ∨ M.det = -1 := by
  have h1 : M.det * M.det = 1 := by
    have := congrArg M3.det h
    rwa [M3.det_mul, M3.det_one, M3.det_transpose] at this
  exact mul_self_eq_one_iff.mp h1

theorem orth_det_ne {M : M3 ℝ} (h : Orthogonal M) : M.det ≠ 0 := by
  rcases orth_det h with h | h <;> rw [h] <;> norm_num

/-- A left inverse is a right inverse. -/
theorem orth_right {M : M3 ℝ} (h : Orthogonal M) : M * M.transpose = 1 := by
  have hd := orth_det_ne h
  have h1 : (M.det)⁻¹ • M.adj * M = 1 := by
    rw [M3.smul_mul', M3.adj_mul]; ext <;> simp [M3.smul_def, M3.one_def, hd]
  have h2 : M * ((M.det)⁻¹ • M.adj) = 1 := by
    rw [M3.mul_smul', M3.mul_adj]; ext <;> simp [M3.smul_def, M3.one_def, hd]
  have h3 : M.transpose = (M.det)⁻¹ • M.adj := by
    calc M.transpose = M.transpose * 1 := (M3.mul_one' _).symm
      _ = M.transpose * (M * ((M.det)⁻¹ • M.adj)) := by rw [h2]
      _ = _ := by rw [← M3.mul_assoc', h, M3.one_mul']
  rw [h3, h2]

theorem orth_iff_right {M : M3 ℝ} : Orthogonal M ↔ M * M.transpose = 1 := by
  constructor
  · exact orth_right
  · intro h
    have : Orthogonal M.transpose := by
      show M.transpose.transpose * M.transpose = 1
      exact h
    have h2 := orth_right this
    exact h2

theorem orth_neg_one : Orthogonal ((-1 : ℝ) • (1 : M3 ℝ)) := by
  unfold Orthogonal
  ext <;> simp [M3.transpose, M3.smul_def, M3.mul_def, M3.one_def]

theorem orth_refl {n : V3 ℝ} (h : n ≠ 0) : Orthogonal (Tr.reflMatrix n) := by
  have h1 : n.dot n ≠ 0 := by rw [dot_self, Ne, normSq_eq_zero]; exact h
  have hc : (2 / n.dot n) * (n.x * n.x + n.y * n.y + n.z * n.z) = 2 := div_mul_cancel₀ 2 h1
  unfold Orthogonal Tr.reflMatrix Tr.outer
  generalize 2 / n.dot n = c at hc
  ext <;> simp only [M3.transpose, M3.smul_def, M3.mul_def, M3.one_def, M3.sub_def]
  · linear_combination c * n.x * n.x * hc
  · linear_combination c * n.x * n.y * hc
  · linear_combination c * n.x * n.z * hc
  · linear_combination c * n.y * n.x * hc
  · linear_combination c * n.y * n.y * hc
  · linear_combination c * n.y * n.z * hc
  · linear_combination c * n.z * n.x * hc
  · linear_combination c * n.z * n.y * hc
  · linear_combination c * n.z * n.z * hc

theorem matApply_sub (M : M3 ℝ) (o : Option (V3 ℝ)) (p q : V3 ℝ) :
    Tr.matApply M o p - Tr.matApply M o q = M.mulVec (p - q) := by
  cases o with
  | none => simp only [Tr.matApply, M3.mulVec_sub]
  | some o =>
    simp only [Tr.matApply]
    rw [show M.mulVec (p - o) + o - (M.mulVec (q - o) + o) = M.mulVec (p - o) - M.mulVec (q - o) by ext <;> simp,
      ← M3.mulVec_sub]
    congr 1
    ext <;> simp

theorem mkRotation_ok {K : Type} [Field K] [LinearOrder K] {M : M3 K} {o : Option (V3 K)} {l b : Bool} {t : Tr K}
    (h : Tr.mkRotation M o l b = .ok t) : t = .matrix .rotation M o l b := by
  unfold Tr.mkRotation at h
  split at h
  · cases h
  · split at h
    · cases h
    · exact (Except.ok.inj h).symm

/-- Structure of rigid motions: leaves are translations or orthogonal non-reflection matrices. -/
theorem RigidMotion.cases' {t : Tr ℝ} (h : RigidMotion t) :
    (∃ s l b, t = .translation s l b) ∨
    (∃ k M o l b, t = .matrix k M o l b ∧ Orthogonal M ∧ k ≠ .reflection) ∨
    (∃ ts, t = .multi ts ∧ ∀ t ∈ ts, RigidMotion t) := by
  cases h with
  | translation s l b => exact Or.inl ⟨s, l, b, rfl⟩
  | rotation M o l b t hM ht => exact Or.inr (Or.inl ⟨_, M, o, l, b, mkRotation_ok ht, hM, by decide⟩)
  | inversion o l b => exact Or.inr (Or.inl ⟨_, _, o, l, b, rfl, orth_neg_one, by decide⟩)
  | matrix M o l b hM => exact Or.inr (Or.inl ⟨_, M, o, l, b, rfl, hM, by decide⟩)
  | multi ts h => exact Or.inr (Or.inr ⟨ts, rfl, h⟩)

/-- Induction principle for rigid motions with leaves in normal form. -/
theorem RigidMotion.induct {P : Tr ℝ → Prop}
    (tr : ∀ s l b, P (.translation s l b))
    (mat : ∀ k M o l b, Orthogonal M → k ≠ .reflection → P (.matrix k M o l b))
    (mul : ∀ ts, (∀ t ∈ ts, RigidMotion t) → (∀ t ∈ ts, P t) → P (.multi ts))
    {t : Tr ℝ} (h : RigidMotion t) : P t := by
  induction h with
  | translation s l b => exact tr s l b
  | rotation M o l b t hM ht => rw [mkRotation_ok ht]; exact mat _ _ _ _ _ hM (by decide)
  | inversion o l b => exact mat _ _ _ _ _ orth_neg_one (by decide)
  | matrix M o l b hM => exact mat _ _ _ _ _ hM (by decide)
  | multi ts h ih => exact mul ts h ih

theorem isom_matrix {M : M3 ℝ} (h : Orthogonal M) (o : Option (V3 ℝ)) : Isom (Tr.matApply M o) := by
  intro p q
  rw [dist_eq, dist_eq, matApply_sub, orth_norm h]

theorem isom_list {ts : List (Tr ℝ)} (h : ∀ t ∈ ts, Isom t.apply) : Isom (Tr.applyList ts) := by
  induction ts with
  | nil => intro p q; simp [Tr.applyList]
  | cons t ts ih =>
    intro p q
    simp only [Tr.applyList]
    rw [ih (fun x hx => h x (List.mem_cons_of_mem _ hx)), h t List.mem_cons_self]

/-- A surface whose direction vector has length one and whose tolerance is positive (kept by the setters). -/
def Alg.WF : Alg → Prop
  | .sphere s => 0 < s.radius ∧ 0 < s.tol
  | .plane p => norm3 p.normal = 1 ∧ 0 < p.tol
  | .cyl c => norm3 c.axis = 1 ∧ machEps ≤ c.radius ∧ machEps ≤ c.length ∧ 0 < c.tol

theorem cross_normSq_orth {M : M3 ℝ} (h : Orthogonal M) (v w : V3 ℝ) :
    norm3 ((M.mulVec v).cross (M.mulVec w)) = norm3 (v.cross w) := by
  rw [norm3, norm3, normSq_cross, normSq_cross, ← dot_self, ← dot_self, ← dot_self, ← dot_self,
    orth_dot h, orth_dot h, orth_dot h]

/-- An orthogonal matrix transformation of a well-formed surface succeeds and carries the interior along. -/
theorem matAlg_orth {M : M3 ℝ} (h : Orthogonal M) (o : Option (V3 ℝ)) (a : Alg) (ha : a.WF) :
    ∃ a', Tr.matAlg M o a = (a', .ok ()) ∧ a'.WF ∧ ∀ p, a'.interior (Tr.matApply M o p) = a.interior p := by
  cases a with
  | sphere s =>
    refine ⟨_, rfl, ha, ?_⟩
    intro p
    simp only [Alg.interior, Sphere.interior, matApply_sub]
    rw [← dot_self, ← dot_self, orth_dot h]
  | plane q =>
    obtain ⟨hn, ht⟩ := ha
    have hs : Plane.normalSet (M.mulVec q.normal) = .ok (M.mulVec q.normal) :=
      plane_normalSet_unit (by rw [orth_norm h, hn])
    refine ⟨.plane { q with point := Tr.matApply M o q.point, normal := M.mulVec q.normal }, ?_, ?_, ?_⟩
    · simp [Tr.matAlg, hs]
    · exact ⟨by simp only [orth_norm h, hn], ht⟩
    · intro p
      rw [Bool.eq_iff_iff]
      simp only [Alg.interior, Plane.interior_iff, Plane.sdist]
      rw [← dot_sub_left, matApply_sub, orth_dot h, dot_sub_left]
  | cyl c =>
    obtain ⟨hn, hr, hl, ht⟩ := ha
    have hs : Cylinder.axisSet (M.mulVec c.axis) = .ok (M.mulVec c.axis) :=
      cyl_axisSet_unit (by rw [orth_norm h, hn])
    refine ⟨.cyl { c with point := Tr.matApply M o c.point, axis := M.mulVec c.axis }, ?_, ?_, ?_⟩
    · simp [Tr.matAlg, hs]
    · exact ⟨by simp only [orth_norm h, hn], hr, hl, ht⟩
    · intro p
      simp only [Alg.interior, Cylinder.interior]
      rw [matApply_sub, cross_normSq_orth h, orth_dot h]

theorem algList_ok {ts : List (Tr ℝ)} {a : Alg} (ha : a.WF)
    (h : ∀ t ∈ ts, ∀ a : Alg, a.WF → ∃ a', Tr.alg t a = (a', .ok ()) ∧ a'.WF ∧
      ∀ p, a'.interior (t.apply p) = a.interior p) :
    ∃ a', Tr.algList ts a = (a', .ok ()) ∧ a'.WF ∧ ∀ p, a'.interior (Tr.applyList ts p) = a.interior p := by
  induction ts generalizing a with
  | nil => exact ⟨a, rfl, ha, fun p => by simp [Tr.applyList]⟩
  | cons t ts ih =>
    obtain ⟨a1, h1, hw, hi⟩ := h t List.mem_cons_self a ha
    obtain ⟨a2, h2, hw2, hi2⟩ := ih hw fun t ht => h t (List.mem_cons_of_mem _ ht)
    refine ⟨a2, ?_, hw2, ?_⟩
    · simp [Tr.algList, h1, h2]
    · intro p; simp only [Tr.applyList]; rw [hi2, hi]

/-- Every rigid motion can be applied to every well-formed surface and carries its interior along. -/
theorem alg_rigid {t : Tr ℝ} (ht : RigidMotion t) : ∀ a : Alg, a.WF →
    ∃ a', Tr.alg t a = (a', .ok ()) ∧ a'.WF ∧ ∀ p, a'.interior (t.apply p) = a.interior p := by
  refine RigidMotion.induct (P := fun t => ∀ a : Alg, a.WF →
    ∃ a', Tr.alg t a = (a', .ok ()) ∧ a'.WF ∧ ∀ p, a'.interior (t.apply p) = a.interior p) ?_ ?_ ?_ ht
  · intro s l b a ha
    cases a with
    | sphere q =>
      refine ⟨.sphere { q with center := q.center + s }, by simp [Tr.alg], ha, ?_⟩
      intro p
      rw [Bool.eq_iff_iff]
      simp only [Alg.interior, Sphere.interior_iff, Tr.apply]
      rw [show p + s - (q.center + s) = p - q.center by ext <;> simp]
    | plane q =>
      refine ⟨.plane { q with point := q.point + s }, by simp [Tr.alg], ha, ?_⟩
      intro p
      rw [Bool.eq_iff_iff]
      simp only [Alg.interior, Plane.interior_iff, Plane.sdist, Tr.apply, dot_add_left]
      rw [show p.dot q.normal + s.dot q.normal - (q.point.dot q.normal + s.dot q.normal) =
        p.dot q.normal - q.point.dot q.normal by ring]
    | cyl q =>
      refine ⟨.cyl { q with point := q.point + s }, by simp [Tr.alg], ha, ?_⟩
      intro p
      rw [Bool.eq_iff_iff]
      simp only [Alg.interior, Cylinder.interior_iff, Tr.apply]
      rw [show p + s - (q.point + s) = p - q.point by ext <;> simp]
  · intro k M o l b hM hk a ha
    obtain ⟨a', h1, h2, h3⟩ := matAlg_orth hM o a ha
    refine ⟨a', ?_, h2, ?_⟩
    · cases k with
      | reflection => exact absurd rfl hk
      | general => simp [Tr.alg, h1]
      | inversion => simp [Tr.alg, h1]
      | rotation => simp [Tr.alg, h1]
    · intro p; simp only [Tr.apply]; exact h3 p
  · intro ts _ ih a ha
    obtain ⟨a', h1, h2, h3⟩ := algList_ok ha ih
    exact ⟨a', by simp [Tr.alg, h1], h2, fun p => by simp only [Tr.apply]; exact h3 p⟩

end CZ
