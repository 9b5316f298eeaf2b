import Verif.TransformSet
import Verif.Props.Transform

/-!
# Property C117: transformation objects over histories of assignments
-/

namespace CZ
open Spec

noncomputable section
open Classical

namespace TrSet

/-- An object made by a constructor and then changed by assignments, some of them possibly refused. -/
def Reachable (kind : MatKind) (o : MObj) : Prop :=
  ∃ (o0 : MObj) (ops : List MObj.Op), o = o0.run ops ∧
    ((kind ≠ .reflection ∧ ∃ m p l b, MObj.make kind m p l b = .ok o0) ∨ (kind = .reflection ∧ ∃ v l b, MObj.makeReflection v l b = .ok o0))

/-- **C117 (refused assignments).** An assignment that raises leaves the object unchanged. -/
theorem C117_refused (o : MObj) (op : MObj.Op) (e : PyErr) (h : (o.step op).2 = .error e) : (o.step op).1 = o := by
  cases op with
  | matrix a =>
    simp only [MObj.step, MObj.setMatrix] at h ⊢
    split at h
    · cases h
    · rename_i e' he; simp only [he]
  | origin a =>
    simp only [MObj.step, MObj.setOrigin] at h ⊢
    split at h
    · cases h
    · rename_i e' he; simp only [he]
  | plane v =>
    cases hk : o.kind <;> cases v <;>
      simp_all [MObj.step, MObj.setPlane, MObj.setMatrix, MObj.setOrigin, matrixStore, reflStore, originStore]
  | locked b => cases b <;> simp_all [MObj.step, MObj.setLocked]
  | basisOnly b => cases b <;> simp_all [MObj.step, MObj.setBasisOnly]

theorem step_kind (o : MObj) (op : MObj.Op) : (o.step op).1.kind = o.kind := by
  cases op with
  | matrix a => simp only [MObj.step, MObj.setMatrix]; split <;> rfl
  | origin a => simp only [MObj.step, MObj.setOrigin]; split <;> rfl
  | plane v =>
    cases hk : o.kind <;> cases v <;>
      simp_all [MObj.step, MObj.setPlane, MObj.setMatrix, MObj.setOrigin, matrixStore, reflStore, originStore]
  | locked b => cases b <;> rfl
  | basisOnly b => cases b <;> rfl

theorem run_kind (o : MObj) (ops : List MObj.Op) : (o.run ops).kind = o.kind := by
  induction ops generalizing o with
  | nil => rfl
  | cons op ops ih => exact (ih _).trans (step_kind o op)

/-- Of classes other than Reflection: the matrix is None or one that the setter accepted. -/
def Held (o : MObj) : Prop := o.matrix = .unset ∨ ∃ a m, matrixStore o.kind a = .ok m ∧ o.matrix = m

theorem held_step {o : MObj} (h : Held o) (hr : o.kind ≠ .reflection) (op : MObj.Op) : Held (o.step op).1 := by
  have hk := step_kind o op
  unfold Held at h ⊢
  rw [hk]
  cases op with
  | matrix a =>
    simp only [MObj.step, MObj.setMatrix]
    split
    · rename_i m hm; exact .inr ⟨a, m, hm, rfl⟩
    · exact h
  | origin a => simp only [MObj.step, MObj.setOrigin]; split <;> exact h
  | plane v =>
    have : (o.step (.plane v)).1 = o := by
      simp only [MObj.step, MObj.setPlane]
      all_goals (cases hk' : o.kind <;> simp_all)
    rw [this]; exact h
  | locked b => cases b <;> exact h
  | basisOnly b => cases b <;> exact h

theorem held_run {o : MObj} (h : Held o) (hr : o.kind ≠ .reflection) (ops : List MObj.Op) : Held (o.run ops) := by
  induction ops generalizing o with
  | nil => exact h
  | cons op ops ih => exact ih (held_step h hr op) (by rw [step_kind]; exact hr)

theorem make_held {kind : MatKind} {m p : Option Arr} {l b : Option Bool} {o : MObj} (h : MObj.make kind m p l b = .ok o) :
    o.kind = kind ∧ Held o := by
  unfold MObj.make at h
  split at h
  · cases h
  rename_i mv hm
  split at h
  · cases h
  split at h
  · cases h
  split at h
  · cases h
  cases h
  refine ⟨rfl, ?_⟩
  cases m with
  | none => cases hm; exact .inl rfl
  | some a => exact .inr ⟨a, mv, hm, rfl⟩

theorem reachable_held {kind : MatKind} {o : MObj} (hr : kind ≠ .reflection) (h : Reachable kind o) : o.kind = kind ∧ Held o := by
  obtain ⟨o0, ops, rfl, ⟨-, m, p, l, b, hm⟩ | ⟨hk, -⟩⟩ := h
  · obtain ⟨h1, h2⟩ := make_held hm
    exact ⟨by rw [run_kind, h1], held_run h2 (by rw [h1]; exact hr) ops⟩
  · exact absurd hk hr

/-- **C117 (as if made anew).** Except for reflections, an object after any history of assignments is one that the constructor
gives for the matrix, origin and flags it now holds. -/
theorem C117_as_new (kind : MatKind) (hk : kind ≠ .reflection) (o : MObj) (h : Reachable kind o) :
    ∃ m, MObj.make kind m (o.origin.map .vec) (some o.locked) (some o.basisOnly) = .ok { o with plane := none } := by
  obtain ⟨h1, h2⟩ := reachable_held hk h
  obtain ⟨k, m, p, pl, l, b⟩ := o
  cases h1
  rcases h2 with h2 | ⟨a, m', ha, h2⟩
  · refine ⟨none, ?_⟩
    cases h2
    cases p <;> rfl
  · refine ⟨some a, ?_⟩
    cases h2
    simp only [MObj.make, ha]
    cases p <;> rfl

/-! ## rotations -/

theorem quad_le (A : M3 ℝ) (y : V3 ℝ) : |y.dot (A.mulVec y) - y.normSq| ≤ Tr.sumAbs (A - 1) * y.normSq := by
  have hx : ∀ a b : ℝ, a ^ 2 ≤ y.normSq → b ^ 2 ≤ y.normSq → |a * b| ≤ y.normSq := by
    intro a b h1 h2
    rw [abs_le]
    constructor <;> nlinarith [sq_nonneg (a + b), sq_nonneg (a - b)]
  have e1 : y.x ^ 2 ≤ y.normSq := by simp only [V3.normSq, V3.dot]; nlinarith [sq_nonneg y.y, sq_nonneg y.z]
  have e2 : y.y ^ 2 ≤ y.normSq := by simp only [V3.normSq, V3.dot]; nlinarith [sq_nonneg y.x, sq_nonneg y.z]
  have e3 : y.z ^ 2 ≤ y.normSq := by simp only [V3.normSq, V3.dot]; nlinarith [sq_nonneg y.x, sq_nonneg y.y]
  have hid : y.dot (A.mulVec y) - y.normSq = (A.m00 - 1) * (y.x * y.x) + A.m01 * (y.x * y.y) + A.m02 * (y.x * y.z) + A.m10 * (y.y * y.x) +
      (A.m11 - 1) * (y.y * y.y) + A.m12 * (y.y * y.z) + A.m20 * (y.z * y.x) + A.m21 * (y.z * y.y) + (A.m22 - 1) * (y.z * y.z) := by
    simp only [V3.normSq, V3.dot, M3.mulVec]; ring
  have hb : ∀ c a b : ℝ, a ^ 2 ≤ y.normSq → b ^ 2 ≤ y.normSq → |c * (a * b)| ≤ |c| * y.normSq := by
    intro c a b h1 h2
    rw [abs_mul]
    exact mul_le_mul_of_nonneg_left (hx a b h1 h2) (abs_nonneg c)
  rw [hid, sumAbs_sub_one, deviation]
  simp only [add_mul]
  have b1 := abs_le.mp (hb (A.m00 - 1) y.x y.x e1 e1)
  have b2 := abs_le.mp (hb A.m01 y.x y.y e1 e2)
  have b3 := abs_le.mp (hb A.m02 y.x y.z e1 e3)
  have b4 := abs_le.mp (hb A.m10 y.y y.x e2 e1)
  have b5 := abs_le.mp (hb (A.m11 - 1) y.y y.y e2 e2)
  have b6 := abs_le.mp (hb A.m12 y.y y.z e2 e3)
  have b7 := abs_le.mp (hb A.m20 y.z y.x e3 e1)
  have b8 := abs_le.mp (hb A.m21 y.z y.y e3 e2)
  have b9 := abs_le.mp (hb (A.m22 - 1) y.z y.z e3 e3)
  rw [abs_le]
  constructor <;> linarith [b1.1, b1.2, b2.1, b2.2, b3.1, b3.2, b4.1, b4.2, b5.1, b5.2, b6.1, b6.2, b7.1, b7.2, b8.1, b8.2, b9.1, b9.2]

/-- An accepted rotation matrix changes squared lengths by at most one part in a million. -/
theorem near_rotation_length {M : M3 ℝ} (hd : |M.det - 1| < 1 / 10 ^ 6) (hs : Tr.sumAbs (M * M.transpose - 1) < 1 / 10 ^ 6) (x : V3 ℝ) :
    |(M.mulVec x).normSq - x.normSq| ≤ 1 / 10 ^ 6 * x.normSq := by
  have key : ∀ y : V3 ℝ, |(M.transpose.mulVec y).normSq - y.normSq| ≤ 1 / 10 ^ 6 * y.normSq := by
    intro y
    have h1 := quad_le (M * M.transpose) y
    have h2 : y.dot ((M * M.transpose).mulVec y) = (M.transpose.mulVec y).normSq := by
      simp only [V3.normSq, V3.dot, M3.mulVec, M3.mul_def, M3.transpose]; ring
    have hy : 0 ≤ y.normSq := by simp only [V3.normSq, V3.dot]; nlinarith [sq_nonneg y.x, sq_nonneg y.y, sq_nonneg y.z]
    rw [h2] at h1
    exact h1.trans (mul_le_mul_of_nonneg_right hs.le hy)
  have hn : ∀ y : V3 ℝ, 0 ≤ y.normSq := fun y => by simp only [V3.normSq, V3.dot]; nlinarith [sq_nonneg y.x, sq_nonneg y.y, sq_nonneg y.z]
  have hdet : M.transpose.det ≠ 0 := by
    rw [show M.transpose.det = M.det by simp only [M3.det, M3.transpose]; ring]
    rw [abs_lt] at hd
    intro h0; rw [h0] at hd; norm_num at hd
  obtain ⟨y, hy⟩ : ∃ y, M.transpose.mulVec y = x := by
    refine ⟨(M.transpose.det)⁻¹ • M.transpose.adj.mulVec x, ?_⟩
    rw [M3.mulVec_smul, M3.mulVec_adj_mulVec, smul_smul, inv_mul_cancel₀ hdet, one_smul]
  set a := (M.mulVec x).normSq with ha
  have ha0 := hn (M.mulVec x)
  have hx0 := hn x
  rw [abs_le]
  constructor
  · -- lower bound
    have h1 : x.normSq = (M.mulVec x).dot y := by
      have h2 : (M.mulVec x).dot y = x.dot (M.transpose.mulVec y) := by simp only [V3.dot, M3.mulVec, M3.transpose]; ring
      rw [h2, hy]; rfl
    have h2 := dot_sq_le (M.mulVec x) y
    rw [← h1, ← ha] at h2
    have h3 := (abs_le.mp (key y)).1
    rw [hy] at h3
    have hy0 := hn y
    by_contra hlt
    have hlt' : a < (1 - 1 / 10 ^ 6) * x.normSq := by linarith
    have hxp : 0 < x.normSq := by
      rcases hx0.lt_or_eq with h | h
      · exact h
      · rw [← h] at hlt'; linarith
    have h4 : (1 - 1 / 10 ^ 6) * y.normSq ≤ x.normSq := by linarith
    have h5 : (1 - 1 / 10 ^ 6) * x.normSq ^ 2 ≤ a * x.normSq := by nlinarith
    have h6 : (1 - 1 / 10 ^ 6) * x.normSq ≤ a := by
      by_contra hc
      nlinarith
    linarith
  · have h1 : a = x.dot (M.transpose.mulVec (M.mulVec x)) := by
      rw [ha]; simp only [V3.normSq, V3.dot, M3.mulVec, M3.transpose]; ring
    have h2 := dot_sq_le x (M.transpose.mulVec (M.mulVec x))
    rw [← h1] at h2
    have h3 := (abs_le.mp (key (M.mulVec x))).2
    rw [← ha] at h3
    have h4 : (M.transpose.mulVec (M.mulVec x)).normSq ≤ (1 + 1 / 10 ^ 6) * a := by linarith
    have h5 : a ^ 2 ≤ x.normSq * ((1 + 1 / 10 ^ 6) * a) := h2.trans (mul_le_mul_of_nonneg_left h4 hx0)
    rcases ha0.lt_or_eq with h | h
    · have : a ≤ (1 + 1 / 10 ^ 6) * x.normSq := by
        by_contra hc
        rw [← ha] at h
        nlinarith
      linarith
    · rw [ha, ← h]; nlinarith

/-- **C117 (rotations).** After any history of assignments to a Rotation, whenever points are transformed, all distances are kept:
squared distances change by at most one part in a million. -/
theorem C117_rotation (o : MObj) (h : Reachable .rotation o) (ps qs : List (V3 ℝ)) (ha : o.apply ps = .ok qs) :
    qs.length = ps.length ∧ ∀ (i j : ℕ) (p p' q q' : V3 ℝ), ps[i]? = some p → ps[j]? = some p' → qs[i]? = some q → qs[j]? = some q' →
      |(Spec.dist q q') ^ 2 - (Spec.dist p p') ^ 2| ≤ 1 / 10 ^ 6 * (Spec.dist p p') ^ 2 := by
  obtain ⟨h1, h2⟩ := reachable_held (by simp) h
  have hmo : o.matrixOf = o.matrix := by unfold MObj.matrixOf; rw [h1]
  unfold MObj.apply at ha
  rw [hmo] at ha
  rcases h2 with h2 | ⟨a, m, hs, h2⟩
  · rw [h2] at ha
    dsimp only at ha
    split at ha
    · rename_i hps; cases ha; subst hps; exact ⟨rfl, by simp⟩
    · cases ha
  · rw [h1] at hs
    cases a with
    | mat M =>
      simp only [matrixStore] at hs
      split at hs
      · cases hs
      rename_i g1
      split at hs
      · cases hs
      rename_i g2
      cases hs
      rw [h2] at ha
      cases ha
      refine ⟨by simp, ?_⟩
      intro i j p p' q q' e1 e2 e3 e4
      rw [List.getElem?_map, e1] at e3
      rw [List.getElem?_map, e2] at e4
      cases e3
      cases e4
      have hdiff : Tr.matApply M o.origin p - Tr.matApply M o.origin p' = M.mulVec (p - p') := by
        cases o.origin <;> ext <;> simp [Tr.matApply, M3.mulVec] <;> ring
      have hd : ∀ u w : V3 ℝ, (Spec.dist u w) ^ 2 = (u - w).normSq := by
        intro u w
        rw [dist_eq, norm3_sq]
      rw [hd, hd, hdiff]
      exact near_rotation_length (not_not.mp g1) (not_not.mp g2) _
    | _ => cases hs

/-- Concrete case: a quarter turn about z, after the refused assignments of the matrix of ones and of a flag that is no bool. -/
example : ∃ o, Reachable .rotation o ∧ o.apply [⟨1, 0, 0⟩] = .ok [⟨0, 1, 0⟩] := by
  refine ⟨_, ⟨⟨.rotation, .num ⟨0, -1, 0, 1, 0, 0, 0, 0, 1⟩, none, none, true, false⟩, [.matrix (.mat ones), .locked none], rfl,
    .inl ⟨by simp, some (.mat ⟨0, -1, 0, 1, 0, 0, 0, 0, 1⟩), none, some true, some false, ?_⟩⟩, ?_⟩
  · simp [MObj.make, matrixStore, Tr.sumAbs, M3.det, M3.mul_def, M3.transpose, M3.sub_def, M3.one_def]
  · have h0 : ones.det = 0 := by simp [M3.det, ones]
    simp only [MObj.run, List.foldl, MObj.step, MObj.setMatrix, matrixStore, h0]
    norm_num [MObj.setLocked, MObj.apply, MObj.matrixOf, Tr.matApply, M3.mulVec]

/-- **C117 (inversions).** After any history of assignments to an Inversion the transformation of points succeeds, and the midpoint
of every point and its image is the origin now held (zero if there is none).  Every assignment to `matrix` raises AttributeError. -/
theorem C117_inversion (o : MObj) (h : Reachable .inversion o) (ps : List (V3 ℝ)) :
    (∃ qs, o.apply ps = .ok qs ∧ qs.length = ps.length ∧
      ∀ (i : ℕ) (p q : V3 ℝ), ps[i]? = some p → qs[i]? = some q → (1 / 2 : ℝ) • (p + q) = o.origin.getD 0) ∧ ∀ a, (o.step (.matrix a)).2 = .error .attribute := by
  obtain ⟨h1, -⟩ := reachable_held (by simp) h
  refine ⟨?_, fun a => by simp only [MObj.step, MObj.setMatrix, h1, matrixStore]⟩
  refine ⟨ps.map (Tr.matApply ((-1 : ℝ) • (1 : M3 ℝ)) o.origin), ?_, by simp, ?_⟩
  · simp only [MObj.apply, MObj.matrixOf, h1]
  · intro i p q hp hq
    rw [List.getElem?_map, hp] at hq
    cases hq
    cases ho : o.origin <;> ext <;> simp [Tr.matApply, M3.mulVec, M3.smul_def, M3.one_def] <;> ring

/-- **C117 (no matrix).** A MatrixTransform, Rotation or Reflection that never was given a matrix (or plane) raises TypeError when it
is applied to points. -/
theorem C117_unset (o : MObj) (hk : o.kind ≠ .inversion) (hm : o.matrix = .unset) (p : V3 ℝ) (ps : List (V3 ℝ)) :
    o.apply (p :: ps) = .error .type := by
  have : o.matrixOf = .unset := by
    unfold MObj.matrixOf
    cases hk' : o.kind <;> simp_all
  simp [MObj.apply, this]

/-! ## reflections -/

/-- Assignments that do not reach matrix, origin or plane of a Reflection: the flags, and those that raise. -/
def Harmless (o : MObj) (op : MObj.Op) : Prop :=
  (∃ b, op = .locked b) ∨ (∃ b, op = .basisOnly b) ∨ ∃ e, (o.step op).2 = .error e

/-- **C117 (reflections).** After any history that ends with an accepted `plane` and assignments to the flags or refused ones, points
go to their mirror images in the plane held.  Missing: assignments to `origin` and `matrix`, for which it is false (below). -/
theorem C117_reflection_partial (o : MObj) (hk : o.kind = .reflection) (pl : Plane) (hn : len pl.normal = 1) (ops : List MObj.Op)
    (hops : ∀ o' op, o'.kind = .reflection → op ∈ ops → Harmless o' op) (ps : List (V3 ℝ)) :
    let o' := (o.step (.plane (.plane pl))).1.run ops
    o'.plane = some pl ∧ ∃ qs, o'.apply ps = .ok qs ∧ qs.length = ps.length ∧
      ∀ (i : ℕ) (p q : V3 ℝ), ps[i]? = some p → qs[i]? = some q → MirrorImage pl.normal pl.point p q := by
  intro o'
  have hstep : (o.step (.plane (.plane pl))).1 = { o with plane := some pl, matrix := .num (Tr.reflMatrix pl.normal), origin := some pl.point } := by
    have h0 : pl.normal.dot pl.normal ≠ 0 := by
      have := norm3_sq pl.normal
      rw [← len_eq, hn] at this
      rw [dot_self, ← this]; norm_num
    simp only [MObj.step, MObj.setPlane, hk, MObj.setMatrix, matrixStore, reflStore, if_neg h0, MObj.setOrigin, originStore]
    rfl
  have key : ∀ (ops : List MObj.Op) (u : MObj), u.kind = .reflection → (∀ o' op, o'.kind = .reflection → op ∈ ops → Harmless o' op) →
      (u.run ops).kind = .reflection ∧ (u.run ops).plane = u.plane ∧ (u.run ops).matrix = u.matrix ∧ (u.run ops).origin = u.origin := by
    intro ops
    induction ops with
    | nil => intro u hu _; exact ⟨hu, rfl, rfl, rfl⟩
    | cons op ops ih =>
      intro u hu hh
      obtain ⟨k1, k2, k3, k4⟩ := ih (u.step op).1 (by rw [step_kind]; exact hu) (fun o' op' h1 h2 => hh o' op' h1 (List.mem_cons_of_mem _ h2))
      have hs : (u.step op).1.plane = u.plane ∧ (u.step op).1.matrix = u.matrix ∧ (u.step op).1.origin = u.origin := by
        rcases hh u op hu List.mem_cons_self with ⟨b, rfl⟩ | ⟨b, rfl⟩ | ⟨e, he⟩
        · cases b <;> exact ⟨rfl, rfl, rfl⟩
        · cases b <;> exact ⟨rfl, rfl, rfl⟩
        · rw [C117_refused u op e he]; exact ⟨rfl, rfl, rfl⟩
      exact ⟨k1, k2.trans hs.1, k3.trans hs.2.1, k4.trans hs.2.2⟩
  obtain ⟨k1, k2, k3, k4⟩ := key ops (o.step (.plane (.plane pl))).1 (by rw [step_kind]; exact hk) hops
  rw [hstep] at k2 k3 k4
  refine ⟨by show ((o.step (.plane (.plane pl))).1.run ops).plane = _; rw [hstep]; exact k2, ps.map (Tr.matApply (Tr.reflMatrix pl.normal) (some pl.point)), ?_, by simp, ?_⟩
  · show ((o.step (.plane (.plane pl))).1.run ops).apply ps = _
    rw [hstep] at k1 ⊢
    simp only [MObj.apply, MObj.matrixOf, k1, k3, k4]
  · intro i p q hp hq
    rw [List.getElem?_map, hp] at hq
    cases hq
    exact (C41_reflection_is_mirror pl hn true false p).1

/-- **C117, finding.** A Reflection whose `origin` is set no longer mirrors in its plane: for the plane z = 0 and the origin
(0, 0, 1), the point zero, which lies in the plane, goes to (0, 0, 2). -/
theorem C117_reflection_origin_refuted : ∃ (o : MObj) (pl : Plane), Reachable .reflection o ∧ o.plane = some pl ∧ pl.normal = ⟨0, 0, 1⟩ ∧
    pl.point = 0 ∧ o.apply [0] = .ok [⟨0, 0, 2⟩] := by
  refine ⟨_, ⟨⟨0, 0, 1⟩, 0, 1 / 10 ^ 5⟩, ⟨⟨.reflection, .num (Tr.reflMatrix ⟨0, 0, 1⟩), some 0, some ⟨⟨0, 0, 1⟩, 0, 1 / 10 ^ 5⟩, true, false⟩,
    [.origin (.list ⟨0, 0, 1⟩)], rfl, .inr ⟨rfl, some (.plane ⟨⟨0, 0, 1⟩, 0, 1 / 10 ^ 5⟩), some true, some false, ?_⟩⟩, rfl, rfl, rfl, ?_⟩
  · simp [MObj.makeReflection, MObj.make, MObj.setPlane, MObj.setMatrix, MObj.setOrigin, matrixStore, reflStore, originStore, V3.dot, bind, Except.bind,
      Tr.reflMatrix]
  · simp only [MObj.run, List.foldl, MObj.step, MObj.setOrigin, originStore, MObj.apply, MObj.matrixOf, List.map, Tr.matApply]
    congr 2
    ext <;> simp [Tr.reflMatrix, Tr.outer, M3.mulVec, V3.dot, M3.sub_def, M3.one_def, M3.smul_def] <;> norm_num

/-- **C117, finding.** Writing the matrix of a Reflection back (`r.matrix = r.matrix`) destroys it, for every plane: the setter
expects a column of a normal and divides by the zeros of a 3×3 product. -/
theorem C117_reflection_write_back_refuted (pl : Plane) (hn : len pl.normal = 1) (l b : Bool) :
    ∃ o M, MObj.makeReflection (some (.plane pl)) (some l) (some b) = .ok o ∧ o.matrix = .num M ∧
      (o.step (.matrix (.mat M))).2 = .ok () ∧ ∀ p ps, ((o.step (.matrix (.mat M))).1).apply (p :: ps) = .error .nan := by
  have h1 : norm3 pl.normal ^ 2 = pl.normal.dot pl.normal := by rw [norm3_sq]; rfl
  rw [← len_eq, hn, one_pow] at h1
  have h0 : pl.normal.dot pl.normal ≠ 0 := by rw [← h1]; norm_num
  refine ⟨⟨.reflection, .num (Tr.reflMatrix pl.normal), some pl.point, some pl, l, b⟩, Tr.reflMatrix pl.normal, ?_, rfl, ?_, ?_⟩
  · simp [MObj.makeReflection, MObj.make, MObj.setPlane, MObj.setMatrix, MObj.setOrigin, matrixStore, reflStore, originStore, h0, bind, Except.bind,
      Tr.reflMatrix]
  · simp [MObj.step, MObj.setMatrix, matrixStore, reflStore]
  · intro p ps
    have hz : ((Tr.reflMatrix pl.normal).transpose * Tr.reflMatrix pl.normal).m01 = 0 := by
      have h2 : pl.normal.x * pl.normal.x + pl.normal.y * pl.normal.y + pl.normal.z * pl.normal.z = 1 := h1.symm
      simp only [Tr.reflMatrix, ← h1, Tr.outer, M3.transpose, M3.mul_def, M3.sub_def, M3.one_def, M3.smul_def]
      linear_combination 4 * pl.normal.x * pl.normal.y * h2
    have ht : twoOver ((Tr.reflMatrix pl.normal).transpose * Tr.reflMatrix pl.normal) (Tr.reflMatrix pl.normal * (Tr.reflMatrix pl.normal).transpose) = none := by
      unfold twoOver; rw [if_pos (.inr (.inl hz))]
    simp [MObj.step, MObj.setMatrix, matrixStore, reflStore, ht, MObj.apply, MObj.matrixOf]

/-- **C117, finding.** A normal given as an array of shape (3,) is accepted, and every such normal gives the same matrix, which is
not a reflection: -1 on the diagonal and -2 elsewhere, with determinant -5. -/
theorem C117_reflection_vector_refuted (o : MObj) (hk : o.kind = .reflection) (n : V3 ℝ) (hn : n ≠ 0) :
    (o.step (.matrix (.vec n))).2 = .ok () ∧
      (o.step (.matrix (.vec n))).1.matrix = .num ⟨-1, -2, -2, -2, -1, -2, -2, -2, -1⟩ ∧
      (⟨-1, -2, -2, -2, -1, -2, -2, -2, -1⟩ : M3 ℝ).det = -5 := by
  have h0 : n.dot n ≠ 0 := fun h => hn ((norm3_eq_zero n).mp (by have := norm3_sq n; rw [← dot_self, h] at this; exact pow_eq_zero_iff (two_ne_zero) |>.mp this))
  refine ⟨by simp [MObj.step, MObj.setMatrix, hk, matrixStore, reflStore], ?_, by simp only [M3.det]; norm_num⟩
  simp only [MObj.step, MObj.setMatrix, hk, matrixStore, reflStore, if_neg h0, div_mul_cancel₀ _ h0]
  congr 1
  ext <;> simp [ones, M3.sub_def, M3.one_def, M3.smul_def] <;> norm_num

/-- **C117, finding.** A normal given as an array of shape (1,3) is accepted too.  If one of its components is zero the
transformation gives no numbers; otherwise the matrix has the trace 3 - 2 |n|² (1/x² + 1/y² + 1/z²), at most -15, and the entry
-2 |n|² / (xy) beside the diagonal - a reflection has trace 1. -/
theorem C117_reflection_row_refuted (o : MObj) (hk : o.kind = .reflection) (n : V3 ℝ) :
    (o.step (.matrix (.row n))).2 = .ok () ∧
      ((n.x = 0 ∨ n.y = 0 ∨ n.z = 0) → ∀ p ps, ((o.step (.matrix (.row n))).1).apply (p :: ps) = .error .nan) ∧
      (n.x ≠ 0 → n.y ≠ 0 → n.z ≠ 0 → ∃ M, (o.step (.matrix (.row n))).1.matrix = .num M ∧ M.m00 + M.m11 + M.m22 ≤ -15 ∧
        ∀ v : V3 ℝ, M.mulVec v = v - (2 * (n.x ^ 2 + n.y ^ 2 + n.z ^ 2) * (v.x / n.x + v.y / n.y + v.z / n.z)) • ⟨1 / n.x, 1 / n.y, 1 / n.z⟩) := by
  refine ⟨by simp [MObj.step, MObj.setMatrix, hk, matrixStore, reflStore], ?_, ?_⟩
  · intro h p ps
    have ht : twoOver (Tr.outer n) (n.dot n • ones) = none := by
      unfold twoOver
      rw [if_pos]
      rcases h with h | h | h <;> simp [Tr.outer, h]
    simp [MObj.step, MObj.setMatrix, hk, matrixStore, reflStore, ht, MObj.apply, MObj.matrixOf]
  · intro hx hy hz
    have ht : twoOver (Tr.outer n) (n.dot n • ones) = some ⟨2 / (n.x * n.x) * n.dot n, 2 / (n.x * n.y) * n.dot n, 2 / (n.x * n.z) * n.dot n,
        2 / (n.y * n.x) * n.dot n, 2 / (n.y * n.y) * n.dot n, 2 / (n.y * n.z) * n.dot n,
        2 / (n.z * n.x) * n.dot n, 2 / (n.z * n.y) * n.dot n, 2 / (n.z * n.z) * n.dot n⟩ := by
      unfold twoOver
      rw [if_neg (by simp [Tr.outer, hx, hy, hz])]
      simp [Tr.outer, ones, M3.smul_def]
    refine ⟨1 - ⟨2 / (n.x * n.x) * n.dot n, 2 / (n.x * n.y) * n.dot n, 2 / (n.x * n.z) * n.dot n,
        2 / (n.y * n.x) * n.dot n, 2 / (n.y * n.y) * n.dot n, 2 / (n.y * n.z) * n.dot n,
        2 / (n.z * n.x) * n.dot n, 2 / (n.z * n.y) * n.dot n, 2 / (n.z * n.z) * n.dot n⟩, ?_, ?_, ?_⟩
    · simp only [MObj.step, MObj.setMatrix, hk, matrixStore, reflStore, ht]
    · simp only [M3.sub_def, M3.one_def, V3.dot]
      have h1 : (2 / (n.x * n.x) + 2 / (n.y * n.y) + 2 / (n.z * n.z)) * (n.x * n.x + n.y * n.y + n.z * n.z) ≥ 18 := by
        have e : (2 / (n.x * n.x) + 2 / (n.y * n.y) + 2 / (n.z * n.z)) * (n.x * n.x + n.y * n.y + n.z * n.z) =
            18 + 2 * ((n.x / n.y - n.y / n.x) ^ 2 + (n.y / n.z - n.z / n.y) ^ 2 + (n.x / n.z - n.z / n.x) ^ 2) := by
          field_simp
          ring
        rw [e]
        nlinarith [sq_nonneg (n.x / n.y - n.y / n.x), sq_nonneg (n.y / n.z - n.z / n.y), sq_nonneg (n.x / n.z - n.z / n.x)]
      nlinarith
    · intro v
      ext <;> simp [M3.mulVec, M3.sub_def, M3.one_def, V3.dot] <;> field_simp <;> ring

/-- **C117 (matrices given to a Reflection).** A 3×3 array `M` without a zero among the products of its columns is accepted, and the entries
2 (M Mᵀ)ᵢⱼ / (Mᵀ M)ᵢⱼ are taken off the unit matrix; for a symmetric `M` these are all 2, whatever `M`. -/
theorem C117_reflection_matrix_refuted (o : MObj) (hk : o.kind = .reflection) (r s t : V3 ℝ)
    (hc : ∀ a ∈ ([⟨r.x, s.x, t.x⟩, ⟨r.y, s.y, t.y⟩, ⟨r.z, s.z, t.z⟩] : List (V3 ℝ)),
      ∀ b ∈ ([⟨r.x, s.x, t.x⟩, ⟨r.y, s.y, t.y⟩, ⟨r.z, s.z, t.z⟩] : List (V3 ℝ)), a.dot b ≠ 0) :
    let M : M3 ℝ := ⟨r.x, r.y, r.z, s.x, s.y, s.z, t.x, t.y, t.z⟩
    let c₁ : V3 ℝ := ⟨r.x, s.x, t.x⟩; let c₂ : V3 ℝ := ⟨r.y, s.y, t.y⟩; let c₃ : V3 ℝ := ⟨r.z, s.z, t.z⟩
    (o.step (.matrix (.mat M))).2 = .ok () ∧ (o.step (.matrix (.mat M))).1.matrix = .num
      ⟨1 - 2 * (r.dot r / c₁.dot c₁), -(2 * (r.dot s / c₁.dot c₂)), -(2 * (r.dot t / c₁.dot c₃)),
        -(2 * (s.dot r / c₂.dot c₁)), 1 - 2 * (s.dot s / c₂.dot c₂), -(2 * (s.dot t / c₂.dot c₃)),
        -(2 * (t.dot r / c₃.dot c₁)), -(2 * (t.dot s / c₃.dot c₂)), 1 - 2 * (t.dot t / c₃.dot c₃)⟩ ∧
      (M.transpose = M → (o.step (.matrix (.mat M))).1.matrix = .num ⟨-1, -2, -2, -2, -1, -2, -2, -2, -1⟩) := by
  intro M c₁ c₂ c₃
  have hne : ∀ a b, a ∈ [c₁, c₂, c₃] → b ∈ [c₁, c₂, c₃] → a.dot b ≠ 0 := fun a b ha hb => hc a ha b hb
  have h11 := hne c₁ c₁ (by simp) (by simp)
  have h12 := hne c₁ c₂ (by simp) (by simp)
  have h13 := hne c₁ c₃ (by simp) (by simp)
  have h21 := hne c₂ c₁ (by simp) (by simp)
  have h22 := hne c₂ c₂ (by simp) (by simp)
  have h23 := hne c₂ c₃ (by simp) (by simp)
  have h31 := hne c₃ c₁ (by simp) (by simp)
  have h32 := hne c₃ c₂ (by simp) (by simp)
  have h33 := hne c₃ c₃ (by simp) (by simp)
  have hA : M.transpose * M = ⟨c₁.dot c₁, c₁.dot c₂, c₁.dot c₃, c₂.dot c₁, c₂.dot c₂, c₂.dot c₃, c₃.dot c₁, c₃.dot c₂, c₃.dot c₃⟩ := rfl
  have hB : M * M.transpose = ⟨r.dot r, r.dot s, r.dot t, s.dot r, s.dot s, s.dot t, t.dot r, t.dot s, t.dot t⟩ := rfl
  have main : (o.step (.matrix (.mat M))).1.matrix = .num
      ⟨1 - 2 * (r.dot r / c₁.dot c₁), -(2 * (r.dot s / c₁.dot c₂)), -(2 * (r.dot t / c₁.dot c₃)),
        -(2 * (s.dot r / c₂.dot c₁)), 1 - 2 * (s.dot s / c₂.dot c₂), -(2 * (s.dot t / c₂.dot c₃)),
        -(2 * (t.dot r / c₃.dot c₁)), -(2 * (t.dot s / c₃.dot c₂)), 1 - 2 * (t.dot t / c₃.dot c₃)⟩ := by
    have ht : twoOver (M.transpose * M) (M * M.transpose) = some ⟨2 / c₁.dot c₁ * r.dot r, 2 / c₁.dot c₂ * r.dot s, 2 / c₁.dot c₃ * r.dot t,
        2 / c₂.dot c₁ * s.dot r, 2 / c₂.dot c₂ * s.dot s, 2 / c₂.dot c₃ * s.dot t,
        2 / c₃.dot c₁ * t.dot r, 2 / c₃.dot c₂ * t.dot s, 2 / c₃.dot c₃ * t.dot t⟩ := by
      rw [hA, hB]
      unfold twoOver
      rw [if_neg (by simp [h11, h12, h13, h21, h22, h23, h31, h32, h33])]
    simp only [MObj.step, MObj.setMatrix, hk, matrixStore, reflStore, ht]
    congr 1
    ext <;> simp [M3.sub_def, M3.one_def] <;> ring
  refine ⟨by simp [MObj.step, MObj.setMatrix, hk, matrixStore, reflStore], main, ?_⟩
  intro hsym
  rw [main]
  have e1 : c₁ = r := by
    have h := hsym
    simp only [M, M3.transpose, M3.mk.injEq] at h
    ext
    · rfl
    · exact h.2.1
    · exact h.2.2.1
  have e2 : c₂ = s := by
    have h := hsym
    simp only [M, M3.transpose, M3.mk.injEq] at h
    ext
    · exact h.2.2.2.1
    · rfl
    · exact h.2.2.2.2.2.1
  have e3 : c₃ = t := by
    have h := hsym
    simp only [M, M3.transpose, M3.mk.injEq] at h
    ext
    · exact h.2.2.2.2.2.2.1
    · exact h.2.2.2.2.2.2.2.1
    · rfl
  rw [e1] at h11 h12 h13 h21 h31
  rw [e2] at h12 h22 h23 h21 h32
  rw [e3] at h13 h23 h31 h32 h33
  rw [e1, e2, e3, div_self h11, div_self h12, div_self h13, div_self h21, div_self h22, div_self h23, div_self h31, div_self h32, div_self h33]
  norm_num

example : let r : V3 ℝ := ⟨1, 2, 3⟩
    ∀ a ∈ ([⟨r.x, r.x, r.x⟩, ⟨r.y, r.y, r.y⟩, ⟨r.z, r.z, r.z⟩] : List (V3 ℝ)),
      ∀ b ∈ ([⟨r.x, r.x, r.x⟩, ⟨r.y, r.y, r.y⟩, ⟨r.z, r.z, r.z⟩] : List (V3 ℝ)), a.dot b ≠ 0 := by
  simp [V3.dot]; norm_num

/-! ## flags and origins -/

/-- **C117 (flags, origins).** Assignments to `locked`, `basis_only` and `origin` store the value given and touch nothing else; a flag that is
not a bool raises AssertionError, an array of shape (3,3) as origin ValueError.  A plane that is not a Plane raises AssertionError, and so
does the constructor when a flag is not a bool. -/
theorem C117_flags (o : MObj) :
    (∀ b, ∃ o', o.step (.locked (some b)) = (o', .ok ()) ∧ o'.locked = b ∧ o'.basisOnly = o.basisOnly ∧ o'.matrix = o.matrix ∧ o'.origin = o.origin ∧
      o'.plane = o.plane ∧ o'.kind = o.kind) ∧
    (∀ b, ∃ o', o.step (.basisOnly (some b)) = (o', .ok ()) ∧ o'.basisOnly = b ∧ o'.locked = o.locked ∧ o'.matrix = o.matrix ∧
      o'.origin = o.origin ∧ o'.plane = o.plane ∧ o'.kind = o.kind) ∧
    (∀ a v, (a = .vec v ∨ a = .list v ∨ a = .row v ∨ a = .col v) → ∃ o', o.step (.origin a) = (o', .ok ()) ∧ o'.origin = some v ∧
      o'.locked = o.locked ∧ o'.basisOnly = o.basisOnly ∧ o'.matrix = o.matrix ∧ o'.plane = o.plane ∧ o'.kind = o.kind) ∧
    (o.step (.locked none)).2 = .error .assertion ∧ (o.step (.basisOnly none)).2 = .error .assertion ∧
    (∀ M, (o.step (.origin (.mat M))).2 = .error .value) ∧
    (o.kind = .reflection → (o.step (.plane .other)).2 = .error .assertion) ∧
    ∀ kind l b, (l = none ∨ b = none) → MObj.make kind none none l b = .error .assertion := by
  refine ⟨fun b => ⟨_, rfl, rfl, rfl, rfl, rfl, rfl, rfl⟩, fun b => ⟨_, rfl, rfl, rfl, rfl, rfl, rfl, rfl⟩, ?_, rfl, rfl, fun _ => rfl, ?_, ?_⟩
  · rintro a v (rfl | rfl | rfl | rfl) <;> exact ⟨_, rfl, rfl, rfl, rfl, rfl, rfl, rfl⟩
  · intro hk
    simp only [MObj.step, MObj.setPlane, hk]
  · rintro kind l b (rfl | rfl)
    · rfl
    · cases l <;> rfl

/-! ## translations -/

/-- **C117 (translations).** When every array assigned to `shift` has one axis (a list or an array of shape (3,)), a Translation adds the
last one to every point. -/
theorem C117_translation_partial (s : Shift) (as : List Arr) (a : Arr) (v : V3 ℝ) (ha : a = .vec v ∨ a = .list v)
    (later : List Arr) (hl : ∀ s', ∀ x ∈ later, ∃ e, (shiftSet s' x).2 = .error e) (ps : List (V3 ℝ)) :
    shiftApply (shiftRun s (as ++ a :: later)) ps = .ok (ps.map (· + v)) := by
  have hl' : ∀ (l : List Arr) (s' : Shift), (∀ s', ∀ x ∈ l, ∃ e, (shiftSet s' x).2 = .error e) → shiftRun s' l = s' := by
    intro l
    induction l with
    | nil => intro s' _; rfl
    | cons x l ih =>
      intro s' h
      obtain ⟨e, he⟩ := h s' x List.mem_cons_self
      have : (shiftSet s' x).1 = s' := by cases x <;> first | rfl | cases he
      show shiftRun (shiftSet s' x).1 l = s'
      rw [this]
      exact ih s' fun s' y hy => h s' y (List.mem_cons_of_mem _ hy)
  have : shiftRun s (as ++ a :: later) = .vec v := by
    unfold shiftRun
    rw [List.foldl_append, List.foldl_cons]
    refine (hl' later _ hl).trans ?_
    rcases ha with rfl | rfl <;> rfl
  rw [this]; rfl

/-- **C117, finding.** A column is accepted as `shift`: three points are moved each along (1, 1, 1), by different amounts; a single
point becomes three; other numbers of points raise ValueError.  (Rows and 3×3 arrays are refused with AssertionError.) -/
theorem C117_translation_column_refuted (s : Shift) (v : V3 ℝ) : (shiftSet s (.col v)).2 = .ok () ∧
    (∀ M, shiftSet s (.row v) = (s, .error .assertion) ∧ shiftSet s (.mat M) = (s, .error .assertion)) ∧
    (∀ p q r : V3 ℝ, shiftApply (shiftSet s (.col v)).1 [p, q, r] = .ok [p + v.x • ⟨1, 1, 1⟩, q + v.y • ⟨1, 1, 1⟩, r + v.z • ⟨1, 1, 1⟩]) ∧
    (∀ p : V3 ℝ, shiftApply (shiftSet s (.col v)).1 [p] = .ok [p + v.x • ⟨1, 1, 1⟩, p + v.y • ⟨1, 1, 1⟩, p + v.z • ⟨1, 1, 1⟩]) ∧
    ∀ ps : List (V3 ℝ), ps.length ≠ 1 → ps.length ≠ 3 → shiftApply (shiftSet s (.col v)).1 ps = .error .value := by
  have e : ∀ c : ℝ, (⟨c, c, c⟩ : V3 ℝ) = c • ⟨1, 1, 1⟩ := fun c => by ext <;> simp
  refine ⟨rfl, fun _ => ⟨rfl, rfl⟩, fun p q r => ?_, fun p => ?_, fun ps h1 h3 => ?_⟩
  · rw [← e, ← e, ← e]; rfl
  · rw [← e, ← e, ← e]; rfl
  · match ps, h1, h3 with
    | [], _, _ => rfl
    | [_], h1, _ => exact absurd rfl h1
    | [_, _], _, _ => rfl
    | [_, _, _], _, h3 => exact absurd rfl h3
    | _ :: _ :: _ :: _ :: _, _, _ => rfl

end TrSet
end
end CZ
