import Verif.Props.RoundedMotion

/-!
# Filled bodies moved in rounded arithmetic (C139)

A Volume made of surfaces and filled by a crystal is moved by transformations whose coordinates, matrices and directions are computed in
rounded arithmetic, together with its crystal (locked transformations), and is filled again.
-/

namespace CZ
namespace Fl

open Spec

noncomputable section

variable (A : Arith)

/-- The surfaces are usable, no larger than `R`, stay within `R` on their way, and the errors are small compared to the tolerances. -/
def Carried (δ R : ℝ) (ms : List Move) (algs : List Alg) : Prop :=
  ∀ a ∈ algs, Ready a ∧ Sized R a ∧ Budgeted δ R (tolOf a) ms.length ∧ (1 / 2) ^ 480 ≤ tolOf a ∧ Path R ms (anchor a)

/-- Same species, at the image under the moves up to 1/64 of all tolerances. -/
def Follows (ms : List Move) (algs : List Alg) (q a : V3 ℝ × ℤ) : Prop :=
  q.2 = a.2 ∧ ∀ s ∈ algs, Spec.dist q.1 (image ms a.1) ≤ tolOf s / 64

theorem mapM_forall {α β : Type} {f : α → Py β} : ∀ (l : List α) (P : α → β → Prop), (∀ a ∈ l, ∃ b, f a = .ok b ∧ P a b) →
    ∃ l', l.mapM f = .ok l' ∧ List.Forall₂ P l l' := by
  intro l P h
  induction l with
  | nil => exact ⟨[], rfl, .nil⟩
  | cons a l ih =>
    obtain ⟨b, h1, h2⟩ := h a List.mem_cons_self
    obtain ⟨l', h3, h4⟩ := ih fun x hx => h x (List.mem_cons_of_mem _ hx)
    refine ⟨b :: l', ?_, .cons h2 h4⟩
    rw [List.mapM_cons, h1, h3]
    rfl

/-- What the computed tests say after the moves. -/
def Says (R : ℝ) (ms : List Move) (a a' : Alg) : Prop :=
  ∀ p q, Path R ms p → Spec.dist q (image ms p) ≤ (ms.length + 1) * (1 / 2) ^ 40 * R →
    (Closed p a → interior A a' q = true) ∧ (Beyond (2 * tolOf a) p a → interior A a' q = false)

theorem carried_says {δ R : ℝ} {ms : List Move} (hm : ∀ m ∈ ms, m.Fair δ R) {algs : List Alg} (hc : Carried δ R ms algs) :
    ∃ algs', algs.mapM (algOf A ms) = .ok algs' ∧ List.Forall₂ (Says A R ms) algs algs' := by
  refine mapM_forall _ _ fun a ha => ?_
  obtain ⟨h1, h2, h3, h4, h5⟩ := hc a ha
  obtain ⟨a', b1, -, -, b4⟩ := C139_tests A δ R ms hm a h1 h2 h3 h4 h5
  exact ⟨a', b1, b4⟩

theorem forall₂_mem {α β : Type} {P : α → β → Prop} {l : List α} {l' : List β} (h : List.Forall₂ P l l') :
    (∀ a ∈ l, ∃ b ∈ l', P a b) ∧ ∀ b ∈ l', ∃ a ∈ l, P a b := by
  induction h with
  | nil => exact ⟨by simp, by simp⟩
  | cons hab _ ih =>
    constructor
    · intro x hx
      rcases List.mem_cons.mp hx with rfl | hx
      · exact ⟨_, List.mem_cons_self, hab⟩
      · obtain ⟨y, h1, h2⟩ := ih.1 x hx
        exact ⟨y, List.mem_cons_of_mem _ h1, h2⟩
    · intro x hx
      rcases List.mem_cons.mp hx with rfl | hx
      · exact ⟨_, List.mem_cons_self, hab⟩
      · obtain ⟨y, h1, h2⟩ := ih.2 x hx
        exact ⟨y, List.mem_cons_of_mem _ h1, h2⟩

/-- All tests together. -/
theorem says_all {R : ℝ} {ms : List Move} {algs algs' : List Alg} (h : List.Forall₂ (Says A R ms) algs algs') {p q : V3 ℝ}
    (hp : Path R ms p) (hq : Spec.dist q (image ms p) ≤ (ms.length + 1) * (1 / 2) ^ 40 * R) :
    ((∀ a ∈ algs, Closed p a) → (algs'.all fun s => interior A s q) = true) ∧
    ((∃ a ∈ algs, Beyond (2 * tolOf a) p a) → (algs'.all fun s => interior A s q) = false) := by
  obtain ⟨m1, m2⟩ := forall₂_mem h
  constructor
  · intro hc
    rw [List.all_eq_true]
    intro b hb
    obtain ⟨a, ha, hs⟩ := m2 b hb
    exact (hs p q hp hq).1 (hc a ha)
  · rintro ⟨a, ha, hb⟩
    obtain ⟨b, hb', hs⟩ := m1 a ha
    rw [List.all_eq_false]
    exact ⟨b, hb', by simp [(hs p q hp hq).2 hb]⟩

/-- Distances in terms of the tolerances. -/
theorem Budgeted.small {δ R tol : ℝ} {k : ℕ} (h : Budgeted δ R tol k) : (k + 1) * (1 / 2) ^ 40 * R ≤ tol / 128 := by
  obtain ⟨-, -, -, h1, -, -⟩ := h.parts
  linarith

/-! ## Basis vectors stay independent -/

theorem Keeps.det_ne {δ : ℝ} {M : M3 ℝ} (h : Keeps δ M) (hδ : 0 ≤ δ) (hδ1 : δ ≤ 1 / 8) : M.det ≠ 0 := by
  intro h0
  have hadj (v : V3 ℝ) : M.adj.mulVec v = 0 := by
    have h1 := M.mulVec_adj_mulVec v
    rw [h0, zero_smul] at h1
    have h2 := (h.norm hδ (by linarith) (M.adj.mulVec v)).2
    rw [h1, (norm3_eq_zero 0).mpr rfl] at h2
    have h3 := norm3_nonneg (M.adj.mulVec v)
    exact (norm3_eq_zero _).mp (by nlinarith)
  -- all cofactors vanish: two columns are parallel, although they are nearly orthogonal
  have a0 := hadj ⟨1, 0, 0⟩
  have a1 := hadj ⟨0, 1, 0⟩
  have a2 := hadj ⟨0, 0, 1⟩
  have l1 : len (⟨1, 0, 0⟩ : V3 ℝ) = 1 := by simp [len]
  have l2 : len (⟨0, 1, 0⟩ : V3 ℝ) = 1 := by simp [len]
  have g00 := h ⟨1, 0, 0⟩ ⟨1, 0, 0⟩
  have g11 := h ⟨0, 1, 0⟩ ⟨0, 1, 0⟩
  have g01 := h ⟨1, 0, 0⟩ ⟨0, 1, 0⟩
  rw [l1] at g00
  rw [l2] at g11
  rw [l1, l2] at g01
  simp only [V3.ext_iff, M3.adj, M3.mulVec, V3.dot, V3.zero_x, V3.zero_y, V3.zero_z] at a0 a1 a2 g00 g11 g01
  norm_num at a0 a1 a2 g00 g11 g01
  obtain ⟨x1, x2⟩ := abs_le.mp g00
  obtain ⟨y1, y2⟩ := abs_le.mp g11
  obtain ⟨z1, z2⟩ := abs_le.mp g01
  have hz : (M.m00 * M.m01 + M.m10 * M.m11 + M.m20 * M.m21) ^ 2 ≤ 1 / 64 := by nlinarith
  have hl : (M.m00 * M.m00 + M.m10 * M.m10 + M.m20 * M.m20) * (M.m01 * M.m01 + M.m11 * M.m11 + M.m21 * M.m21) =
      (M.m00 * M.m01 + M.m10 * M.m11 + M.m20 * M.m21) ^ 2 := by
    nlinarith
  nlinarith

theorem turned_det {δ R : ℝ} (hδ : 0 ≤ δ) (hδ1 : δ ≤ 1 / 8) : ∀ (ms : List Move), (∀ m ∈ ms, m.Fair δ R) → ∀ B : M3 ℝ, B.det ≠ 0 →
    (turned ms B).det ≠ 0 := by
  intro ms
  induction ms with
  | nil => intro _ B h; exact h
  | cons m ms ih =>
    intro hm B h
    have ih' := ih fun m h => hm m (List.mem_cons_of_mem _ h)
    rcases m with s | ⟨M, o⟩
    · exact ih' B h
    · have e : turned (.matrix M o :: ms) B = turned ms (M * B) := by
        have c0 : (M * B).col0 = M.mulVec B.col0 := rfl
        have c1 : (M * B).col1 = M.mulVec B.col1 := rfl
        have c2 : (M * B).col2 = M.mulVec B.col2 := rfl
        unfold turned
        rw [c0, c1, c2]
        rfl
      rw [e]
      refine ih' _ ?_
      rw [M3.det_mul]
      exact mul_ne_zero (Keeps.det_ne (hm _ List.mem_cons_self).1 hδ hδ1) h

/-! ## Filled bodies -/

theorem site_follows {δ R : ℝ} {ms : List Move} (hm : ∀ m ∈ ms, m.Fair δ R) {algs : List Alg} (hc : Carried δ R ms algs) {B : M3 ℝ}
    (hS : (1 / 2) ^ 480 ≤ span B) {o : V3 ℝ} (ho : Path R ms o) {n : V3 ℤ} {f : V3 ℝ × ℤ} (hr : Reached R ms B o n f.1) :
    Follows ms algs (site A (basesOf A ms B) (pointOf A ms o) (Gen.castV n) f.1, f.2) (siteAt B o n f.1, f.2) := by
  refine ⟨rfl, fun s hs => ?_⟩
  obtain ⟨-, -, hB, ht, -⟩ := hc s hs
  have h1 := C139_site A hB hm B hS o ho n f.1 hr.2
  have h2 := hB.small
  have h3 : 0 < tolOf s := lt_of_lt_of_le (by positivity) ht
  show Spec.dist _ _ ≤ _
  linarith

/-- **C139 (complete).** A Volume moved together with its crystal and filled again holds the images of all sites of the closed body.
`box` is a box around the image of the body; the fractional coordinates of its corners (from which the cells are found) are computed
with errors up to `ε`. -/
theorem C139_filled {δ R : ℝ} (ms : List Move) (hm : ∀ m ∈ ms, m.Fair δ R) (algs : List Alg) (hc : Carried δ R ms algs) (hne : algs ≠ [])
    (B : M3 ℝ) (hd : B.det ≠ 0) (hS : (1 / 2) ^ 480 ≤ span B) (o : V3 ℝ) (ho : Path R ms o) (sites : List (V3 ℝ × ℤ)) :
    ∃ algs', algs.mapM (algOf A ms) = .ok algs' ∧ ∀ (box : List (V3 ℝ)) (ε : ℝ) (e : V3 ℝ) (es : List (V3 ℝ)),
      Accurate ε (turned ms B) (image ms o) box (e :: es) →
      (∀ p, (∀ a ∈ algs, Closed p a) → image ms p ∈ Region box) →
      ∀ n, ∀ f ∈ sites, Within ε f.1 → Reached R ms B o n f.1 → (∀ a ∈ algs, Closed (siteAt B o n f.1) a) →
      ∃ q ∈ fill A algs' (basesOf A ms B) (pointOf A ms o) sites e es, Follows ms algs q (siteAt B o n f.1, f.2) := by
  obtain ⟨algs', h1, h2⟩ := carried_says A hm hc
  refine ⟨algs', h1, fun box ε e es hacc hbox n f hf hw hr hcl => ?_⟩
  obtain ⟨a, ha⟩ := List.exists_mem_of_ne_nil _ hne
  have hB := (hc a ha).2.2.1
  refine ⟨_, ?_, site_follows A hm hc hS ho hr⟩
  unfold fill
  refine List.mem_filter.mpr ⟨List.mem_flatMap.mpr ⟨n, ?_, List.mem_map.mpr ⟨f, hf, rfl⟩⟩, ?_⟩
  · refine C138_cells (turned ms B) (turned_det hB.delta hB.single ms hm B hd) (image ms o) box ε e es hacc n f.1 hw ?_
    rw [← image_site]
    exact hbox _ hcl
  · exact (says_all A h2 hr.1 (C139_site A hB hm B hS o ho n f.1 hr.2)).1 hcl

/-- **C139 (contents).** Every atom of the moved and filled Volume is the image of a site of the crystal that is not two tolerances or
more beyond a surface of the body. -/
theorem C139_contents {δ R : ℝ} (ms : List Move) (hm : ∀ m ∈ ms, m.Fair δ R) (algs : List Alg) (hc : Carried δ R ms algs) (hne : algs ≠ [])
    (B : M3 ℝ) (hS : (1 / 2) ^ 480 ≤ span B) (o : V3 ℝ) (ho : Path R ms o) (sites : List (V3 ℝ × ℤ)) :
    ∃ algs', algs.mapM (algOf A ms) = .ok algs' ∧ ∀ (e : V3 ℝ) (es : List (V3 ℝ)),
      (∀ n ∈ Gen.cells (extents e es).1 (extents e es).2, ∀ f ∈ sites, Reached R ms B o n f.1) →
      ∀ q ∈ fill A algs' (basesOf A ms B) (pointOf A ms o) sites e es,
      ∃ a ∈ Crystal B o sites, Follows ms algs q a ∧ ∀ s ∈ algs, ¬ Beyond (2 * tolOf s) a.1 s := by
  obtain ⟨algs', h1, h2⟩ := carried_says A hm hc
  refine ⟨algs', h1, fun e es hreach q hq => ?_⟩
  obtain ⟨a, ha⟩ := List.exists_mem_of_ne_nil _ hne
  have hB := (hc a ha).2.2.1
  unfold fill at hq
  obtain ⟨g1, g2⟩ := List.mem_filter.mp hq
  obtain ⟨n, hn, g3⟩ := List.mem_flatMap.mp g1
  obtain ⟨f, hf, rfl⟩ := List.mem_map.mp g3
  have hr := hreach n hn f hf
  refine ⟨_, ⟨n, f, hf, rfl⟩, site_follows A hm hc hS ho hr, fun s hs hb => ?_⟩
  have := (says_all A h2 hr.1 (C139_site A hB hm B hS o ho n f.1 hr.2)).2 ⟨s, hs, hb⟩
  rw [this] at g2
  cases g2

/-- **C139 (list).** When no site of the block is doubtful, the atoms of the moved and filled Volume are the images of the sites in the
closed body, in the order of cells and sites, one by one. -/
theorem C139_list {δ R : ℝ} (ms : List Move) (hm : ∀ m ∈ ms, m.Fair δ R) (algs : List Alg) (hc : Carried δ R ms algs) (hne : algs ≠ [])
    (B : M3 ℝ) (hS : (1 / 2) ^ 480 ≤ span B) (o : V3 ℝ) (ho : Path R ms o) (sites : List (V3 ℝ × ℤ)) :
    ∃ algs', algs.mapM (algOf A ms) = .ok algs' ∧ ∀ (e : V3 ℝ) (es : List (V3 ℝ)),
      (∀ n ∈ Gen.cells (extents e es).1 (extents e es).2, ∀ f ∈ sites, Reached R ms B o n f.1 ∧ Clear algs (siteAt B o n f.1)) →
      List.Forall₂ (Follows ms algs) (fill A algs' (basesOf A ms B) (pointOf A ms o) sites e es)
        (inBody algs B o sites (extents e es).1 (extents e es).2) := by
  classical
  obtain ⟨algs', h1, h2⟩ := carried_says A hm hc
  refine ⟨algs', h1, fun e es hreach => ?_⟩
  obtain ⟨a, ha⟩ := List.exists_mem_of_ne_nil _ hne
  have hB := (hc a ha).2.2.1
  unfold fill inBody
  rw [List.filter_flatMap]
  refine forall₂_flatMap _ _ _ fun n hn => ?_
  refine forall₂_filter _ _ _ _ _ (fun f hf => site_follows A hm hc hS ho (hreach n hn f hf).1) fun f hf => ?_
  obtain ⟨hr, hC⟩ := hreach n hn f hf
  have key := says_all A h2 hr.1 (C139_site A hB hm B hS o ho n f.1 hr.2)
  show (algs'.all fun s => interior A s _) = _
  rcases hC with hC | hb
  · rw [decide_eq_true hC]
    exact key.1 hC
  · have h3 : ¬ ∀ s ∈ algs, Closed (siteAt B o n f.1) s := fun h => by
      have := key.1 h
      rw [key.2 hb] at this
      cases this
    rw [decide_eq_false h3]
    exact key.2 hb

theorem Budgeted.zero {δ R tol : ℝ} {k : ℕ} (h : Budgeted δ R tol k) : Budgeted δ R tol 0 := by
  refine ⟨h.delta, h.radius, by norm_num, h.single, by norm_num, ?_⟩
  obtain ⟨hR, -, -, -, -, -⟩ := h.parts
  refine le_trans ?_ h.budget
  have h0 : (0 : ℝ) ≤ (δ + (1 / 2) ^ 40) * R := mul_nonneg (add_nonneg h.delta (by positivity)) hR.le
  have h1 : (0 : ℝ) ≤ k * ((δ + (1 / 2) ^ 40) * R) := mul_nonneg (Nat.cast_nonneg _) h0
  push_cast
  linarith

theorem follows_both {δ R t : ℝ} {ms : List Move} (hm : ∀ m ∈ ms, m.Fair δ R) (hB : Budgeted δ R t ms.length) {q p c : V3 ℝ}
    (h1 : Spec.dist q (image ms p) ≤ t / 64) (h2 : Spec.dist c p ≤ t / 64) : Spec.dist q (image ms c) ≤ t / 16 := by
  have hs8 := hB.steps
  have hk0 := hB.parts.2.1
  obtain ⟨h5, -⟩ := gram_norm (d := 2 * (ms.length * δ)) (by linarith) (by linarith) (turn_keeps hB.delta ms hm hs8 (p - c) (p - c))
  rw [← turn_eq] at h5
  rw [dist_eq] at h1 h2 ⊢
  rw [← norm3_neg, neg_sub] at h2
  have h3 := norm3_tri q (image ms p) (image ms c)
  have h4 : (1 + 2 * (ms.length * δ)) * norm3 (p - c) ≤ 5 / 4 * norm3 (p - c) := mul_le_mul_of_nonneg_right (by linarith) (norm3_nonneg _)
  have h0 := norm3_nonneg (q - image ms p)
  linarith

theorem algOf_nil (algs : List Alg) : algs.mapM (algOf A []) = .ok algs := by
  induction algs with
  | nil => rfl
  | cons a l ih => rw [List.mapM_cons, ih]; rfl

/-- **C139 (same atoms).** The atoms of a Volume that was moved and filled again are, one by one and in the same order, the images of
the atoms it has when it is filled where it was, up to 1/16 of the tolerances - unless a site is doubtful.  The two may be filled on
different machines. -/
theorem C139_same_atoms (A' : Arith) {δ R : ℝ} (ms : List Move) (hm : ∀ m ∈ ms, m.Fair δ R) (algs : List Alg) (hc : Carried δ R ms algs)
    (hne : algs ≠ []) (B : M3 ℝ) (hd : B.det ≠ 0) (hS : (1 / 2) ^ 480 ≤ span B) (o : V3 ℝ) (ho : Path R ms o) (sites : List (V3 ℝ × ℤ)) :
    ∃ algs', algs.mapM (algOf A ms) = .ok algs' ∧ ∀ (box box' : List (V3 ℝ)) (ε : ℝ) (e e' : V3 ℝ) (es es' : List (V3 ℝ)),
      Accurate ε B o box (e :: es) → Accurate ε (turned ms B) (image ms o) box' (e' :: es') →
      (∀ p, (∀ a ∈ algs, Closed p a) → p ∈ Region box ∧ image ms p ∈ Region box') → (∀ f ∈ sites, Within ε f.1) →
      (∀ n, n ∈ Gen.cells (extents e es).1 (extents e es).2 ∨ n ∈ Gen.cells (extents e' es').1 (extents e' es').2 →
        ∀ f ∈ sites, Reached R ms B o n f.1 ∧ Clear algs (siteAt B o n f.1)) →
      List.Forall₂ (fun q a => q.2 = a.2 ∧ ∀ s ∈ algs, Spec.dist q.1 (image ms a.1) ≤ tolOf s / 16)
        (fill A algs' (basesOf A ms B) (pointOf A ms o) sites e' es') (fill A' algs B o sites e es) := by
  classical
  obtain ⟨algs', h1, h2⟩ := C139_list A ms hm algs hc hne B hS o ho sites
  refine ⟨algs', h1, fun box box' ε e e' es es' hacc hacc' hbox hw hreach => ?_⟩
  have hm0 : ∀ m ∈ ([] : List Move), m.Fair δ R := by simp
  have hc0 : Carried δ R [] algs := fun a ha => by
    obtain ⟨b1, b2, b3, b4, b5⟩ := hc a ha
    exact ⟨b1, b2, b3.zero, b4, b5.first⟩
  obtain ⟨algs0, h3, h4⟩ := C139_list A' [] hm0 algs hc0 hne B hS o ho.first sites
  rw [algOf_nil] at h3
  obtain rfl := Except.ok.inj h3
  have g1 := h2 e' es' fun n hn => hreach n (Or.inr hn)
  have g2 := h4 e es fun n hn f hf => ⟨⟨(hreach n (Or.inl hn) f hf).1.1.first, (hreach n (Or.inl hn) f hf).1.2⟩, (hreach n (Or.inl hn) f hf).2⟩
  have g2 : List.Forall₂ (Follows [] algs) (fill A' algs B o sites e es) (inBody algs B o sites (extents e es).1 (extents e es).2) := g2
  obtain ⟨a, ha⟩ := List.exists_mem_of_ne_nil _ hne
  have hB := (hc a ha).2.2.1
  have heq : inBody algs B o sites (extents e es).1 (extents e es).2 = inBody algs B o sites (extents e' es').1 (extents e' es').2 := by
    unfold inBody
    have key (n : V3 ℤ)
        (h : ((sites.map fun f => (siteAt B o n f.1, f.2)).filter fun a => ∀ s ∈ algs, Closed a.1 s) ≠ []) :
        n ∈ Gen.cells (extents e es).1 (extents e es).2 ∧ n ∈ Gen.cells (extents e' es').1 (extents e' es').2 := by
      obtain ⟨a, ha⟩ := List.exists_mem_of_ne_nil _ h
      obtain ⟨h3, h4⟩ := List.mem_filter.mp ha
      obtain ⟨f, hf, rfl⟩ := List.mem_map.mp h3
      obtain ⟨r1, r2⟩ := hbox _ (of_decide_eq_true h4)
      refine ⟨C138_cells B hd o box ε e es hacc n f.1 (hw f hf) r1, ?_⟩
      refine C138_cells (turned ms B) (turned_det hB.delta hB.single ms hm B hd) (image ms o) box' ε e' es' hacc' n f.1 (hw f hf) ?_
      rw [← image_site]
      exact r2
    exact flatMap_cells _ _ _ _ _ (fun n h => (key n h).1) (fun n h => (key n h).2)
  rw [heq] at g2
  clear heq hreach h2 h4
  generalize inBody algs B o sites (extents e' es').1 (extents e' es').2 = l at g1 g2
  generalize fill A algs' (basesOf A ms B) (pointOf A ms o) sites e' es' = l1 at g1 ⊢
  generalize fill A' algs B o sites e es = l2 at g2 ⊢
  induction g1 generalizing l2 with
  | nil => cases g2; exact .nil
  | cons hab _ ih =>
    cases g2 with
    | cons hcb htl =>
      exact .cons ⟨hab.1.trans hcb.1.symm, fun s hs => follows_both hm (hc s hs).2.2.1 (hab.2 s hs) (hcb.2 s hs)⟩ (ih _ htl)

/-! ## Which matrices are accepted -/

/-- Bound of a quadratic form by the entries. -/
theorem form_le (E : M3 ℝ) (v w : V3 ℝ) : |v.dot (E.mulVec w)| ≤ Tr.sumAbs E * (norm3 v * norm3 w) := by
  obtain ⟨v0, v1, v2⟩ := abs_coord_le v
  obtain ⟨w0, w1, w2⟩ := abs_coord_le w
  have key (e a b : ℝ) (ha : |a| ≤ norm3 v) (hb : |b| ≤ norm3 w) : |a * (e * b)| ≤ |e| * (norm3 v * norm3 w) := by
    rw [abs_mul, abs_mul, show |a| * (|e| * |b|) = |e| * (|a| * |b|) by ring]
    exact mul_le_mul_of_nonneg_left (mul_le_mul ha hb (abs_nonneg _) (norm3_nonneg _)) (abs_nonneg _)
  have e : v.dot (E.mulVec w) = v.x * (E.m00 * w.x) + v.x * (E.m01 * w.y) + v.x * (E.m02 * w.z) + v.y * (E.m10 * w.x) +
      v.y * (E.m11 * w.y) + v.y * (E.m12 * w.z) + v.z * (E.m20 * w.x) + v.z * (E.m21 * w.y) + v.z * (E.m22 * w.z) := by
    simp [V3.dot, M3.mulVec]; ring
  rw [e]
  have k1 := key E.m00 _ _ v0 w0
  have k2 := key E.m01 _ _ v0 w1
  have k3 := key E.m02 _ _ v0 w2
  have k4 := key E.m10 _ _ v1 w0
  have k5 := key E.m11 _ _ v1 w1
  have k6 := key E.m12 _ _ v1 w2
  have k7 := key E.m20 _ _ v2 w0
  have k8 := key E.m21 _ _ v2 w1
  have k9 := key E.m22 _ _ v2 w2
  refine (abs_add_le _ _).trans ((add_le_add ((abs_add_le _ _).trans (add_le_add ((abs_add_le _ _).trans (add_le_add
    ((abs_add_le _ _).trans (add_le_add ((abs_add_le _ _).trans (add_le_add ((abs_add_le _ _).trans (add_le_add
    ((abs_add_le _ _).trans (add_le_add ((abs_add_le _ _).trans (add_le_add k1 k2)) k3)) k4)) k5)) k6)) k7)) k8)) k9).trans ?_)
  unfold Tr.sumAbs
  linarith

/-- **C139 (rotations).** Every matrix that the class Rotation accepts keeps inner products up to 2·10^-6 of the lengths, so that the
theorems below apply with this `δ` at least (for matrices computed with more care, with a smaller one). -/
theorem C139_rotation (M : M3 ℝ) (origin : Option (V3 ℝ)) (locked basisOnly : Bool) (t : Tr ℝ)
    (h : Tr.mkRotation M origin locked basisOnly = .ok t) : Keeps (2 / 10 ^ 6) M := by
  have hok : |M.det - 1| < 1 / 10 ^ 6 ∧ Tr.sumAbs (M * M.transpose - 1) < 1 / 10 ^ 6 := by
    unfold Tr.mkRotation at h
    split at h
    · cases h
    · rename_i h1
      split at h
      · cases h
      · rename_i h2
        exact ⟨not_not.mp h1, not_not.mp h2⟩
  obtain ⟨hdet, hE⟩ := hok
  have hd : M.transpose.det ≠ 0 := by
    rw [M3.det_transpose]
    intro h0
    rw [h0] at hdet
    norm_num at hdet
  generalize hs : Tr.sumAbs (M * M.transpose - 1) = s at hE
  have hs0 : 0 ≤ s := by rw [← hs]; unfold Tr.sumAbs; positivity
  have hform : ∀ v w : V3 ℝ, |v.dot ((M * M.transpose - 1).mulVec w)| ≤ s * (norm3 v * norm3 w) := fun v w => hs ▸ form_le _ v w
  -- lengths of images under the transposed matrix
  have hT (u : V3 ℝ) : |(M.transpose.mulVec u).dot (M.transpose.mulVec u) - u.dot u| ≤ s * (norm3 u * norm3 u) := by
    refine le_trans (le_of_eq ?_) (hform u u)
    congr 1
    simp [V3.dot, M3.mulVec, M3.transpose, M3.one_def, M3.mul_def, M3.sub_def]
    ring
  have hMv (v : V3 ℝ) : norm3 (M.mulVec v) ≤ (1 + s) * norm3 v := by
    have h1 := (gram_norm hs0 (by linarith) (hT (M.mulVec v))).1
    have h2 : norm3 (M.mulVec v) ^ 2 = v.dot (M.transpose.mulVec (M.mulVec v)) := by
      rw [norm3_sq]; simp [V3.normSq, V3.dot, M3.mulVec, M3.transpose]; ring
    have h3 := (le_abs_self _).trans (abs_dot_le v (M.transpose.mulVec (M.mulVec v)))
    rw [← h2] at h3
    have h4 := norm3_nonneg v
    have h5 := norm3_nonneg (M.mulVec v)
    by_contra hc
    push Not at hc
    have h6 := mul_le_mul_of_nonneg_left h1 h4
    have h7 : 0 < norm3 (M.mulVec v) := lt_of_le_of_lt (by positivity) hc
    nlinarith
  intro v w
  rw [len_eq, len_eq]
  have hu := (M3.solve_iff _ _ _ hd).mp (M3.solve_ok M.transpose w hd)
  generalize M.transpose.det⁻¹ • M.transpose.adj.mulVec w = u at hu
  have h1 : (M.mulVec v).dot (M.mulVec w) - v.dot w = (M.mulVec v).dot ((M * M.transpose - 1).mulVec u) := by
    rw [← hu]
    simp [V3.dot, M3.mulVec, M3.transpose, M3.one_def, M3.mul_def, M3.sub_def]
    ring
  rw [h1]
  refine (hform _ _).trans ?_
  have h2 := (gram_norm hs0 (by linarith) (hT u)).2
  rw [hu] at h2
  have h3 := hMv v
  have n1 := norm3_nonneg v
  have n2 := norm3_nonneg w
  have n3 := norm3_nonneg u
  have h4 : norm3 u ≤ 5 / 4 * norm3 w := by nlinarith
  have h5 : norm3 (M.mulVec v) ≤ 5 / 4 * norm3 v := h3.trans (mul_le_mul_of_nonneg_right (by linarith) n1)
  have h6 := mul_le_mul h5 h4 n3 (by positivity)
  have h7 := mul_le_mul_of_nonneg_left h6 hs0
  have h8 : 0 ≤ norm3 v * norm3 w := mul_nonneg n1 n2
  have h9 := mul_le_mul_of_nonneg_right hE.le h8
  linarith

/-- Inversions are exact. -/
theorem C139_inversion : Keeps 0 ((-1 : ℝ) • (1 : M3 ℝ)) := by
  intro v w
  have : ((-1 : ℝ) • (1 : M3 ℝ)).mulVec v = -v ∧ ((-1 : ℝ) • (1 : M3 ℝ)).mulVec w = -w := by
    constructor <;> ext <;> simp [M3.mulVec, M3.one_def, M3.smul_def]
  rw [this.1, this.2]
  simp [V3.dot]

/-! ## The exact model as one of the arithmetics -/

/-- Transformations of the exact model whose effect is that of a move: all but reflections (which raise on surfaces). -/
def Move.tr : Move → Tr ℝ
  | .shift s => .translation s true false
  | .matrix M o => .matrix .rotation M o true false

theorem point_exact (m : Move) (p : V3 ℝ) : m.point exact p = m.tr.apply p := by
  rcases m with s | ⟨M, _ | o⟩ <;> rfl

theorem normal_exact (n : V3 ℝ) : normalSet exact n = Plane.normalSet n := by
  show (if norm3 n > machEps then Except.ok (⟨n.x / norm3 n, n.y / norm3 n, n.z / norm3 n⟩ : V3 ℝ) else .error PyErr.value) =
    if norm3 n > machEps then Except.ok ((norm3 n)⁻¹ • n) else .error PyErr.value
  congr 2
  ext <;> simp [div_eq_inv_mul]

theorem axis_exact (n : V3 ℝ) : axisSet exact n = Cylinder.axisSet n := by
  show (if norm3 n ≤ machEps then .error PyErr.value else Except.ok (⟨n.x / norm3 n, n.y / norm3 n, n.z / norm3 n⟩ : V3 ℝ)) =
    if norm3 n ≤ machEps then .error PyErr.value else Except.ok ((norm3 n)⁻¹ • n)
  congr 2
  ext <;> simp [div_eq_inv_mul]

/-- With exact operations the moved surface is that of the exact model. -/
theorem alg_exact (m : Move) (a a' : Alg) : m.alg exact a = .ok a' ↔ m.tr.alg a = (a', .ok ()) := by
  have hp := point_exact m
  rcases m with s | ⟨M, o⟩
  · cases a <;> simp only [Move.alg, Move.tr, Tr.alg, hp, Tr.apply] <;> constructor <;> intro h <;> (try injection h) <;> simp_all
  · cases a with
    | sphere s => simp only [Move.alg, Move.tr, Tr.alg, Tr.matAlg, hp, Tr.apply]; constructor <;> intro h <;> simp_all
    | plane p =>
      simp only [Move.alg, Move.tr, Tr.alg, Tr.matAlg, hp, Tr.apply]
      rw [normal_exact]
      show (match Plane.normalSet (M.mulVec p.normal) with | .ok n => _ | .error e => _) = _ ↔ _
      cases Plane.normalSet (M.mulVec p.normal) <;> simp
    | cyl c =>
      simp only [Move.alg, Move.tr, Tr.alg, Tr.matAlg, hp, Tr.apply]
      rw [axis_exact]
      show (match Cylinder.axisSet (M.mulVec c.axis) with | .ok n => _ | .error e => _) = _ ↔ _
      cases Cylinder.axisSet (M.mulVec c.axis) <;> simp

theorem bases_exact (m : Move) (B : M3 ℝ) : m.bases exact B = m.tr.bases B := by
  rcases m with s | ⟨M, o⟩ <;> rfl

theorem exact_point (ms : List Move) : ∀ p, pointOf exact ms p = image ms p := by
  induction ms with
  | nil => intro p; rfl
  | cons m ms ih => intro p; rcases m with s | ⟨M, _ | o⟩ <;> exact ih _

theorem turned_cons (M : M3 ℝ) (o : Option (V3 ℝ)) (ms : List Move) (B : M3 ℝ) : turned (.matrix M o :: ms) B = turned ms (M * B) := rfl

theorem exact_bases (ms : List Move) : ∀ B, basesOf exact ms B = turned ms B := by
  induction ms with
  | nil => intro B; rfl
  | cons m ms ih => intro B; rcases m with s | ⟨M, o⟩ <;> exact ih _

theorem transformAlgs_exact (m : Move) : ∀ as bs : List Alg, Vol.transformAlgs m.tr as = (bs, .ok ()) → as.mapM (m.alg exact) = .ok bs := by
  intro as
  induction as with
  | nil => intro bs h; cases h; rfl
  | cons a as ih =>
    intro bs h
    unfold Vol.transformAlgs at h
    split at h
    · cases h
    · rename_i a' h1
      generalize h2 : Vol.transformAlgs m.tr as = r at h
      obtain ⟨r1, r2⟩ := r
      injection h with h3 h4
      subst h3
      simp only at h4
      subst h4
      rw [List.mapM_cons, (alg_exact m a a').mpr h1, ih _ h2]
      rfl

theorem mapM_algOf (m : Move) (ms : List Move) : ∀ as bs : List Alg, as.mapM (m.alg A) = .ok bs →
    as.mapM (algOf A (m :: ms)) = bs.mapM (algOf A ms) := by
  intro as
  induction as with
  | nil => intro bs h; cases h; rfl
  | cons a as ih =>
    intro bs h
    rw [List.mapM_cons] at h
    cases h1 : m.alg A a with
    | error e => rw [h1] at h; cases h
    | ok b =>
      rw [h1] at h
      cases h2 : as.mapM (m.alg A) with
      | error e => rw [h2] at h; cases h
      | ok cs =>
        rw [h2] at h
        cases h
        rw [List.mapM_cons, List.mapM_cons, ih _ h2]
        simp only [algOf, h1]

/-- A Volume of the exact model after locked transformations. -/
theorem transformAll_exact (env : Env) (sites : List (V3 ℝ × ℤ)) (ms : List Move) : ∀ (v v' : Vol) (c : Gen ℝ) (x : Voxel ℝ), v.points = none →
    v.gen = some (.crystal c) → Gen.Plain c x sites → v.transformAll env (ms.map Move.tr) = (v', .ok ()) →
    v.algs.mapM (algOf exact ms) = .ok v'.algs ∧ v'.points = none ∧ v'.tri = v.tri ∧
    ∃ c', v'.gen = some (.crystal c') ∧ Gen.Plain c' { x with bases := turned ms x.bases, origin := image ms x.origin } sites := by
  induction ms with
  | nil =>
    intro v v' c x h1 h2 h3 h4
    cases h4
    exact ⟨algOf_nil exact _, h1, rfl, c, h2, h3⟩
  | cons m ms ih =>
    intro v v' c x h1 h2 h3 h4
    rw [List.map_cons] at h4
    unfold Vol.transformAll at h4
    split at h4
    · cases h4
    · rename_i v1 h5
      unfold Vol.transform at h5
      rw [h1] at h5
      simp only at h5
      unfold Vol.transformRest at h5
      split at h5
      · cases h5
      · rename_i as h6
        have hl : m.tr.locked = true := by cases m <;> rfl
        have hbo : m.tr.basisOnly = false := by cases m <;> rfl
        rw [hl, h2] at h5
        simp only [if_true, GenObj.transform] at h5
        obtain ⟨q1, q2, q3, q4⟩ := h3
        unfold Gen.transform at h5
        rw [q1] at h5
        simp only [hbo] at h5
        cases h7 : Voxel.basesSet (m.tr.bases x.bases) with
        | error e => rw [h7] at h5; simp at h5
        | ok b =>
          rw [h7] at h5
          have hb : b = m.tr.bases x.bases := by
            unfold Voxel.basesSet at h7
            split at h7
            · cases h7
            · split at h7
              · cases h7
              · split at h7
                · cases h7
                · exact (Except.ok.inj h7).symm
          simp only [Prod.mk.injEq, and_true] at h5
          subst h5
          simp only [Bool.false_eq_true, if_false] at h4
          obtain ⟨r1, r2, r3, c', r4, r5⟩ := ih { v with algs := as, gen := some (.crystal { c with voxel := some { x with bases := b, origin := m.tr.apply x.origin } }) } v' { c with voxel := some { x with bases := b, origin := m.tr.apply x.origin } }
            { x with bases := b, origin := m.tr.apply x.origin } h1 rfl ⟨rfl, q2, q3, q4⟩ h4
          refine ⟨?_, r2, r3, c', r4, ?_⟩
          · rw [mapM_algOf exact m ms _ _ (transformAlgs_exact m _ _ h6)]
            exact r1
          · rw [hb] at r5
            rcases m with s | ⟨M, _ | o⟩ <;> exact r5

/-- **C139 (two machines).** Two machines that move and fill the same Volume get the same atoms in the same order. -/
theorem C139_machines (A' : Arith) {δ R : ℝ} (ms : List Move) (hm : ∀ m ∈ ms, m.Fair δ R) (algs : List Alg) (hc : Carried δ R ms algs)
    (hne : algs ≠ []) (B : M3 ℝ) (hd : B.det ≠ 0) (hS : (1 / 2) ^ 480 ≤ span B) (o : V3 ℝ) (ho : Path R ms o) (sites : List (V3 ℝ × ℤ)) :
    ∃ as as', algs.mapM (algOf A ms) = .ok as ∧ algs.mapM (algOf A' ms) = .ok as' ∧
      ∀ (box : List (V3 ℝ)) (ε : ℝ) (e e' : V3 ℝ) (es es' : List (V3 ℝ)),
      Accurate ε (turned ms B) (image ms o) box (e :: es) → Accurate ε (turned ms B) (image ms o) box (e' :: es') →
      (∀ p, (∀ a ∈ algs, Closed p a) → image ms p ∈ Region box) → (∀ f ∈ sites, Within ε f.1) →
      (∀ n, n ∈ Gen.cells (extents e es).1 (extents e es).2 ∨ n ∈ Gen.cells (extents e' es').1 (extents e' es').2 →
        ∀ f ∈ sites, Reached R ms B o n f.1 ∧ Clear algs (siteAt B o n f.1)) →
      List.Forall₂ (fun q a => q.2 = a.2 ∧ ∀ s ∈ algs, Spec.dist q.1 a.1 ≤ tolOf s / 32)
        (fill A as (basesOf A ms B) (pointOf A ms o) sites e es) (fill A' as' (basesOf A' ms B) (pointOf A' ms o) sites e' es') := by
  classical
  obtain ⟨as, h1, h2⟩ := C139_list A ms hm algs hc hne B hS o ho sites
  obtain ⟨as', h3, h4⟩ := C139_list A' ms hm algs hc hne B hS o ho sites
  refine ⟨as, as', h1, h3, fun box ε e e' es es' hacc hacc' hbox hw hreach => ?_⟩
  have g1 := h2 e es fun n hn => hreach n (Or.inl hn)
  have g2 := h4 e' es' fun n hn => hreach n (Or.inr hn)
  obtain ⟨a, ha⟩ := List.exists_mem_of_ne_nil _ hne
  have hB := (hc a ha).2.2.1
  have heq : inBody algs B o sites (extents e es).1 (extents e es).2 = inBody algs B o sites (extents e' es').1 (extents e' es').2 := by
    unfold inBody
    have key (e : V3 ℝ) (es : List (V3 ℝ)) (hacc : Accurate ε (turned ms B) (image ms o) box (e :: es)) (n : V3 ℤ)
        (h : ((sites.map fun f => (siteAt B o n f.1, f.2)).filter fun a => ∀ s ∈ algs, Closed a.1 s) ≠ []) :
        n ∈ Gen.cells (extents e es).1 (extents e es).2 := by
      obtain ⟨a, ha⟩ := List.exists_mem_of_ne_nil _ h
      obtain ⟨h3, h4⟩ := List.mem_filter.mp ha
      obtain ⟨f, hf, rfl⟩ := List.mem_map.mp h3
      refine C138_cells (turned ms B) (turned_det hB.delta hB.single ms hm B hd) (image ms o) box ε e es hacc n f.1 (hw f hf) ?_
      rw [← image_site]
      exact hbox _ (of_decide_eq_true h4)
    exact flatMap_cells _ _ _ _ _ (key e es hacc) (key e' es' hacc')
  rw [← heq] at g2
  clear heq hreach h2 h4
  generalize inBody algs B o sites (extents e es).1 (extents e es).2 = l at g1 g2
  generalize fill A as (basesOf A ms B) (pointOf A ms o) sites e es = l1 at g1 ⊢
  generalize fill A' as' (basesOf A' ms B) (pointOf A' ms o) sites e' es' = l2 at g2 ⊢
  induction g1 generalizing l2 with
  | nil => cases g2; exact .nil
  | cons hab _ ih =>
    cases g2 with
    | cons hcb htl =>
      refine .cons ⟨hab.1.trans hcb.1.symm, fun s hs => ?_⟩ (ih _ htl)
      have h3 := hab.2 s hs
      have h4 := hcb.2 s hs
      rw [dist_eq] at h3 h4 ⊢
      have h5 := (norm3_neg (_ - _)).le.trans h4
      have h6 := (norm3_add_le _ _).trans (add_le_add h3 h5)
      refine le_trans (le_of_eq ?_) (h6.trans (by linarith))
      congr 1
      ext <;> simp

/-- **C139 (exact and rounded).** The exact model moves a Volume by locked transformations and fills it; the atoms are those that the
program gets in rounded arithmetic.  This carries the theorems on moved Volumes over to the program as it runs. -/
theorem C139_populate (env : Env) (v : Vol) (hpts : v.points = none) (htri : v.tri = none) (c : Gen ℝ) (x : Voxel ℝ)
    (hx : x.scale = .scalar 1) (sites : List (V3 ℝ × ℤ)) (hg : v.gen = some (.crystal c)) (hP : Gen.Plain c x sites) (hd : x.bases.det ≠ 0)
    {δ R : ℝ} (ms : List Move) (hm : ∀ m ∈ ms, m.Fair δ R) (hc : Carried δ R ms v.algs) (hne : v.algs ≠ [])
    (hS : (1 / 2) ^ 480 ≤ span x.bases) (ho : Path R ms x.origin) (v' : Vol)
    (hv : v.transformAll env (ms.map Move.tr) = (v', .ok ())) (box : List (V3 ℝ)) (hb : v'.boundingBox env = .ok (.rows box)) (hb' : box ≠ [])
    (hbox : ∀ p, (∀ a ∈ v.algs, Closed p a) → image ms p ∈ Region box) (ε : ℝ) (hε : 0 ≤ ε) (hw : ∀ f ∈ sites, Within ε f.1)
    (e : V3 ℝ) (es : List (V3 ℝ)) (hacc : Accurate ε (turned ms x.bases) (image ms x.origin) box (e :: es))
    (hreach : ∀ n, (n ∈ Gen.cells (extents e es).1 (extents e es).2 ∨ ∃ lo hi, Voxel.getExtents
        { x with bases := turned ms x.bases, origin := image ms x.origin } box = .ok (lo, hi) ∧ n ∈ Gen.cells lo hi) →
      ∀ f ∈ sites, Reached R ms x.bases x.origin n f.1 ∧ Clear v.algs (siteAt x.bases x.origin n f.1)) (k : ℕ) :
    ∃ as v'' ps zs, v.algs.mapM (algOf A ms) = .ok as ∧ v'.populate env k = (v'', .ok ()) ∧ v''.atoms = some ps ∧ v''.species = some zs ∧
      List.Forall₂ (fun a b => a.2 = b.2 ∧ ∀ s ∈ v.algs, Spec.dist a.1 b.1 ≤ tolOf s / 32)
        (fill A as (basesOf A ms x.bases) (pointOf A ms x.origin) sites e es) (ps.zip zs) := by
  obtain ⟨t1, t2, t3, c', t4, t5⟩ := transformAll_exact env sites ms v v' c x hpts hg hP hv
  have hsb : Voxel.sbases { x with bases := turned ms x.bases, origin := image ms x.origin } = turned ms x.bases := by
    unfold Voxel.sbases
    simp only [hx]
    ext <;> simp [M3.smul_def]
  obtain ⟨a, ha⟩ := List.exists_mem_of_ne_nil _ hne
  have hB := (hc a ha).2.2.1
  have hdt := turned_det hB.delta hB.single ms hm x.bases hd
  obtain ⟨e', es', hacc', hx', hpop⟩ := populate_fill (t3.trans htri) hb hb' t4 t5 (by rw [hsb]; exact hdt) k
  rw [hsb] at hacc' hpop
  obtain ⟨as, as', m1, m2, m3⟩ := C139_machines A exact ms hm v.algs hc hne x.bases hd hS x.origin ho sites
  rw [t1] at m2
  obtain rfl := Except.ok.inj m2
  refine ⟨as, _, _, _, m1, hpop, rfl, rfl, ?_⟩
  have hz : ∀ l : List (V3 ℝ × ℤ), (l.map Prod.fst).zip (l.map Prod.snd) = l := fun l => by
    rw [List.zip_map']; simp
  rw [hz]
  have := m3 box ε e e' es es' hacc (hacc'.imp fun p e h => ?_) hbox hw fun n hn => hreach n (hn.imp_right fun h => ⟨_, _, hx', h⟩)
  · rwa [exact_bases, exact_point] at this
  · obtain ⟨y, h1, h2, h3, h4⟩ := h
    exact ⟨y, h1, h2.trans hε, h3.trans hε, h4.trans hε⟩

/-! ## Extents -/

/-- **C138 (extents).** The error of the extents from the residual of the linear solver: if `np.linalg.solve` leaves at most `r` for
corners within `L` of the origin of the crystal, and `κ` bounds the inverse of the bases, the crystal coordinates of the corners are
right up to `κ (r + 2^-52 L)`.  (voxel.py:108-128; the subtraction of the origin is rounded too.) -/
theorem C138_extents {κ r L : ℝ} (B : M3 ℝ) (hB : B.det ≠ 0) (o : V3 ℝ) (hκ0 : 0 ≤ κ) (hκ : ∀ v, len v ≤ κ * len (B.mulVec v))
    (box es : List (V3 ℝ)) (h : List.Forall₂ (fun p e => len (B.mulVec e - sub A p o) ≤ r ∧ len (p - o) ≤ L) box es) :
    Accurate (κ * (r + 2 * unit * L + 2 * tiny)) B o box es := by
  refine h.imp fun p e ⟨h1, h2⟩ => ?_
  obtain ⟨x, hx⟩ : ∃ x, B.mulVec x = p - o :=
    ⟨B.det⁻¹ • B.adj.mulVec (p - o), by rw [M3.mulVec_smul, M3.mulVec_adj_mulVec, smul_smul, inv_mul_cancel₀ hB, one_smul]⟩
  refine ⟨x, by rw [cart_eq, hx, sub_add_cancel], ?_⟩
  have h3 := vsub_near A p o
  have h4 := hκ (e - x)
  have lin : B.mulVec (e - x) = (B.mulVec e - sub A p o) + (sub A p o - (p - o)) := by
    rw [← hx]; ext <;> simp [M3.mulVec] <;> ring
  rw [len_eq] at h1 h2 h4
  rw [len_eq, lin] at h4
  have h5 := norm3_add_le (B.mulVec e - sub A p o) (sub A p o - (p - o))
  have hu := unit_pos
  have h6 : norm3 (e - x) ≤ κ * (r + 2 * unit * L + 2 * tiny) := by
    refine h4.trans (mul_le_mul_of_nonneg_left (h5.trans ?_) hκ0)
    have := mul_le_mul_of_nonneg_left h2 (by linarith : 0 ≤ 2 * unit)
    linarith
  obtain ⟨c1, c2, c3⟩ := comp_le (e - x)
  exact ⟨c1.trans h6, c2.trans h6, c3.trans h6⟩

/-- Concrete case: unit bases, one corner, solved without residual. -/
example : Accurate (1 * (0 + 2 * unit * 2 + 2 * tiny)) 1 0 [(⟨1, 1, 1⟩ : V3 ℝ)] [sub binary64 ⟨1, 1, 1⟩ 0] := by
  refine C138_extents binary64 1 (by rw [M3.det_one]; norm_num) 0 zero_le_one (fun v => by rw [M3.mulVec_one]; simp) _ _
    (List.Forall₂.cons ⟨?_, ?_⟩ List.Forall₂.nil)
  · rw [M3.mulVec_one, sub_self]; simp [len]
  · unfold len
    rw [Real.sqrt_le_left (by norm_num)]
    norm_num

/-! ## A concrete case -/

/-- Rotation about z by the angle of the triangle 3, 4, 5. -/
def turn345 : M3 ℝ := ⟨3 / 5, -4 / 5, 0, 4 / 5, 3 / 5, 0, 0, 0, 1⟩

theorem turn345_keeps : Keeps 0 turn345 := by
  intro v w
  have : (turn345.mulVec v).dot (turn345.mulVec w) - v.dot w = 0 := by simp [turn345, M3.mulVec, V3.dot]; ring
  rw [this]; simp

/-- A turn about z, then a shift. -/
def moves : List Move := [.matrix turn345 none, .shift ⟨1, 0, 0⟩]

theorem moves_fair : ∀ m ∈ moves, m.Fair 0 20 := by
  intro m hm
  simp only [moves, List.mem_cons, List.not_mem_nil, or_false] at hm
  rcases hm with rfl | rfl
  · exact ⟨turn345_keeps, by simp⟩
  · show len _ ≤ 20
    simp [len]

theorem moves_path {p : V3 ℝ} (h : p.x ^ 2 + p.y ^ 2 + p.z ^ 2 ≤ 100) : Path 20 moves p := by
  have hx : |p.x| ≤ 10 := abs_le_of_sq_le_sq (by nlinarith [sq_nonneg p.y, sq_nonneg p.z]) (by norm_num)
  have hy : |p.y| ≤ 10 := abs_le_of_sq_le_sq (by nlinarith [sq_nonneg p.x, sq_nonneg p.z]) (by norm_num)
  obtain ⟨x1, x2⟩ := abs_le.mp hx
  obtain ⟨y1, y2⟩ := abs_le.mp hy
  refine ⟨?_, ?_, ?_⟩
  · unfold len
    rw [Real.sqrt_le_left (by norm_num)]
    linarith
  · unfold len
    rw [Real.sqrt_le_left (by norm_num)]
    simp only [Move.image, turn345, M3.mulVec]
    nlinarith
  · show len _ ≤ 20
    unfold len
    rw [Real.sqrt_le_left (by norm_num)]
    simp only [Move.image, turn345, M3.mulVec, V3.add_x, V3.add_y, V3.add_z]
    have e : (3 / 5 * p.x + -4 / 5 * p.y + 0 * p.z + 1) ^ 2 + (4 / 5 * p.x + 3 / 5 * p.y + 0 * p.z + 0) ^ 2 + (0 * p.x + 0 * p.y + 1 * p.z + 0) ^ 2 =
      p.x ^ 2 + p.y ^ 2 + p.z ^ 2 + 6 / 5 * p.x - 8 / 5 * p.y + 1 := by ring
    rw [e]
    linarith

theorem budget345 : Budgeted 0 20 (1 / 10 ^ 5) moves.length := by
  refine ⟨le_refl _, ?_, by norm_num, by norm_num, by simp [moves]; norm_num, ?_⟩
  · exact (half_pow_le (show 0 ≤ 480 by norm_num)).trans (by norm_num)
  · unfold Budget
    simp only [moves, List.length_cons, List.length_nil]
    norm_num

/-- Concrete case: the point (3, 0, 0) on the surface of a ball is accepted after the moves, computed in binary64. -/
example : ∃ a', algOf binary64 moves (.sphere ⟨3, 0, 1 / 10 ^ 5⟩) = .ok a' ∧ interior binary64 a' (pointOf binary64 moves ⟨3, 0, 0⟩) = true := by
  have h480 : (1 / 2 : ℝ) ^ 480 ≤ 1 / 10 ^ 5 := (half_pow_le (show 20 ≤ 480 by norm_num)).trans (by norm_num)
  obtain ⟨a', h1, -, -, h2⟩ := C139_tests binary64 0 20 moves moves_fair (.sphere ⟨3, 0, 1 / 10 ^ 5⟩) (by simp [Ready]) (by simp [Sized]; norm_num)
    budget345 h480 (moves_path (by simp [anchor]))
  have hp : Path 20 moves (⟨3, 0, 0⟩ : V3 ℝ) := moves_path (by norm_num)
  refine ⟨a', h1, (h2 _ _ hp ?_).1 ?_⟩
  · rw [dist_eq]
    refine (Budgeted.point binary64 budget345 moves_fair hp).1.trans ?_
    simp only [moves, List.length_cons, List.length_nil]
    norm_num
  · show Spec.dist _ _ ≤ 3
    unfold Spec.dist
    rw [Real.sqrt_le_left (by norm_num)]
    norm_num

/-- Concrete case: the simple cubic crystal in a ball of radius 3/2 has the same atoms, in the same order, after a turn and a shift
computed in binary64 with fused operations. -/
example : ∃ as e e' es es', [Alg.sphere ⟨3 / 2, 0, 1 / 10 ^ 5⟩].mapM (algOf binary64Fma moves) = .ok as ∧
    List.Forall₂ (fun q a => q.2 = a.2 ∧ ∀ s ∈ [Alg.sphere ⟨3 / 2, 0, 1 / 10 ^ 5⟩], Spec.dist q.1 (image moves a.1) ≤ tolOf s / 16)
      (fill binary64Fma as (basesOf binary64Fma moves 1) (pointOf binary64Fma moves 0) [(0, 6)] e' es')
      (fill binary64 [.sphere ⟨3 / 2, 0, 1 / 10 ^ 5⟩] 1 0 [(0, 6)] e es) := by
  have h480 : (1 / 2 : ℝ) ^ 480 ≤ 1 / 10 ^ 5 := (half_pow_le (show 20 ≤ 480 by norm_num)).trans (by norm_num)
  have h480' : (1 / 2 : ℝ) ^ 480 ≤ 1 := (half_pow_le (show 0 ≤ 480 by norm_num)).trans (by norm_num)
  have hcols : len (1 : M3 ℝ).col0 = 1 ∧ len (1 : M3 ℝ).col1 = 1 ∧ len (1 : M3 ℝ).col2 = 1 := by
    refine ⟨?_, ?_, ?_⟩ <;> simp [len, M3.one_def, M3.col0, M3.col1, M3.col2]
  have hspan : span (1 : M3 ℝ) = 3 := by unfold span; rw [hcols.1, hcols.2.1, hcols.2.2]; norm_num
  obtain ⟨as, h1, h2⟩ := C139_same_atoms binary64Fma binary64 moves moves_fair [.sphere ⟨3 / 2, 0, 1 / 10 ^ 5⟩]
    (fun a ha => by
      obtain rfl := List.mem_singleton.mp ha
      exact ⟨by simp [Ready], by simp [Sized]; norm_num, budget345, h480, moves_path (by simp [anchor])⟩) (by simp) 1
    (by rw [M3.det_one]; norm_num) (by rw [hspan]; linarith) 0 (moves_path (by simp)) [(0, 6)]
  have ht : turned moves 1 = turn345 := by ext <;> simp [turned, moves, turn, Move.turn, turn345, M3.mulVec, M3.one_def, M3.col0, M3.col1, M3.col2]
  have hi : image moves (0 : V3 ℝ) = ⟨1, 0, 0⟩ := by ext <;> simp [image, moves, Move.image, turn345, M3.mulVec]
  let b := Vol.sphereBox ⟨3 / 2, 0, 1 / 10 ^ 5⟩
  let b' := Vol.sphereBox ⟨3 / 2, ⟨1, 0, 0⟩, 1 / 10 ^ 5⟩
  let es := b'.map fun p => turn345.transpose.mulVec (p - ⟨1, 0, 0⟩)
  have hb : b.headD 0 :: b.tail = b := by simp [b, Vol.sphereBox, Vol.rectPrism]
  have hes : es.headD 0 :: es.tail = es := by simp [es, b', Vol.sphereBox, Vol.rectPrism]
  refine ⟨as, b.headD 0, es.headD 0, b.tail, es.tail, h1, h2 b b' 0 _ _ _ _ ?_ ?_ ?_ (by simp [Within]) ?_⟩
  · rw [hb]
    unfold Accurate
    rw [List.forall₂_same]
    exact fun p _ => ⟨p, by ext <;> simp [cart, M3.one_def, M3.col0, M3.col1, M3.col2], by simp⟩
  · rw [hes, ht, hi]
    unfold Accurate
    show List.Forall₂ _ b' (b'.map _)
    rw [List.forall₂_map_right_iff, List.forall₂_same]
    refine fun p _ => ⟨turn345.transpose.mulVec (p - ⟨1, 0, 0⟩), ?_, by simp⟩
    ext <;> simp [cart, turn345, M3.transpose, M3.mulVec, M3.col0, M3.col1, M3.col2] <;> ring
  · intro p hp
    have hp0 := hp _ (List.mem_singleton.mpr rfl)
    refine ⟨ball_in_box ⟨3 / 2, 0, 1 / 10 ^ 5⟩ (by norm_num) p hp0, ball_in_box ⟨3 / 2, ⟨1, 0, 0⟩, 1 / 10 ^ 5⟩ (by norm_num) _ ?_⟩
    refine le_trans (le_of_eq ?_) hp0
    unfold Spec.dist
    congr 1
    simp [image, moves, Move.image, turn345, M3.mulVec]
    ring
  · have hext : extents (b.headD 0) b.tail = (⟨-2, -2, -2⟩, ⟨2, 2, 2⟩) := by
      have f1 : ⌊(-3 / 2 : ℝ)⌋ = -2 := by rw [Int.floor_eq_iff]; norm_num
      have c1 : ⌈(3 / 2 : ℝ)⌉ = 2 := by rw [Int.ceil_eq_iff]; norm_num
      have mn : Voxel.minV (b.headD 0) b.tail = ⟨-3 / 2, -3 / 2, -3 / 2⟩ := by
        ext <;> norm_num [b, Voxel.minV, Voxel.minL, Vol.sphereBox, Vol.rectPrism]
      have mx : Voxel.maxV (b.headD 0) b.tail = ⟨3 / 2, 3 / 2, 3 / 2⟩ := by
        ext <;> norm_num [b, Voxel.maxV, Voxel.maxL, Vol.sphereBox, Vol.rectPrism]
      unfold extents
      simp only [mn, mx, f1, c1]
    have hext' : extents (es.headD 0) es.tail = (⟨-3, -3, -2⟩, ⟨3, 3, 2⟩) := by
      have f1 : ⌊(-3 / 2 : ℝ)⌋ = -2 := by rw [Int.floor_eq_iff]; norm_num
      have c1 : ⌈(3 / 2 : ℝ)⌉ = 2 := by rw [Int.ceil_eq_iff]; norm_num
      have f2 : ⌊(-21 / 10 : ℝ)⌋ = -3 := by rw [Int.floor_eq_iff]; norm_num
      have c2 : ⌈(21 / 10 : ℝ)⌉ = 3 := by rw [Int.ceil_eq_iff]; norm_num
      have mn : Voxel.minV (es.headD 0) es.tail = ⟨-21 / 10, -21 / 10, -3 / 2⟩ := by
        ext <;> norm_num [es, b', Voxel.minV, Voxel.minL, Vol.sphereBox, Vol.rectPrism, turn345, M3.transpose, M3.mulVec]
      have mx : Voxel.maxV (es.headD 0) es.tail = ⟨21 / 10, 21 / 10, 3 / 2⟩ := by
        ext <;> norm_num [es, b', Voxel.maxV, Voxel.maxL, Vol.sphereBox, Vol.rectPrism, turn345, M3.transpose, M3.mulVec]
      unfold extents
      simp only [mn, mx, f1, c1, f2, c2]
    rw [hext, hext']
    intro n hn f hf
    obtain rfl := List.mem_singleton.mp hf
    rw [Gen.mem_cells, Gen.mem_cells] at hn
    have hn' : n.x ^ 2 ≤ 9 ∧ n.y ^ 2 ≤ 9 ∧ n.z ^ 2 ≤ 4 := by
      simp only at hn
      refine ⟨?_, ?_, ?_⟩ <;> rcases hn with hn | hn <;> nlinarith
    have e0 : siteAt (1 : M3 ℝ) 0 n 0 = ⟨n.x, n.y, n.z⟩ := by
      ext <;> simp [siteAt, cart, M3.one_def, M3.col0, M3.col1, M3.col2]
    have hsum : ((n.x : ℝ) ^ 2 + (n.y : ℝ) ^ 2 + (n.z : ℝ) ^ 2) ≤ 22 := by
      have : n.x ^ 2 + n.y ^ 2 + n.z ^ 2 ≤ 22 := by omega
      exact_mod_cast this
    refine ⟨⟨moves_path ?_, ?_⟩, ?_⟩
    · rw [e0]; simp only; linarith
    · rw [hspan]
      have l0 : len (0 : V3 ℝ) = 0 := by simp [len]
      have l1 : len (Gen.castV (K := ℝ) n) ≤ 5 := by
        unfold len
        rw [Real.sqrt_le_left (by norm_num)]
        simp only [Gen.castV]
        linarith
      show 3 * (_ + len (0 : V3 ℝ)) ≤ 20
      rw [l0]
      linarith
    · have hd : Spec.dist (siteAt (1 : M3 ℝ) 0 n 0) 0 = Real.sqrt ((n.x ^ 2 + n.y ^ 2 + n.z ^ 2 : ℤ) : ℝ) := by
        rw [e0]; unfold Spec.dist; simp
      by_cases h : n.x ^ 2 + n.y ^ 2 + n.z ^ 2 ≤ 2
      · left
        intro a ha
        obtain rfl := List.mem_singleton.mp ha
        show Spec.dist _ _ ≤ _
        rw [hd, Real.sqrt_le_left (by norm_num)]
        have : ((n.x ^ 2 + n.y ^ 2 + n.z ^ 2 : ℤ) : ℝ) ≤ 2 := by exact_mod_cast h
        norm_num at this ⊢
        linarith
      · right
        refine ⟨_, List.mem_singleton.mpr rfl, ?_⟩
        show _ ≤ Spec.dist _ _
        rw [hd]
        apply Real.le_sqrt_of_sq_le
        have : (3 : ℝ) ≤ ((n.x ^ 2 + n.y ^ 2 + n.z ^ 2 : ℤ) : ℝ) := by
          have : (3 : ℤ) ≤ n.x ^ 2 + n.y ^ 2 + n.z ^ 2 := by omega
          exact_mod_cast this
        simp only [tolOf]
        norm_num at this ⊢
        linarith

/-- Concrete case: the turn is a matrix that Rotation accepts. -/
example : ∃ t, Tr.mkRotation turn345 none true false = .ok t := by
  refine ⟨.matrix .rotation turn345 none true false, ?_⟩
  unfold Tr.mkRotation
  rw [if_neg, if_neg]
  · rw [M3.one_def]; norm_num [turn345, Tr.sumAbs, M3.transpose, M3.mul_def, M3.sub_def]
  · norm_num [turn345, M3.det]

/-- **C139 (the budget is needed).** Rotation also accepts matrices that are off by up to 10^-6.  One of them, moving a ball of radius
100 with the default tolerance, loses an atom on its surface, even in exact arithmetic. -/
theorem C139_loose_rotation : ∃ (M : M3 ℝ) (t : Tr ℝ) (a a' : Alg) (p : V3 ℝ), Tr.mkRotation M none true false = .ok t ∧ Ready a ∧
    tolOf a = 1 / 10 ^ 5 ∧ Closed p a ∧ algOf exact [.matrix M none] a = .ok a' ∧ t.alg a = (a', .ok ()) ∧
    interior exact a' (pointOf exact [.matrix M none] p) = false := by
  let c : ℝ := 1 + 16 / 10 ^ 8
  refine ⟨⟨c, 0, 0, 0, c, 0, 0, 0, c⟩, .matrix .rotation ⟨c, 0, 0, 0, c, 0, 0, 0, c⟩ none true false, .sphere ⟨100, 0, 1 / 10 ^ 5⟩,
    .sphere ⟨100, 0, 1 / 10 ^ 5⟩, ⟨100, 0, 0⟩, ?_, by simp [Ready], rfl, ?_, ?_, ?_, ?_⟩
  · unfold Tr.mkRotation
    rw [if_neg, if_neg]
    · rw [M3.one_def]; norm_num [c, Tr.sumAbs, M3.transpose, M3.mul_def, M3.sub_def]
    · norm_num [c, M3.det]
  · show Spec.dist _ _ ≤ 100
    unfold Spec.dist
    rw [Real.sqrt_le_left (by norm_num)]
    norm_num
  · rw [algOf_sphere]
    congr 3
    ext <;> simp [pointOf, Move.point, mulVec, exact, V3.dot, M3.row0, M3.row1, M3.row2]
  · simp only [Tr.alg, Tr.matAlg, Tr.matApply]
    congr 3
    ext <;> simp [M3.mulVec]
  · rw [interior_exact, exact_point]
    norm_num [Alg.interior, Sphere.interior, image, Move.image, M3.mulVec, c, V3.normSq, V3.dot]

end
end Fl
end CZ
