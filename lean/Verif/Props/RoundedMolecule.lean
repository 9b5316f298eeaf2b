import Verif.RoundedMolecule
import Verif.Props.RoundedMoved
import Verif.Props.Molecule

/-!
# Property C142: molecules keep their shape when moved in floats
-/

namespace CZ
namespace Fl
open Spec

noncomputable section

variable (A : Arith)

/-! ## Specification -/

/-- Error of a point after `k` moves within the distance `R`. -/
def slack (k : ℕ) (R : ℝ) : ℝ := k * (1 / 2) ^ 45 * R

/-- At most 2^30 moves with matrices orthogonal up to `δ`, shifts and origins within `R`. -/
def Modest (δ R : ℝ) (ms : List Move) : Prop :=
  0 ≤ δ ∧ (1 / 2) ^ 480 ≤ R ∧ ms.length * δ ≤ 1 / 8 ∧ δ ≤ 1 / 8 ∧ ms.length ≤ 2 ^ 30 ∧ ∀ t ∈ ms, t.Fair δ R

/-! ## What the moves do -/

theorem Modest.budgeted {δ R : ℝ} {ms : List Move} (h : Modest δ R ms) :
    Budgeted δ R (128 * ((ms.length + 1) * (δ + (1 / 2) ^ 40) * R)) ms.length :=
  ⟨h.1, h.2.1, h.2.2.1, h.2.2.2.1, by exact_mod_cast h.2.2.2.2.1, le_rfl⟩

theorem Modest.point {δ R : ℝ} {ms : List Move} (h : Modest δ R ms) {p : V3 ℝ} (hp : Path R ms p) :
    norm3 (pointOf A ms p - image ms p) ≤ slack ms.length R :=
  (h.budgeted.point A h.2.2.2.2.2 hp).1

theorem molMove_ok {m : Mol ℝ} {o : V3 ℝ} (hl : m.atoms.length = m.species.length) (ho : m.origin = .ok o) (t : Move) :
    ∃ m', molMove A m t = (m', .ok ()) ∧ m'.atoms = m.atoms.map (t.point A) ∧ m'.species = m.species ∧ m'.origin = .ok (t.point A o) ∧
      m'.priority = m.priority ∧ m'.orientation = m.orientation := by
  have hs : m.setAtoms m.species (flat3 (m.atoms.map (t.point A))) = ({ m with atoms := m.atoms.map (t.point A) }, .ok ()) := by
    unfold Mol.setAtoms
    rw [chunk3_flat3]
    simp [hl]
  unfold molMove
  rw [hs]
  simp only
  unfold Mol.origin at ho
  split_ifs at ho with htr
  · cases hi : m.originIdx with
    | none => rw [hi] at ho; cases ho
    | some i =>
      rw [hi] at ho
      simp only [bind, Except.bind] at ho
      rw [if_pos htr, if_neg (by simp)]
      refine ⟨_, rfl, rfl, rfl, ?_, rfl, rfl⟩
      unfold Mol.origin
      simp only [htr, if_true, hi, List.length_map, bind, Except.bind]
      cases hn : normIdx m.atoms.length i with
      | error e => rw [hn] at ho; cases ho
      | ok j =>
        rw [hn] at ho
        simp only at ho ⊢
        unfold pyGet at ho ⊢
        rw [List.getElem?_map]
        cases hg : m.atoms[j]? with
        | none => rw [hg] at ho; cases ho
        | some p =>
          rw [hg] at ho
          obtain rfl := Except.ok.inj ho
          rfl
  · cases hp : m.originPt with
    | none => rw [hp] at ho; cases ho
    | some p =>
      rw [hp] at ho
      obtain rfl := Except.ok.inj ho
      rw [if_neg htr]
      have : ({ m with atoms := m.atoms.map (t.point A) } : Mol ℝ).origin = .ok p := by
        unfold Mol.origin
        simp only [if_neg htr, hp]
      rw [hp] at this
      rw [this]
      exact ⟨_, rfl, rfl, rfl, rfl, rfl, rfl⟩

theorem molOf_ok (ms : List Move) : ∀ {m : Mol ℝ} {o : V3 ℝ}, m.atoms.length = m.species.length → m.origin = .ok o →
    ∃ m', molOf A ms m = .ok m' ∧ m'.atoms = m.atoms.map (pointOf A ms) ∧ m'.species = m.species ∧ m'.origin = .ok (pointOf A ms o) ∧
      m'.priority = m.priority ∧ m'.orientation = m.orientation := by
  induction ms with
  | nil => intro m o _ ho; exact ⟨m, rfl, by simp [pointOf], rfl, ho, rfl, rfl⟩
  | cons t ms ih =>
    intro m o hl ho
    obtain ⟨m1, h1, h2, h3, h4, h5, h6⟩ := molMove_ok A hl ho t
    obtain ⟨m', g1, g2, g3, g4, g5, g6⟩ := ih (by rw [h2, h3, List.length_map]; exact hl) h4
    refine ⟨m', ?_, ?_, g3.trans h3, g4, g5.trans h5, g6.trans h6⟩
    · unfold molOf; rw [h1]; exact g1
    · rw [g2, h2, List.map_map]; rfl

/-- Differences of points after the moves. -/
theorem Modest.difference {δ R : ℝ} {ms : List Move} (h : Modest δ R ms) {p q : V3 ℝ} (hp : Path R ms p) (hq : Path R ms q) :
    norm3 (pointOf A ms p - pointOf A ms q - turn ms (p - q)) ≤ 2 * slack ms.length R := by
  have h1 := h.point A hp
  have h2 := h.point A hq
  rw [← turn_eq]
  have e : pointOf A ms p - pointOf A ms q - (image ms p - image ms q) = (pointOf A ms p - image ms p) - (pointOf A ms q - image ms q) := by
    abel
  rw [e]
  have := norm3_sub_le (pointOf A ms p - image ms p) (pointOf A ms q - image ms q)
  linarith

theorem Modest.length {δ R : ℝ} {ms : List Move} (h : Modest δ R ms) (v : V3 ℝ) :
    norm3 (turn ms v) ≤ (1 + 2 * (ms.length * δ)) * norm3 v ∧ (1 - 2 * (ms.length * δ)) * norm3 v ≤ norm3 (turn ms v) :=
  gram_norm (by have := h.1; positivity) (by linarith [h.2.2.1]) (turn_keeps h.1 ms h.2.2.2.2.2 h.2.2.1 v v)

theorem Modest.distance {δ R : ℝ} {ms : List Move} (h : Modest δ R ms) {p q : V3 ℝ} (hp : Path R ms p) (hq : Path R ms q) :
    |Spec.dist (pointOf A ms p) (pointOf A ms q) - Spec.dist p q| ≤ 2 * (ms.length * δ) * Spec.dist p q + 2 * slack ms.length R := by
  have h1 := h.difference A hp hq
  obtain ⟨h2, h3⟩ := h.length (p - q)
  rw [dist_eq, dist_eq, abs_le]
  have h4 := norm3_le_add (pointOf A ms p - pointOf A ms q) (turn ms (p - q))
  have h5 := norm3_le_add (turn ms (p - q)) (pointOf A ms p - pointOf A ms q)
  rw [← norm3_neg (turn ms (p - q) - _), neg_sub] at h5
  constructor <;> linarith

/-! ## The property -/

/-- **C142 (shape).** After any moves the molecule has the species it had, in the same order, and the distances between its atoms, and
of its atoms from its origin, differ from the former ones by no more than twice the number of moves times the defect of the matrices,
relatively, and 2^-44 of the distance from the coordinate origin per move. -/
theorem C142_shape {δ R : ℝ} {ms : List Move} (h : Modest δ R ms) {m : Mol ℝ} {o : V3 ℝ} (hl : m.atoms.length = m.species.length)
    (ho : m.origin = .ok o) (hp : ∀ p ∈ m.atoms, Path R ms p) (hpo : Path R ms o) :
    ∃ m' o', molOf A ms m = .ok m' ∧ m'.origin = .ok o' ∧ m'.species = m.species ∧ m'.atoms.length = m.atoms.length ∧
      (∀ (i : ℕ) (p p' : V3 ℝ), m.atoms[i]? = some p → m'.atoms[i]? = some p' →
        |Spec.dist p' o' - Spec.dist p o| ≤ 2 * (ms.length * δ) * Spec.dist p o + 2 * slack ms.length R) ∧
      ∀ (i j : ℕ) (p q p' q' : V3 ℝ), m.atoms[i]? = some p → m.atoms[j]? = some q → m'.atoms[i]? = some p' → m'.atoms[j]? = some q' →
        |Spec.dist p' q' - Spec.dist p q| ≤ 2 * (ms.length * δ) * Spec.dist p q + 2 * slack ms.length R := by
  obtain ⟨m', h1, h2, h3, h4, -⟩ := molOf_ok A ms hl ho
  have at' (i : ℕ) (p p' : V3 ℝ) (hi : m.atoms[i]? = some p) (hi' : m'.atoms[i]? = some p') : p' = pointOf A ms p := by
    rw [h2, List.getElem?_map, hi] at hi'
    exact (Option.some.inj hi').symm
  refine ⟨m', _, h1, h4, h3, by rw [h2, List.length_map], ?_, ?_⟩
  · intro i p p' hi hi'
    rw [at' i p p' hi hi']
    exact h.distance A (hp p (List.mem_of_getElem? hi)) hpo
  · intro i j p q p' q' hi hj hi' hj'
    rw [at' i p p' hi hi', at' j q q' hj hj']
    exact h.distance A (hp p (List.mem_of_getElem? hi)) (hp q (List.mem_of_getElem? hj))

/-- **C142 (angles).** The inner product of two bonds changes as little, so angles do. -/
theorem C142_angles {δ R : ℝ} {ms : List Move} (h : Modest δ R ms) {m m' : Mol ℝ} {o : V3 ℝ} (hl : m.atoms.length = m.species.length)
    (ho : m.origin = .ok o) (hp : ∀ p ∈ m.atoms, Path R ms p) (hm : molOf A ms m = .ok m') (i j k : ℕ) (p q r p' q' r' : V3 ℝ)
    (hi : m.atoms[i]? = some p) (hj : m.atoms[j]? = some q) (hk : m.atoms[k]? = some r) (hi' : m'.atoms[i]? = some p')
    (hj' : m'.atoms[j]? = some q') (hk' : m'.atoms[k]? = some r') :
    |(p' - r').dot (q' - r') - (p - r).dot (q - r)| ≤ 2 * (ms.length * δ) * (Spec.dist p r * Spec.dist q r) +
      3 * slack ms.length R * (Spec.dist p r + Spec.dist q r) + 4 * slack ms.length R ^ 2 := by
  obtain ⟨m1, h1, h2, -⟩ := molOf_ok A ms hl ho
  obtain rfl := Except.ok.inj (h1.symm.trans hm)
  have at' (i : ℕ) (p p' : V3 ℝ) (hi : m.atoms[i]? = some p) (hi' : m1.atoms[i]? = some p') : p' = pointOf A ms p := by
    rw [h2, List.getElem?_map, hi] at hi'
    exact (Option.some.inj hi').symm
  have hr := hp r (List.mem_of_getElem? hk)
  have a1 := h.difference A (hp p (List.mem_of_getElem? hi)) hr
  have a2 := h.difference A (hp q (List.mem_of_getElem? hj)) hr
  rw [at' i p p' hi hi', at' j q q' hj hj', at' k r r' hk hk', dist_eq, dist_eq]
  have a3 := turn_keeps h.1 ms h.2.2.2.2.2 h.2.2.1 (p - r) (q - r)
  have l1 := (h.length (p - r)).1
  have l2 := (h.length (q - r)).1
  have hs := h.2.2.1
  have n1 := norm3_nonneg (p - r)
  have n2 := norm3_nonneg (q - r)
  generalize pointOf A ms p - pointOf A ms r = P at *
  generalize pointOf A ms q - pointOf A ms r = Q at *
  generalize p - r = v at *
  generalize q - r = w at *
  generalize turn ms v = V at *
  generalize turn ms w = W at *
  generalize slack ms.length R = s at *
  have hs0 : 0 ≤ s := by have := norm3_nonneg (P - V); linarith
  have l1' : norm3 V ≤ 5 / 4 * norm3 v := l1.trans (mul_le_mul_of_nonneg_right (by linarith) n1)
  have l2' : norm3 W ≤ 5 / 4 * norm3 w := l2.trans (mul_le_mul_of_nonneg_right (by linarith) n2)
  have e : P.dot Q - v.dot w = (P - V).dot W + (Q - W).dot V + (P - V).dot (Q - W) + (V.dot W - v.dot w) := by
    simp only [V3.dot, V3.sub_x, V3.sub_y, V3.sub_z]; ring
  have b1 := abs_dot_le (P - V) W
  have b2 := abs_dot_le (Q - W) V
  have b3 := abs_dot_le (P - V) (Q - W)
  have c1 : norm3 (P - V) * norm3 W ≤ 2 * s * (5 / 4 * norm3 w) := mul_le_mul a1 l2' (norm3_nonneg _) (by linarith)
  have c2 : norm3 (Q - W) * norm3 V ≤ 2 * s * (5 / 4 * norm3 v) := mul_le_mul a2 l1' (norm3_nonneg _) (by linarith)
  have c3 : norm3 (P - V) * norm3 (Q - W) ≤ 2 * s * (2 * s) := mul_le_mul a1 a2 (norm3_nonneg _) (by linarith)
  rw [e]
  have t1 := abs_add_le ((P - V).dot W + (Q - W).dot V + (P - V).dot (Q - W)) (V.dot W - v.dot w)
  have t2 := abs_add_le ((P - V).dot W + (Q - W).dot V) ((P - V).dot (Q - W))
  have t3 := abs_add_le ((P - V).dot W) ((Q - W).dot V)
  have q1 := mul_nonneg hs0 n1
  have q2 := mul_nonneg hs0 n2
  nlinarith

/-- **C142 (there and back).** Moves that cancel bring every atom back to within 2^-45 of the distances per move. -/
theorem C142_back {δ R : ℝ} {ms : List Move} (h : Modest δ R ms) (hid : ∀ p, image ms p = p) {m m' : Mol ℝ} {o : V3 ℝ}
    (hl : m.atoms.length = m.species.length) (ho : m.origin = .ok o) (hp : ∀ p ∈ m.atoms, Path R ms p) (hm : molOf A ms m = .ok m') :
    List.Forall₂ (fun p p' => Spec.dist p' p ≤ slack ms.length R) m.atoms m'.atoms := by
  obtain ⟨m1, h1, h2, -⟩ := molOf_ok A ms hl ho
  obtain rfl := Except.ok.inj (h1.symm.trans hm)
  rw [h2, List.forall₂_map_right_iff, List.forall₂_same]
  intro p hpm
  rw [dist_eq]
  have := h.point A (hp p hpm)
  rwa [hid] at this

/-- With exact operations this is `Molecule.transform` of the exact model. -/
theorem C142_exact (m : Mol ℝ) (t : Move) : molMove exact m t = m.transform t.tr true := by
  have : t.point exact = t.tr.apply := funext (point_exact t)
  unfold molMove Mol.transform
  rw [this]
  simp only [if_true]
  cases m.setAtoms m.species (flat3 (m.atoms.map t.tr.apply)) with
  | mk m1 r =>
    cases r with
    | error e => rfl
    | ok _ =>
      simp only
      split_ifs <;> first | rfl | skip
      cases m1.origin <;> rfl

/-! ## Reflections -/

theorem refl_entry {a b N c d : ℝ} (ha : |a| ≤ 9 / 8) (hb : |b| ≤ 9 / 8) (hN : |2 / N| ≤ 9 / 4) (hc : |c - 2 / N| ≤ 16 * unit) (hd : |d| ≤ 1) :
    |A.rnd (d - A.rnd (c * A.rnd (a * b))) - (d - 2 / N * (a * b))| ≤ 64 * unit := by
  have hu := unit_pos
  have ht : tiny ≤ unit := by have := tiny_le_unit; rw [unit_eq]; norm_num at *; linarith
  have hab : |a * b| ≤ 81 / 64 := by
    rw [abs_mul]
    exact (mul_le_mul ha hb (abs_nonneg _) (by norm_num)).trans (by norm_num)
  have h1 := A.near (a * b)
  generalize A.rnd (a * b) = p at *
  generalize a * b = x at *
  have h1' : |p - x| ≤ 3 * unit := h1.trans (by
    have := mul_le_mul_of_nonneg_left hab hu.le
    linarith)
  generalize 2 / N = g at *
  have e1 : c * p - g * x = (c - g) * p + g * (p - x) := by ring
  have hpa : |p| ≤ 2 := by
    have := abs_add_le x (p - x)
    rw [add_sub_cancel] at this
    rw [unit_eq] at *
    linarith
  have h2 : |c * p - g * x| ≤ 16 * unit * 2 + 9 / 4 * (3 * unit) := by
    rw [e1]
    refine (abs_add_le _ _).trans (add_le_add ?_ ?_)
    · rw [abs_mul]; exact mul_le_mul hc hpa (abs_nonneg _) (by positivity)
    · rw [abs_mul]; exact mul_le_mul hN h1' (abs_nonneg _) (by norm_num)
  have hgx : |g * x| ≤ 3 := by
    rw [abs_mul]
    exact (mul_le_mul hN hab (abs_nonneg _) (by norm_num)).trans (by norm_num)
  have hcp : |c * p| ≤ 4 := by
    have := abs_add_le (g * x) (c * p - g * x)
    rw [add_sub_cancel] at this
    rw [unit_eq] at *
    linarith
  have h3 := A.near (c * p)
  generalize A.rnd (c * p) = q at *
  generalize c * p = y at *
  generalize g * x = z at *
  have h3' : |q - y| ≤ 5 * unit := h3.trans (by
    have := mul_le_mul_of_nonneg_left hcp hu.le
    linarith)
  have hq : |d - q| ≤ 6 := by
    have := abs_sub d q
    have := abs_add_le y (q - y)
    rw [add_sub_cancel] at this
    rw [unit_eq] at *
    linarith
  have h4 := A.near (d - q)
  have h4' : |A.rnd (d - q) - (d - q)| ≤ 7 * unit := h4.trans (by
    have := mul_le_mul_of_nonneg_left hq hu.le
    linarith)
  have e2 : A.rnd (d - q) - (d - z) = (A.rnd (d - q) - (d - q)) - (q - y) - (y - z) := by ring
  rw [e2]
  have := abs_sub (A.rnd (d - q) - (d - q) - (q - y)) (y - z)
  have := abs_sub (A.rnd (d - q) - (d - q)) (q - y)
  linarith

/-- **C142 (reflections).** The matrix a `Reflection` computes from a normalised normal is orthogonal up to 2^-43. -/
theorem C142_reflection (n : V3 ℝ) (hn : |len n - 1| ≤ (1 / 2) ^ 47) : Keeps ((1 / 2) ^ 43) (reflMatrix A n) := by
  have hu := unit_pos
  have ht : tiny ≤ unit := by have := tiny_le_unit; rw [unit_eq]; norm_num at *; linarith
  have ht2 : tiny ≤ 1 / 2 ^ 60 := tiny_le_unit
  obtain ⟨n1, n2⟩ := len_le_two hn
  obtain ⟨cx, cy, cz⟩ := comp_le n
  have eN : n.dot n = norm3 n ^ 2 := (norm3_sq n).symm
  have hN1 : n.dot n ≤ 1 + 1 / 2 ^ 40 := by rw [eN]; norm_num at *; nlinarith
  have hN2 : 1 - 1 / 2 ^ 40 ≤ n.dot n := by rw [eN]; norm_num at *; nlinarith
  have hdot := A.dot_near n n
  have hsum : |n.x * n.x| + |n.y * n.y| + |n.z * n.z| = n.dot n := by
    simp only [abs_mul_self, V3.dot]
  rw [hsum] at hdot
  have hc : |A.rnd (2 / A.dot n n) - 2 / n.dot n| ≤ 32 * unit / 2 := by
    generalize n.dot n = N at *
    have hd := abs_le.mp hdot
    generalize A.dot n n = D at *
    have hD : |D - N| ≤ 5 * unit := hdot.trans (by rw [unit_eq] at *; norm_num at *; linarith)
    have hD1 : 9 / 10 ≤ D := by have := (abs_le.mp hD).1; rw [unit_eq] at *; norm_num at *; linarith
    have hN0 : 9 / 10 ≤ N := by norm_num at hN2; linarith
    have h2D : |2 / D| ≤ 5 / 2 := by
      rw [abs_of_pos (by positivity), div_le_iff₀ (by linarith)]; linarith
    have h1 := A.near (2 / D)
    have h1' : |A.rnd (2 / D) - 2 / D| ≤ 7 / 2 * unit := h1.trans (by
      have := mul_le_mul_of_nonneg_left h2D hu.le; linarith)
    have h3 : |2 / D - 2 / N| ≤ 25 / 2 * unit := by
      have hDN : 81 / 100 ≤ D * N := by nlinarith
      rw [show 2 / D - 2 / N = -(2 * (D - N)) / (D * N) by field_simp; ring, abs_div, abs_neg, abs_mul, abs_of_pos (by linarith : 0 < D * N),
        div_le_iff₀ (by linarith)]
      have := mul_le_mul_of_nonneg_left hDN hu.le
      norm_num
      linarith
    have := abs_sub_le (A.rnd (2 / D)) (2 / D) (2 / N)
    linarith
  have hc' : |A.rnd (2 / A.dot n n) - 2 / n.dot n| ≤ 16 * unit := by linarith
  have hg : |2 / n.dot n| ≤ 9 / 4 := by
    have : 0 < n.dot n := by norm_num at hN2; linarith
    rw [abs_of_pos (by positivity), div_le_iff₀ this]
    norm_num at hN2; linarith
  have bx : |n.x| ≤ 9 / 8 := cx.trans (n1.trans (by norm_num))
  have by' : |n.y| ≤ 9 / 8 := cy.trans (n1.trans (by norm_num))
  have bz : |n.z| ≤ 9 / 8 := cz.trans (n1.trans (by norm_num))
  have one : |(1 : ℝ)| ≤ 1 := by norm_num
  have zero : |(0 : ℝ)| ≤ 1 := by norm_num
  have exx := refl_entry A bx bx hg hc' one
  have exy := refl_entry A bx by' hg hc' zero
  have exz := refl_entry A bx bz hg hc' zero
  have eyx := refl_entry A by' bx hg hc' zero
  have eyy := refl_entry A by' by' hg hc' one
  have eyz := refl_entry A by' bz hg hc' zero
  have ezx := refl_entry A bz bx hg hc' zero
  have ezy := refl_entry A bz by' hg hc' zero
  have ezz := refl_entry A bz bz hg hc' one
  have hN0 : n.dot n ≠ 0 := by norm_num at hN2; linarith
  -- the exact mirror image and the difference
  let S : V3 ℝ → V3 ℝ := fun v => v - (2 / n.dot n * n.dot v) • n
  have hS (v w : V3 ℝ) : (S v).dot (S w) = v.dot w := by
    have e : (S v).dot (S w) = v.dot w + n.dot v * n.dot w * (2 / n.dot n) * (2 / n.dot n * n.dot n - 2) := by
      simp only [S, V3.dot, V3.sub_x, V3.sub_y, V3.sub_z, V3.smul_x, V3.smul_y, V3.smul_z]
      ring
    rw [e, div_mul_cancel₀ _ hN0]
    ring
  have hdiff (v : V3 ℝ) : norm3 ((reflMatrix A n).mulVec v - S v) ≤ 384 * unit * norm3 v := by
    obtain ⟨vx, vy, vz⟩ := comp_le v
    have row {a b c a' b' c' : ℝ} (ha : |a - a'| ≤ 64 * unit) (hb : |b - b'| ≤ 64 * unit) (hc : |c - c'| ≤ 64 * unit) :
        |(a * v.x + b * v.y + c * v.z) - (a' * v.x + b' * v.y + c' * v.z)| ≤ 192 * unit * norm3 v := by
      rw [show (a * v.x + b * v.y + c * v.z) - (a' * v.x + b' * v.y + c' * v.z) = (a - a') * v.x + (b - b') * v.y + (c - c') * v.z by ring]
      have t1 := abs_add_le ((a - a') * v.x + (b - b') * v.y) ((c - c') * v.z)
      have t2 := abs_add_le ((a - a') * v.x) ((b - b') * v.y)
      rw [abs_mul, abs_mul] at t2
      rw [abs_mul (c - c')] at t1
      have m1 := mul_le_mul ha vx (abs_nonneg _) (by positivity)
      have m2 := mul_le_mul hb vy (abs_nonneg _) (by positivity)
      have m3 := mul_le_mul hc vz (abs_nonneg _) (by positivity)
      linarith
    have rx := row exx exy exz
    have ry := row eyx eyy eyz
    have rz := row ezx ezy ezz
    have := norm3_le_of_comp (v := (reflMatrix A n).mulVec v - S v) (E := 192 * unit * norm3 v)
      (by
        refine le_trans (le_of_eq ?_) rx
        congr 1
        simp only [S, reflMatrix, M3.mulVec, V3.dot, V3.sub_x, V3.smul_x]
        ring)
      (by
        refine le_trans (le_of_eq ?_) ry
        congr 1
        simp only [S, reflMatrix, M3.mulVec, V3.dot, V3.sub_y, V3.smul_y]
        ring)
      (by
        refine le_trans (le_of_eq ?_) rz
        congr 1
        simp only [S, reflMatrix, M3.mulVec, V3.dot, V3.sub_z, V3.smul_z]
        ring)
    linarith
  intro v w
  rw [len_eq, len_eq]
  have hSn (v : V3 ℝ) : norm3 (S v) = norm3 v := by
    have h1 : norm3 (S v) ^ 2 = norm3 v ^ 2 := by
      have := hS v v
      rw [norm3_sq, norm3_sq]; exact this
    exact (pow_left_inj₀ (norm3_nonneg _) (norm3_nonneg _) (by norm_num)).mp h1
  have dv := hdiff v
  have dw := hdiff w
  have sv := hSn v
  have sw := hSn w
  have hvw := hS v w
  have p1 := norm3_nonneg v
  have p2 := norm3_nonneg w
  generalize (reflMatrix A n).mulVec v = V at *
  generalize (reflMatrix A n).mulVec w = W at *
  generalize S v = X at *
  generalize S w = Y at *
  have e : V.dot W - v.dot w = (V - X).dot Y + (W - Y).dot X + (V - X).dot (W - Y) := by
    rw [← hvw]
    simp only [V3.dot, V3.sub_x, V3.sub_y, V3.sub_z]; ring
  rw [e]
  have b1 := abs_dot_le (V - X) Y
  have b2 := abs_dot_le (W - Y) X
  have b3 := abs_dot_le (V - X) (W - Y)
  rw [sw] at b1
  rw [sv] at b2
  have c1 := mul_le_mul_of_nonneg_right dv p2
  have c2 := mul_le_mul_of_nonneg_right dw p1
  have c3 : norm3 (V - X) * norm3 (W - Y) ≤ 384 * unit * norm3 v * (384 * unit * norm3 w) :=
    mul_le_mul dv dw (norm3_nonneg _) (by positivity)
  have t2 := abs_add_le ((V - X).dot Y + (W - Y).dot X) ((V - X).dot (W - Y))
  have t3 := abs_add_le ((V - X).dot Y) ((W - Y).dot X)
  have hvw0 := mul_nonneg p1 p2
  rw [unit_eq] at *
  rw [show (384 * (1 / 9007199254740992) * norm3 v * (384 * (1 / 9007199254740992) * norm3 w) : ℝ) =
    384 * (1 / 9007199254740992) * (384 * (1 / 9007199254740992)) * (norm3 v * norm3 w) by ring] at c3
  norm_num at *
  linarith

/-! ## Accepted rotations that distort -/

/-- A matrix that stretches x by one part in 10^7. -/
def stretch : M3 ℝ := ⟨1 + 1 / 10 ^ 7, 0, 0, 0, 1, 0, 0, 0, 1⟩

theorem stretch_image (k : ℕ) : ∀ x : ℝ, image (List.replicate k (.matrix stretch none)) ⟨x, 0, 0⟩ = ⟨(1 + 1 / 10 ^ 7) ^ k * x, 0, 0⟩ := by
  induction k with
  | zero => intro x; simp [image]
  | succ k ih =>
    intro x
    rw [List.replicate_succ]
    show image _ (stretch.mulVec ⟨x, 0, 0⟩) = _
    have : stretch.mulVec ⟨x, 0, 0⟩ = ⟨(1 + 1 / 10 ^ 7) * x, 0, 0⟩ := by ext <;> simp [stretch, M3.mulVec]
    rw [this, ih]
    ext
    · simp only; ring
    · rfl
    · rfl

/-- **C142 (drift).** The factor of the number of moves cannot be dropped: `Rotation` accepts a matrix that stretches, and molecules
turned by it often enough get as long as one likes, even without rounding. -/
theorem C142_drift : (∃ t, Tr.mkRotation stretch none true false = .ok t) ∧
    ∀ L : ℝ, ∃ (k : ℕ) (m m' : Mol ℝ) (p q : V3 ℝ), m.atoms = [0, ⟨1, 0, 0⟩] ∧
      molOf exact (List.replicate k (.matrix stretch none)) m = .ok m' ∧ m'.atoms = [p, q] ∧ L < Spec.dist p q := by
  refine ⟨?_, fun L => ?_⟩
  · have hdet : |stretch.det - 1| < 1 / 10 ^ 6 := by
      have : stretch.det - 1 = 1 / 10 ^ 7 := by norm_num [stretch, M3.det]
      rw [this]; norm_num
    have hsum : Tr.sumAbs (stretch * stretch.transpose - 1) < 1 / 10 ^ 6 := by
      rw [M3.one_def]
      norm_num [stretch, Tr.sumAbs, M3.transpose, M3.mul_def, M3.sub_def]
    unfold Tr.mkRotation
    rw [if_neg (by simpa using hdet), if_neg (by simpa using hsum)]
    exact ⟨_, rfl⟩
  · obtain ⟨k, hk⟩ := pow_unbounded_of_one_lt L (show (1 : ℝ) < 1 + 1 / 10 ^ 7 by norm_num)
    obtain ⟨m', h1, h2, -⟩ := molOf_ok exact (List.replicate k (.matrix stretch none))
      (m := ⟨[0, ⟨1, 0, 0⟩], [6, 8], 0, 1, false, none, some 0, true⟩) (o := 0) rfl rfl
    refine ⟨k, _, m', _, _, rfl, h1, h2, ?_⟩
    rw [exact_point, exact_point, dist_eq]
    have e0 : (0 : V3 ℝ) = ⟨0, 0, 0⟩ := rfl
    rw [e0, stretch_image, stretch_image]
    refine hk.trans_le ?_
    have := (comp_le ((⟨(1 + 1 / 10 ^ 7) ^ k * 0, 0, 0⟩ : V3 ℝ) - ⟨(1 + 1 / 10 ^ 7) ^ k * 1, 0, 0⟩)).1
    refine le_trans ?_ this
    simp only [V3.sub_x, mul_zero, zero_sub, mul_one, abs_neg]
    exact le_abs_self _

/-! ## Concrete cases -/

/-- A molecule of two atoms at distance 5. -/
def pair : Mol ℝ := ⟨[⟨3, 0, 0⟩, ⟨0, 4, 0⟩], [6, 8], 0, 1, false, none, some 0, true⟩

theorem moves_modest : Modest 0 20 moves :=
  ⟨le_rfl, budget345.radius, by norm_num, by norm_num, by simp [moves], moves_fair⟩

/-- Concrete case: turned and shifted in binary64, the atoms are at distance 5 up to 10^-11. -/
example : ∃ m' p q, molOf binary64 moves pair = .ok m' ∧ m'.atoms = [p, q] ∧ m'.species = [6, 8] ∧ |Spec.dist p q - 5| ≤ 1 / 10 ^ 11 := by
  have hp : ∀ p ∈ pair.atoms, Path 20 moves p := by
    intro p hp
    simp only [pair, List.mem_cons, List.not_mem_nil, or_false] at hp
    rcases hp with rfl | rfl <;> exact moves_path (by norm_num)
  obtain ⟨m', o', h1, -, h3, h4, -, h6⟩ := C142_shape binary64 moves_modest (m := pair) (o := 0) rfl rfl hp (moves_path (by norm_num))
  obtain ⟨p, q, hpq⟩ : ∃ p q, m'.atoms = [p, q] := by
    rcases ha : m'.atoms with _ | ⟨a, _ | ⟨b, _ | ⟨c, l⟩⟩⟩ <;> rw [ha] at h4 <;> simp [pair] at h4
    exact ⟨a, b, rfl⟩
  refine ⟨m', p, q, h1, hpq, h3, ?_⟩
  have := h6 0 1 ⟨3, 0, 0⟩ ⟨0, 4, 0⟩ p q rfl rfl (by rw [hpq]; rfl) (by rw [hpq]; rfl)
  have e : Spec.dist ⟨3, 0, 0⟩ ⟨0, 4, 0⟩ = 5 := by
    unfold Spec.dist
    rw [show ((3 : ℝ) - 0) ^ 2 + (0 - 4) ^ 2 + (0 - 0) ^ 2 = 5 ^ 2 by norm_num]
    exact Real.sqrt_sq (by norm_num)
  rw [e] at this
  refine this.trans ?_
  simp only [slack, moves, List.length_cons, List.length_nil]
  norm_num

/-- Concrete case: the bonds from the first atom to itself and to the second. -/
example (m' : Mol ℝ) (p q : V3 ℝ) (hm : molOf binary64 moves pair = .ok m') (ha : m'.atoms = [p, q]) :
    |(p - q).dot (p - q) - 25| ≤ 1 / 10 ^ 9 := by
  have hp : ∀ p ∈ pair.atoms, Path 20 moves p := by
    intro p hp
    simp only [pair, List.mem_cons, List.not_mem_nil, or_false] at hp
    rcases hp with rfl | rfl <;> exact moves_path (by norm_num)
  have := C142_angles binary64 moves_modest (m := pair) (o := 0) rfl rfl hp hm 0 0 1 ⟨3, 0, 0⟩ ⟨3, 0, 0⟩ ⟨0, 4, 0⟩ p p q rfl rfl rfl
    (by rw [ha]; rfl) (by rw [ha]; rfl) (by rw [ha]; rfl)
  have e : Spec.dist ⟨3, 0, 0⟩ ⟨0, 4, 0⟩ = 5 := by
    unfold Spec.dist
    rw [show ((3 : ℝ) - 0) ^ 2 + (0 - 4) ^ 2 + (0 - 0) ^ 2 = 5 ^ 2 by norm_num]
    exact Real.sqrt_sq (by norm_num)
  rw [e] at this
  have e2 : (((⟨3, 0, 0⟩ : V3 ℝ) - ⟨0, 4, 0⟩).dot (⟨3, 0, 0⟩ - ⟨0, 4, 0⟩)) = 25 := by norm_num [V3.dot]
  rw [e2] at this
  refine this.trans ?_
  simp only [slack, moves, List.length_cons, List.length_nil]
  norm_num

/-- Concrete case: there and back by one unit along x. -/
example (m' : Mol ℝ) (hm : molOf binary64 [.shift ⟨1, 0, 0⟩, .shift ⟨-1, 0, 0⟩] pair = .ok m') :
    List.Forall₂ (fun p p' => Spec.dist p' p ≤ 1 / 10 ^ 11) pair.atoms m'.atoms := by
  have hM : Modest 0 20 [.shift ⟨1, 0, 0⟩, .shift ⟨-1, 0, 0⟩] := by
    refine ⟨le_rfl, budget345.radius, by norm_num, by norm_num, by simp, ?_⟩
    intro t ht
    simp only [List.mem_cons, List.not_mem_nil, or_false] at ht
    rcases ht with rfl | rfl <;> (show len _ ≤ 20) <;> simp [len]
  refine (C142_back binary64 hM (fun p => ?_) (m := pair) (o := 0) rfl rfl ?_ hm).imp fun p p' h => h.trans ?_
  · simp only [image, Move.image]; ext <;> simp
  · intro p hp
    simp only [pair, List.mem_cons, List.not_mem_nil, or_false] at hp
    rcases hp with rfl | rfl <;> refine ⟨?_, ?_, ?_⟩ <;> simp only [Path, Move.image, len] <;>
      rw [Real.sqrt_le_left (by norm_num)] <;> norm_num
  · simp only [slack, List.length_cons, List.length_nil]
    norm_num

/-- Concrete case: the mirror at the xy plane. -/
example : Keeps ((1 / 2) ^ 43) (reflMatrix binary64 ⟨0, 0, 1⟩) := C142_reflection binary64 _ (by simp [len])

end
end Fl
end CZ
