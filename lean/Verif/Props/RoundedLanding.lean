import Verif.Props.RoundedTurn

/-!
# Property C148: the success reported by `add_adsorbate` in rounded arithmetic
-/

namespace CZ
namespace Fl

open Spec

variable (A : Arith) (T : Trig) (S : RotVec)

/-- The molecule returned is the one of `place`, the flag is the test of its atoms. -/
theorem placeOn_ok {algs : List Alg} {mol m : Mol ℝ} {idx : MolVal ℝ} {vec target n : V3 ℝ} {theta bond : ℝ} {b : Bool}
    (h : placeOn A T S algs mol idx vec theta bond target n = .ok (m, b)) :
    b = m.atoms.all fun p => !(algs.all fun s => interior A s p) := by
  unfold placeOn at h
  split at h
  · cases h
  · injection h with h
    injection h with h1 h2
    subst h1
    exact h2.symm

/-- **C148.** When `add_adsorbate` reports success, no atom of the molecule is in the closed volume, nor within a quarter of the tolerance
of one of its points. -/
theorem C148_success {algs : List Alg} {mol m : Mol ℝ} {idx : MolVal ℝ} {vec target n : V3 ℝ} {theta bond : ℝ}
    (h : placeOn A T S algs mol idx vec theta bond target n = .ok (m, true)) (hR : ∀ a ∈ algs, Ready a) {p q : V3 ℝ} (hp : p ∈ m.atoms)
    (hT : ∀ a ∈ algs, Tolerant q a) (hq : ∀ a ∈ algs, Spec.dist p q ≤ tolOf a / 4) : ∃ a ∈ algs, ¬ Closed q a := by
  by_contra hne
  push Not at hne
  have hb := (List.all_eq_true.mp (placeOn_ok A T S h).symm) p hp
  have : (algs.all fun s => interior A s p) = true :=
    List.all_eq_true.mpr fun a ha => C138_on_surface A a (hR a ha) q p (hne a ha) (hT a ha) (hq a ha)
  rw [this] at hb
  cases hb

/-- **C148.** When it reports failure, some atom of the molecule is not clear of the volume: no surface has it two tolerances outside. -/
theorem C148_failure {algs : List Alg} {mol m : Mol ℝ} {idx : MolVal ℝ} {vec target n : V3 ℝ} {theta bond : ℝ}
    (h : placeOn A T S algs mol idx vec theta bond target n = .ok (m, false)) (hR : ∀ a ∈ algs, Ready a)
    (hT : ∀ p ∈ m.atoms, ∀ a ∈ algs, Tolerant p a) : ∃ p ∈ m.atoms, ∀ a ∈ algs, ¬ Beyond (2 * tolOf a) p a := by
  have hb := placeOn_ok A T S h
  obtain ⟨p, hp, h1⟩ := List.all_eq_false.mp hb.symm
  refine ⟨p, hp, fun a ha hbe => h1 ?_⟩
  have t0 := tol_pos (hT p hp a ha)
  have := C138_beyond A a (hR a ha) p p hbe (hT p hp a ha) (by rw [dist_eq, sub_self, (norm3_eq_zero _).mpr rfl]; linarith)
  have hf : (algs.all fun s => interior A s p) = false := List.all_eq_false.mpr ⟨a, ha, by rw [this]; simp⟩
  rw [hf]
  rfl

/-- **C148.** On a flat face a molecule that reaches down from its bonding atom by less than the bond length is placed with success.  The
face is one of the surfaces of the volume, a plane with the normal `k` that agrees with the normal of the placement up to 2^-40.  Every
atom of the molecule, by its height along the direction of the molecule, comes out two tolerances and 2^-20 `R` over the plane.  The
direction of the molecule is not along the normal (`C147_upright_refuted`). -/
theorem C148_flat {R : ℝ} (hR : 1 ≤ R) {mol : Mol ℝ} (hl : mol.species.length = mol.atoms.length) (hp : ∀ p ∈ mol.atoms, len p ≤ R) {i : ℕ} {o : V3 ℝ}
    (hi : mol.atoms[i]? = some o) {vec w : V3 ℝ} (ew : w = mulVec A mol.orientation vec) {theta bond : ℝ} {target n : V3 ℝ} (ht : len target ≤ R)
    (hb : |bond| ≤ R) (hn : |len n - 1| ≤ (1 / 2) ^ 40) (hth : |theta| ≤ 64) (hw : (1 / 2) ^ 200 ≤ len w)
    (hc : (1 / 2) ^ 20 * (len w * len n) ≤ len (w.cross n)) {algs : List Alg} {k pt : V3 ℝ} {tol : ℝ} (hface : Alg.plane ⟨k, pt, tol⟩ ∈ algs)
    (hk : |len k - 1| ≤ (1 / 2) ^ 47) (hkn : Spec.dist k n ≤ (1 / 2) ^ 40) (htol : 8 * R + len pt ≤ 2 ^ 40 * tol)
    (hup : ∀ p ∈ mol.atoms, 2 * tol + (1 / 2) ^ 20 * R ≤ (target - pt).dot k + bond + (p - o).dot w / len w) :
    ∃ m, placeOn A T S algs mol (.int i) vec theta bond target n = .ok (m, true) := by
  obtain ⟨m, o', e1, -, e3, e4, e5, e6, e7⟩ := C147_placed_partial A T S hR hl hp hi ew ht hb hn hth hw hc
  refine ⟨m, ?_⟩
  unfold placeOn
  rw [e1]
  suffices hall : (m.atoms.all fun p => !(algs.all fun s => interior A s p)) = true by simp only [hall]
  refine List.all_eq_true.mpr fun p' hp' => ?_
  obtain ⟨j, hj', hje⟩ := List.mem_iff_getElem.mp hp'
  have hj : m.atoms[j]? = some p' := by rw [List.getElem?_eq_getElem hj', hje]
  obtain ⟨p, hjp⟩ : ∃ p, mol.atoms[j]? = some p := ⟨mol.atoms[j]'(by omega), List.getElem?_eq_getElem _⟩
  have hpm := List.mem_of_getElem? hjp
  have hom := List.mem_of_getElem? hi
  have s1 := e7 j p p' hjp hj
  have s2 := e6 j i p o p' o' hjp hi hj e4
  have s3 := hup p hpm
  have pR := hp p hpm
  have oR := hp o hom
  simp only [len_eq, dist_eq] at *
  have hn2 : norm3 n ≤ 2 := by have := (abs_le.mp hn).2; norm_num at *; linarith
  have hk2 : norm3 k ≤ 2 := by have := (abs_le.mp hk).2; norm_num at *; linarith
  have hpo : norm3 (p - o) ≤ 2 * R := (norm3_sub_le _ _).trans (by linarith)
  have hd : norm3 (p' - o') ≤ 3 * R := by
    have := (abs_le.mp s2).2
    norm_num at *
    linarith
  -- sizes
  have hbn : norm3 (target + bond • n) ≤ 3 * R := by
    refine (norm3_add_le _ _).trans ?_
    rw [norm3_smul]
    have := mul_le_mul hb hn2 (norm3_nonneg _) (by linarith)
    linarith
  have ho' : norm3 o' ≤ 4 * R := by
    have := norm3_le_add o' (target + bond • n)
    norm_num at *
    linarith
  have hp8 : norm3 p' ≤ 8 * R := by
    have := norm3_le_add p' o'
    linarith
  -- the height over the face
  have f1 := (abs_dot_le (o' - (target + bond • n)) k).trans (mul_le_mul e5 hk2 (norm3_nonneg _) (by positivity))
  have f2 := (abs_dot_le (p' - o') (k - n)).trans (mul_le_mul hd hkn (norm3_nonneg _) (by linarith))
  have f3 := (abs_dot_le n (k - n)).trans (mul_le_mul hn2 hkn (norm3_nonneg _) (by norm_num))
  have f4 : |n.dot n - 1| ≤ 3 * (1 / 2) ^ 40 := by
    have e : n.dot n - 1 = (norm3 n - 1) * (norm3 n + 1) := by
      have : n.dot n = norm3 n ^ 2 := (norm3_sq n).symm
      rw [this]; ring
    rw [e, abs_mul, mul_comm]
    have : |norm3 n + 1| ≤ 3 := by rw [abs_of_nonneg (by linarith [norm3_nonneg n])]; linarith
    exact mul_le_mul this hn (abs_nonneg _) (by norm_num)
  have f5 : |bond * (n.dot n - 1 + n.dot (k - n))| ≤ R * (5 * (1 / 2) ^ 40) := by
    rw [abs_mul]
    exact mul_le_mul hb ((abs_add_le _ _).trans (by linarith)) (abs_nonneg _) (by linarith)
  have key : (p' - pt).dot k = (o' - (target + bond • n)).dot k + (target - pt).dot k + bond + bond * (n.dot n - 1 + n.dot (k - n)) +
      (p' - o').dot n + (p' - o').dot (k - n) := by
    simp [V3.dot]; ring
  have hbey : 2 * tol ≤ (p' - pt).dot k := by
    rw [key]
    have g1 := (abs_le.mp f1).1
    have g2 := (abs_le.mp f2).1
    have g5 := (abs_le.mp f5).1
    have g7 := (abs_le.mp s1).1
    norm_num at *
    linarith
  have tolpos : (1 / 2 : ℝ) ^ 480 ≤ tol := by
    have h1 : (1 / 2 : ℝ) ^ 480 ≤ (1 / 2) ^ 40 := half_pow_le (by norm_num)
    have h2 := norm3_nonneg pt
    have h3 : (1 / 2 : ℝ) ^ 40 ≤ tol := by norm_num at *; linarith
    exact h1.trans h3
  have hT : Tolerant p' (.plane ⟨k, pt, tol⟩) := by
    refine ⟨?_, tolpos⟩
    simp only [size, tolOf, len_eq]
    linarith
  have t0 := tol_pos hT
  have hout := C138_beyond A (.plane ⟨k, pt, tol⟩) (by simpa only [Ready, len_eq] using hk) p' p' hbey hT
    (by rw [dist_eq, sub_self, (norm3_eq_zero _).mpr rfl]; linarith)
  have hf : (algs.all fun s => interior A s p') = false := List.all_eq_false.mpr ⟨_, hface, by rw [hout]; simp⟩
  rw [hf]
  rfl

/-- **C148.** A molecule whose bonding atom belongs into the closed volume (a negative bond length, say) is reported as a failure. -/
theorem C148_inside {R : ℝ} (hR : 1 ≤ R) {mol : Mol ℝ} (hl : mol.species.length = mol.atoms.length) (hp : ∀ p ∈ mol.atoms, len p ≤ R) {i : ℕ} {o : V3 ℝ}
    (hi : mol.atoms[i]? = some o) {vec w : V3 ℝ} (ew : w = mulVec A mol.orientation vec) {theta bond : ℝ} {target n : V3 ℝ} (ht : len target ≤ R)
    (hb : |bond| ≤ R) (hn : |len n - 1| ≤ (1 / 2) ^ 40) (hth : |theta| ≤ 64) (hw : (1 / 2) ^ 200 ≤ len w)
    (hc : (1 / 2) ^ 20 * (len w * len n) ≤ len (w.cross n)) {algs : List Alg} (hA : ∀ a ∈ algs, Ready a)
    (hT : ∀ a ∈ algs, Tolerant (target + bond • n) a ∧ R ≤ 2 ^ 44 * tolOf a) (hin : ∀ a ∈ algs, Closed (target + bond • n) a) :
    ∃ m, placeOn A T S algs mol (.int i) vec theta bond target n = .ok (m, false) := by
  obtain ⟨m, o', e1, -, -, e4, e5, -, -⟩ := C147_placed_partial A T S hR hl hp hi ew ht hb hn hth hw hc
  refine ⟨m, ?_⟩
  unfold placeOn
  rw [e1]
  suffices hall : (m.atoms.all fun p => !(algs.all fun s => interior A s p)) = false by simp only [hall]
  refine List.all_eq_false.mpr ⟨o', List.mem_of_getElem? e4, ?_⟩
  have : (algs.all fun s => interior A s o') = true := by
    refine List.all_eq_true.mpr fun a ha => C138_on_surface A a (hA a ha) _ o' (hin a ha) (hT a ha).1 (e5.trans ?_)
    have := (hT a ha).2
    norm_num at *
    linarith
  rw [this]
  simp

/-! ## Water over and under the plane z = 5 -/

theorem water_over : ∃ m, placeOn binary64 T exactRotVec [.plane ⟨⟨0, 0, 1⟩, ⟨0, 0, 5⟩, 1 / 10 ^ 5⟩]
      ⟨[⟨0, 0, 0⟩, ⟨1, 0, 0⟩, ⟨0, 1, 0⟩], [8, 1, 1], 0, 1, false, none, some ⟨0, 0, 0⟩, true⟩ (.int 0) ⟨1, 0, 0⟩ 1 2 ⟨5, 5, 5⟩ ⟨0, 0, 1⟩ = .ok (m, true) := by
  have hsq : ∀ x y z : ℝ, len (⟨x, y, z⟩ : V3 ℝ) = Real.sqrt (x ^ 2 + y ^ 2 + z ^ 2) := fun x y z => rfl
  have h10 : ∀ x : ℝ, x ≤ 100 → Real.sqrt x ≤ 10 := fun x hx => (Real.sqrt_le_left (by norm_num)).mpr (by linarith)
  have hlx : len (⟨1, 0, 0⟩ : V3 ℝ) = 1 := by rw [hsq]; norm_num
  have hlz : len (⟨0, 0, 1⟩ : V3 ℝ) = 1 := by rw [hsq]; norm_num
  have h := C148_flat binary64 T exactRotVec (R := 10) (by norm_num) (mol := ⟨[⟨0, 0, 0⟩, ⟨1, 0, 0⟩, ⟨0, 1, 0⟩], [8, 1, 1], 0, 1, false, none, some ⟨0, 0, 0⟩, true⟩) rfl
    (by
      intro p hp
      simp only [List.mem_cons, List.not_mem_nil, or_false] at hp
      rcases hp with rfl | rfl | rfl <;> rw [hsq] <;> exact h10 _ (by norm_num))
    (i := 0) (o := ⟨0, 0, 0⟩) rfl (vec := ⟨1, 0, 0⟩) (w := ⟨1, 0, 0⟩) ex_direction.symm (theta := 1) (bond := 2) (target := ⟨5, 5, 5⟩) (n := ⟨0, 0, 1⟩)
    (by rw [hsq]; exact h10 _ (by norm_num)) (by norm_num) (by rw [hlz]; norm_num) (by norm_num)
    (by rw [hlx]; exact (half_pow_le (m := 200) (n := 0) (by norm_num)).trans (by norm_num))
    (by
      rw [hlx, hlz, show (⟨1, 0, 0⟩ : V3 ℝ).cross ⟨0, 0, 1⟩ = ⟨0, -1, 0⟩ by ext <;> simp [V3.cross], hsq]
      norm_num)
    (algs := [.plane ⟨⟨0, 0, 1⟩, ⟨0, 0, 5⟩, 1 / 10 ^ 5⟩]) (k := ⟨0, 0, 1⟩) (pt := ⟨0, 0, 5⟩) (tol := 1 / 10 ^ 5) List.mem_cons_self (by rw [hlz]; norm_num) (by rw [dist_eq, sub_self, (norm3_eq_zero _).mpr rfl]; norm_num)
    (by
      have : len (⟨0, 0, 5⟩ : V3 ℝ) ≤ 10 := by rw [hsq]; exact h10 _ (by norm_num)
      norm_num at *
      linarith)
    (by
      intro p hp
      simp only [List.mem_cons, List.not_mem_nil, or_false] at hp
      rw [hlx]
      rcases hp with rfl | rfl | rfl <;> simp [V3.dot] <;> norm_num)
  exact h

theorem water_under : ∃ m, placeOn binary64 T exactRotVec [.plane ⟨⟨0, 0, 1⟩, ⟨0, 0, 5⟩, 1 / 10 ^ 5⟩]
      ⟨[⟨0, 0, 0⟩, ⟨1, 0, 0⟩, ⟨0, 1, 0⟩], [8, 1, 1], 0, 1, false, none, some ⟨0, 0, 0⟩, true⟩ (.int 0) ⟨1, 0, 0⟩ 1 (-2) ⟨5, 5, 5⟩ ⟨0, 0, 1⟩ = .ok (m, false) := by
  have hsq : ∀ x y z : ℝ, len (⟨x, y, z⟩ : V3 ℝ) = Real.sqrt (x ^ 2 + y ^ 2 + z ^ 2) := fun x y z => rfl
  have h10 : ∀ x : ℝ, x ≤ 100 → Real.sqrt x ≤ 10 := fun x hx => (Real.sqrt_le_left (by norm_num)).mpr (by linarith)
  have hlx : len (⟨1, 0, 0⟩ : V3 ℝ) = 1 := by rw [hsq]; norm_num
  have hlz : len (⟨0, 0, 1⟩ : V3 ℝ) = 1 := by rw [hsq]; norm_num
  have hplace : (⟨5, 5, 5⟩ : V3 ℝ) + (-2 : ℝ) • ⟨0, 0, 1⟩ = ⟨5, 5, 3⟩ := by ext <;> simp; norm_num
  have h := C148_inside binary64 T exactRotVec (R := 10) (by norm_num) (mol := ⟨[⟨0, 0, 0⟩, ⟨1, 0, 0⟩, ⟨0, 1, 0⟩], [8, 1, 1], 0, 1, false, none, some ⟨0, 0, 0⟩, true⟩) rfl
    (by
      intro p hp
      simp only [List.mem_cons, List.not_mem_nil, or_false] at hp
      rcases hp with rfl | rfl | rfl <;> rw [hsq] <;> exact h10 _ (by norm_num))
    (i := 0) (o := ⟨0, 0, 0⟩) rfl (vec := ⟨1, 0, 0⟩) (w := ⟨1, 0, 0⟩) ex_direction.symm (theta := 1) (bond := -2) (target := ⟨5, 5, 5⟩) (n := ⟨0, 0, 1⟩)
    (by rw [hsq]; exact h10 _ (by norm_num)) (by norm_num) (by rw [hlz]; norm_num) (by norm_num)
    (by rw [hlx]; exact (half_pow_le (m := 200) (n := 0) (by norm_num)).trans (by norm_num))
    (by
      rw [hlx, hlz, show (⟨1, 0, 0⟩ : V3 ℝ).cross ⟨0, 0, 1⟩ = ⟨0, -1, 0⟩ by ext <;> simp [V3.cross], hsq]
      norm_num) (algs := [.plane ⟨⟨0, 0, 1⟩, ⟨0, 0, 5⟩, 1 / 10 ^ 5⟩])
  refine h ?_ ?_ ?_
  all_goals
    intro a ha
    simp only [List.mem_cons, List.not_mem_nil, or_false] at ha
    subst ha
  · simp only [Ready]
    rw [hlz]; norm_num
  · have h1 : len (⟨0, 0, 5⟩ : V3 ℝ) ≤ 10 := by rw [hsq]; exact h10 _ (by norm_num)
    have h2 : len (⟨5, 5, 3⟩ : V3 ℝ) ≤ 10 := by rw [hsq]; exact h10 _ (by norm_num)
    refine ⟨⟨?_, ?_⟩, ?_⟩
    · simp only [size, tolOf, hplace]
      norm_num at *
      linarith
    · exact (half_pow_le (m := 480) (n := 20) (by norm_num)).trans (by simp only [tolOf]; norm_num)
    · simp only [tolOf]; norm_num
  · simp only [Closed, hplace]
    norm_num

end Fl
end CZ
