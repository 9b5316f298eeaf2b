import Verif.Props.RoundedLanding

/-!
# Properties C143, C147 and C148, continued: the exact model as one of the arithmetics

With exact operations the rounded models of `rot_vtv`, `rot_v` and the placement of adsorbates are those of `Transform` and `Adsorbate`.
-/

namespace CZ
namespace Fl

theorem norm_exact (v : V3 ℝ) : norm exact v = norm3 v := by
  simp [norm, exact, norm3, V3.normSq]

theorem rodrigues_exact (axis : V3 ℝ) (theta : ℝ) : rodrigues exact Trig.exact axis theta = Tr.rodrigues axis theta := by
  unfold rodrigues Tr.rodrigues
  simp only [norm_exact]
  split_ifs with h
  · rfl
  · congr 1
    ext <;> simp [rodriguesOf, exact, Trig.exact, Tr.crossMat, M3.row0, M3.row1, M3.row2, M3.col0, M3.col1, M3.col2, V3.dot, M3.add_def, M3.smul_def,
      M3.mul_def, M3.one_def] <;> ring

/-- **C143.** With exact operations this is `rot_vtv` of the exact model. -/
theorem C143_exact (v vt : V3 ℝ) : rotVtv exact Trig.exact v vt = Tr.rotVtv v vt := by
  unfold rotVtv Tr.rotVtv
  have e1 : exact.rnd (norm exact v * norm exact vt) = norm3 v * norm3 vt := by rw [norm_exact, norm_exact]; rfl
  have e2 : ∀ D, exact.rnd (exact.dot v vt / D) = v.dot vt / D := fun D => by simp [exact]
  have e3 : ∀ x y, cross exact x y = x.cross y := fun x y => by ext <;> simp [cross, exact, V3.cross]
  have e4 : ∀ t, exact.rnd (Trig.exact.pi - t) = Real.pi - t := fun t => rfl
  simp only [e1, e2, e3, e4, rodrigues_exact]
  by_cases h1 : norm3 v * norm3 vt = 0
  · rw [if_pos h1, if_pos h1]
  have hpos : 0 < norm3 v * norm3 vt := lt_of_le_of_ne (mul_nonneg (norm3_nonneg _) (norm3_nonneg _)) (Ne.symm h1)
  have h2 : ¬ 1 < |v.dot vt / (norm3 v * norm3 vt)| := by
    rw [abs_div, abs_of_pos hpos, lt_div_iff₀ hpos, one_mul]
    exact not_lt.mpr (abs_dot_le v vt)
  rw [if_neg h1, if_neg h1, if_neg h2]
  rfl

theorem rotV_exact (n : V3 ℝ) (theta : ℝ) : rotV exact exactRotVec n theta = Tr.rotV n theta := by
  unfold rotV Tr.rotV
  have e : scale exact n (exact.rnd (theta / norm exact n)) = (theta / norm3 n) • n := by
    rw [norm_exact]
    ext <;> simp [scale, exact, mul_comm]
  rw [e, norm_exact]
  by_cases h1 : norm3 n = 0
  · rw [if_pos h1, if_pos h1]
  rw [if_neg h1, if_neg h1]
  simp only
  by_cases h2 : norm3 ((theta / norm3 n) • n) = 0
  · have : Tr.rodrigues ((theta / norm3 n) • n) (norm3 ((theta / norm3 n) • n)) = .error .nan := by rw [Tr.rodrigues, if_pos h2]
    simp only [exactRotVec, this, if_pos h2]
  · cases hr : Tr.rodrigues ((theta / norm3 n) • n) (norm3 ((theta / norm3 n) • n)) with
    | ok R => simp only [exactRotVec, hr, if_neg h2]
    | error x => rw [Tr.rodrigues, if_neg h2] at hr; cases hr

theorem mulVec_exact (M : M3 ℝ) (v : V3 ℝ) : mulVec exact M v = M.mulVec v := by
  ext <;> simp [mulVec, exact, M3.mulVec, M3.row0, M3.row1, M3.row2, V3.dot]

theorem mkRotation_form {M : M3 ℝ} {o : Option (V3 ℝ)} {l b : Bool} {t : Tr ℝ} (h : Tr.mkRotation M o l b = .ok t) : t = .matrix .rotation M o l b := by
  unfold Tr.mkRotation at h
  split_ifs at h
  injection h with h
  exact h.symm

/-- **C147.** With exact operations this is the placement of the exact model (C67, C68). -/
theorem C147_exact (mol : Mol ℝ) (idx : MolVal ℝ) (vec : V3 ℝ) (theta bond : ℝ) (target n : V3 ℝ) :
    place exact Trig.exact exactRotVec mol idx vec theta bond target n = Ads.place mol idx vec theta bond target n := by
  have es : ∀ o3, sub exact (add exact target (scale exact n bond)) o3 = target + bond • n - o3 := fun o3 => by
    ext <;> simp [sub, add, scale, exact] <;> ring
  unfold place Ads.place
  simp only [mulVec_exact, C143_exact, rotV_exact, C142_exact, es]
  cases mol.fromMolecule [] with
  | error e => rfl
  | ok m0 =>
    simp only
    rcases m0.setOriginByIdx idx with ⟨m1, e | _⟩
    · rfl
    simp only
    cases Tr.rotVtv (m1.orientation.mulVec vec) n with
    | error e => rfl
    | ok R1 =>
      simp only
      cases m1.origin with
      | error e => rfl
      | ok o1 =>
        simp only
        cases h1 : Tr.mkRotation R1 (some o1) true false with
        | error e => rfl
        | ok t1 =>
          obtain rfl := mkRotation_form h1
          simp only [Move.tr]
          rcases m1.transform (.matrix .rotation R1 (some o1) true false) true with ⟨m2, e | _⟩
          · rfl
          simp only
          cases Tr.rotV n theta with
          | error e => rfl
          | ok R2 =>
            simp only
            cases m2.origin with
            | error e => rfl
            | ok o2 =>
              simp only
              cases h2 : Tr.mkRotation R2 (some o2) true false with
              | error e => rfl
              | ok t2 =>
                obtain rfl := mkRotation_form h2
                rfl

/-- **C148.** With exact operations the flag is the test of the exact model of a volume without points. -/
theorem C148_exact (env : Env) (v : Vol) (hv : v.tri = none) {mol m : Mol ℝ} {idx : MolVal ℝ} {vec target n : V3 ℝ} {theta bond : ℝ} {b : Bool} :
    placeOn exact Trig.exact exactRotVec v.algs mol idx vec theta bond target n = .ok (m, b) ↔
      Ads.place mol idx vec theta bond target n = .ok m ∧ b = m.atoms.all fun p => !(v.interior env p) := by
  have e : ∀ p, v.interior env p = v.algs.all fun s => interior exact s p := fun p => by
    simp only [Vol.interior, hv, Bool.true_and, interior_exact]
  simp only [e]
  unfold placeOn
  rw [C147_exact]
  cases Ads.place mol idx vec theta bond target n with
  | error x => simp
  | ok m' =>
    simp only [Except.ok.injEq, Prod.mk.injEq]
    constructor
    · rintro ⟨rfl, rfl⟩; exact ⟨rfl, rfl⟩
    · rintro ⟨rfl, rfl⟩; exact ⟨rfl, rfl⟩

/-- An adsorbate of one atom, upright on the plane z = 0. -/
example (env : Env) (v : Vol) (hv : v.tri = none) (m : Mol ℝ)
    (h : Ads.place ⟨[⟨0, 0, 0⟩], [8], 0, 1, false, none, some ⟨0, 0, 0⟩, true⟩ (.int 0) ⟨0, 0, 1⟩ 0 2 ⟨0, 0, 0⟩ ⟨0, 0, 1⟩ = .ok m) :
    placeOn exact Trig.exact exactRotVec v.algs ⟨[⟨0, 0, 0⟩], [8], 0, 1, false, none, some ⟨0, 0, 0⟩, true⟩ (.int 0) ⟨0, 0, 1⟩ 0 2 ⟨0, 0, 0⟩ ⟨0, 0, 1⟩ =
      .ok (m, m.atoms.all fun p => !(v.interior env p)) := (C148_exact env v hv).mpr ⟨h, rfl⟩

end Fl
end CZ
