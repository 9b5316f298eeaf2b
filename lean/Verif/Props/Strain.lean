import Verif.Props.Generator

/-!
# Properties C34-C38: strain fields and post-generation transformations
-/

set_option linter.unusedSectionVars false

namespace CZ
open Spec

section
variable {K : Type} [Field K] [LinearOrder K] [IsStrictOrderedRing K]

/-! ## C34 -/

theorem vecMul_mul (v : V3 K) (A B : M3 K) : M3.vecMul (M3.vecMul v A) B = M3.vecMul v (A * B) := by
  simp only [M3.vecMul, M3.transpose_mul, M3.mulVec_mul]

/-- The affine map of an HStrain with known bases: `origin + D (p - origin)`, where `D` is the matrix of the strain in
space. -/
theorem strain_affine (s : HStrain K) (p q : V3 K) (h : s.applyPt p = .ok q) :
    ∃ D : M3 K, ∀ x, s.applyPt x = .ok (s.origin + D.mulVec (x - s.origin)) := by
  unfold HStrain.applyPt at h ⊢
  by_cases hm : s.mode = "crystal"
  · simp only [hm, if_true] at h ⊢
    cases hb : s.bases with
    | none => rw [hb] at h; cases h
    | some B =>
      rw [hb] at h
      simp only at h ⊢
      cases hi : B.inv with
      | error e => rw [hi] at h; cases h
      | ok Bi =>
        refine ⟨(Bi.transpose * s.matrix * B.transpose).transpose, fun x => ?_⟩
        simp only [vecMul_mul]
        show Except.ok _ = Except.ok _
        rw [add_comm]; rfl
  · simp only [hm, if_false] at h ⊢
    exact ⟨s.matrix.transpose, fun x => by rw [add_comm]; rfl⟩

/-- **C34 (affine, fixed origin).** Whenever the strain can be applied at all it is an affine map with a matrix that
does not depend on the point, and it fixes the strain origin. -/
theorem C34_affine (s : HStrain K) (p q : V3 K) (h : s.applyPt p = .ok q) :
    (∃ D : M3 K, ∀ x, s.applyPt x = .ok (s.origin + D.mulVec (x - s.origin))) ∧ s.applyPt s.origin = .ok s.origin := by
  obtain ⟨D, hD⟩ := strain_affine s p q h
  refine ⟨⟨D, hD⟩, ?_⟩
  rw [hD, sub_self, M3.mulVec_zero, add_zero]

/-- **C34 (crystal coordinates).** In crystal mode the point with crystal coordinates `e` (relative to the strain
origin) goes to the point whose crystal coordinates are the row vector `e` times the strain matrix. -/
theorem C34_crystal_mode (s : HStrain K) (B : M3 K) (hm : s.mode = "crystal") (hb : s.bases = some B) (hd : B.det ≠ 0)
    (e : V3 K) :
    s.applyPt (cart B s.origin e) = .ok (cart B s.origin
      ⟨e.x * s.matrix.m00 + e.y * s.matrix.m10 + e.z * s.matrix.m20,
       e.x * s.matrix.m01 + e.y * s.matrix.m11 + e.z * s.matrix.m21,
       e.x * s.matrix.m02 + e.y * s.matrix.m12 + e.z * s.matrix.m22⟩) := by
  obtain ⟨Bi, hBi⟩ : ∃ Bi, B.inv = .ok Bi := ⟨_, by simp [M3.inv, hd]; rfl⟩
  obtain ⟨h1, h2⟩ := M3.inv_mul B Bi hBi
  unfold HStrain.applyPt
  simp only [hm, if_true, hb, hBi]
  show Except.ok _ = Except.ok _
  congr 1
  rw [cart_eq, cart_eq, add_sub_cancel_right]
  congr 1
  have e1 : M3.vecMul (B.mulVec e) Bi.transpose = e := by
    have : Bi.transpose.transpose = Bi := rfl
    rw [M3.vecMul, this, ← M3.mulVec_mul, h1, M3.mulVec_one]
  rw [e1]
  have : B.transpose.transpose = B := rfl
  rw [M3.vecMul, M3.vecMul, this]
  congr 1
  ext <;> simp [M3.mulVec, M3.transpose] <;> ring

/-- **C34 (standard mode).** In any other mode the Cartesian coordinates relative to the origin are multiplied by the
matrix (row vector convention). -/
theorem C34_standard_mode (s : HStrain K) (hm : s.mode ≠ "crystal") (d : V3 K) :
    s.applyPt (s.origin + d) = .ok (s.origin +
      ⟨d.x * s.matrix.m00 + d.y * s.matrix.m10 + d.z * s.matrix.m20,
       d.x * s.matrix.m01 + d.y * s.matrix.m11 + d.z * s.matrix.m21,
       d.x * s.matrix.m02 + d.y * s.matrix.m12 + d.z * s.matrix.m22⟩) := by
  unfold HStrain.applyPt
  simp only [hm, if_false]
  congr 1
  ext <;> simp [M3.vecMul, M3.mulVec, M3.transpose] <;> ring

/-- **C34 (identity).** Without a matrix argument the strain does nothing, in crystal mode with any invertible bases and
in standard mode. -/
theorem C34_identity (origin : Option (V3 K)) (mode : String) (s : HStrain K) (h : HStrain.make none origin mode = .ok s)
    (B : M3 K) (hd : B.det ≠ 0) (o p : V3 K) : (s.scrape B o).applyPt p = .ok p := by
  have hs : s.matrix = 1 ∧ s.mode = mode := by
    unfold HStrain.make HStrain.modeSet at h
    cases origin <;> simp at h <;> cases h <;> exact ⟨rfl, rfl⟩
  have hs' : (s.scrape B o).matrix = 1 ∧ (s.scrape B o).mode = mode := by
    unfold HStrain.scrape
    simp only
    split_ifs <;> exact hs
  by_cases hm : mode = "crystal"
  · have hb : (s.scrape B o).bases = some B := by
      unfold HStrain.scrape
      rw [if_pos (hs.2.trans hm)]
      simp only
      split_ifs <;> rfl
    set t := s.scrape B o with ht
    obtain ⟨e, he⟩ : ∃ e, p = cart B t.origin e := by
      refine ⟨(B.det)⁻¹ • B.adj.mulVec (p - t.origin), ?_⟩
      have := (M3.solve_iff B (p - t.origin) _ hd).mp (M3.solve_ok _ _ hd)
      rw [cart_eq, this, sub_add_cancel]
    rw [he, C34_crystal_mode t B (hs'.2.trans hm) hb hd]
    congr 2
    rw [hs'.1, M3.one_def]
    ext <;> simp
  · set t := s.scrape B o with ht
    have := C34_standard_mode t (by rw [hs'.2]; exact hm) (p - t.origin)
    rw [add_sub_cancel] at this
    rw [this, hs'.1, M3.one_def]
    congr 1
    ext <;> simp

theorem scrape_fields (s : HStrain K) (B : M3 K) (o : V3 K) :
    (s.scrape B o).matrix = s.matrix ∧ (s.scrape B o).mode = s.mode ∧ (s.mode = "crystal" → (s.scrape B o).bases = some B) ∧
      (s.scrape B o).origin = if s.fromGenerator then o else s.origin := by
  unfold HStrain.scrape
  by_cases hm : s.mode = "crystal" <;> cases hg : s.fromGenerator <;> simp [hm, hg]

theorem applyPt_ok (s : HStrain K) (h : s.mode = "crystal" → ∃ B, s.bases = some B ∧ B.det ≠ 0) (p : V3 K) :
    ∃ q, s.applyPt p = .ok q := by
  unfold HStrain.applyPt
  by_cases hm : s.mode = "crystal"
  · obtain ⟨B, hB, hd⟩ := h hm
    simp only [hm, if_true, hB]
    obtain ⟨Bi, hBi⟩ : ∃ Bi, B.inv = .ok Bi := ⟨_, by simp [M3.inv, hd]; rfl⟩
    rw [hBi]
    exact ⟨_, rfl⟩
  · simp only [hm, if_false]
    exact ⟨_, rfl⟩

/-- **C34 (origin).** A strain field made without origin is applied about the origin of the generator using it; one made
with an origin about that origin.  `D` is the same for all points. -/
theorem C34_strain_origin (m : Option (StrainArg K)) (origin : Option (V3 K)) (mode : String) (s : HStrain K)
    (h : HStrain.make m origin mode = .ok s) (B : M3 K) (hd : B.det ≠ 0) (o : V3 K) :
    ∃ D : M3 K, ∀ p, (s.scrape B o).applyPt p = .ok (origin.getD o + D.mulVec (p - origin.getD o)) := by
  have ho : (s.scrape B o).origin = origin.getD o := by
    rw [(scrape_fields s B o).2.2.2]
    unfold HStrain.make HStrain.modeSet at h
    cases m with
    | none => cases origin <;> simp at h <;> cases h <;> simp
    | some a =>
      simp only [bind, Except.bind] at h
      cases ha : HStrain.matrixSet a with
      | error e => rw [ha] at h; cases h
      | ok M => rw [ha] at h; cases origin <;> simp at h <;> cases h <;> simp
  obtain ⟨q, hq⟩ := applyPt_ok (s.scrape B o) (fun hm => by
    refine ⟨B, (scrape_fields s B o).2.2.1 ?_, hd⟩
    rw [← (scrape_fields s B o).2.1]; exact hm) 0
  obtain ⟨D, hD⟩ := strain_affine _ _ _ hq
  exact ⟨D, fun p => by rw [hD, ho]⟩

/-- Applying a strain row by row. -/
theorem apply_map (s : HStrain K) (f : V3 K → V3 K) (hb : s.mode = "crystal" → ∃ B, s.bases = some B ∧ B.det ≠ 0)
    (hf : ∀ p, s.applyPt p = .ok (f p)) (ps : List (V3 K)) : s.apply ps = .ok (ps.map f) := by
  have hm : ps.mapM s.applyPt = .ok (ps.map f) := by
    induction ps with
    | nil => rfl
    | cons p ps ih => simp [List.mapM_cons, hf, ih, bind, Except.bind, pure, Except.pure]
  unfold HStrain.apply
  by_cases hc : s.mode = "crystal"
  · obtain ⟨B, hB, hd⟩ := hb hc
    obtain ⟨Bi, hBi⟩ : ∃ Bi, B.inv = .ok Bi := ⟨_, by simp [M3.inv, hd]; rfl⟩
    simp only [hc, if_true, hB, hBi]
    exact hm
  · simp only [hc, if_false]
    exact hm

/-- The matrix and mode a strain field was made with are the ones it holds. -/
theorem make_fields {m : Option (StrainArg K)} {origin : Option (V3 K)} {mode : String} {s : HStrain K}
    (h : HStrain.make m origin mode = .ok s) :
    s.mode = mode ∧ (match m with | none => Except.ok 1 | some a => HStrain.matrixSet a) = .ok s.matrix := by
  unfold HStrain.make HStrain.modeSet at h
  cases m with
  | none => cases origin <;> simp at h <;> cases h <;> exact ⟨rfl, rfl⟩
  | some a =>
    simp only [bind, Except.bind] at h
    cases ha : HStrain.matrixSet a with
    | error e => rw [ha] at h; cases h
    | ok M => rw [ha] at h; cases origin <;> simp at h <;> cases h <;> exact ⟨rfl, ha⟩

/-- **C34 (supplied atoms).** A strained generator supplies the atoms of the unstrained one in the same order with the same
species, every position mapped by one affine map that fixes the strain origin (the generator origin when the strain was
made without one).  The linear part multiplies row vectors by the matrix `M` the strain was made with: coordinates along
the scaled cell of the generator in crystal mode, Cartesian coordinates otherwise. -/
theorem C34_supplied_atoms [FloorRing K] (m : Option (StrainArg K)) (origin : Option (V3 K)) (mode : String) (st : HStrain K)
    (h : HStrain.make m origin mode = .ok st) (g : Gen K) (v : Voxel K) (hg : g.strain = some st) (hv : g.voxel = some v)
    (hd : v.sbases.det ≠ 0) :
    ∃ M D : M3 K, (match m with | none => Except.ok 1 | some a => HStrain.matrixSet a) = .ok M ∧
      (mode = "crystal" → ∀ e, D.mulVec (cart v.sbases 0 e) = cart v.sbases 0 (rowTimes e M)) ∧
      (mode ≠ "crystal" → ∀ d, D.mulVec d = rowTimes d M) ∧
      ∀ rng bbox ps zs, (Gen.supply rng { g with strain := none } bbox).2 = .ok (ps, zs) →
      (g.supply rng bbox).2 = .ok (ps.map fun p => origin.getD v.origin + D.mulVec (p - origin.getD v.origin), zs) := by
  obtain ⟨D, hD⟩ := C34_strain_origin m origin mode st h v.sbases hd v.origin
  obtain ⟨hmode, hM⟩ := make_fields h
  obtain ⟨f1, f2, f3, -⟩ := scrape_fields st v.sbases v.origin
  set o := origin.getD v.origin with ho
  have hfix : (st.scrape v.sbases v.origin).origin = o := by
    rw [ho]
    unfold HStrain.make HStrain.modeSet at h
    rw [(scrape_fields st v.sbases v.origin).2.2.2]
    cases m with
    | none => cases origin <;> simp at h <;> cases h <;> simp
    | some a =>
      simp only [bind, Except.bind] at h
      cases ha : HStrain.matrixSet a with
      | error e => rw [ha] at h; cases h
      | ok M => rw [ha] at h; cases origin <;> simp at h <;> cases h <;> simp
  refine ⟨st.matrix, D, hM, fun hc e => ?_, fun hc d => ?_, fun rng bbox ps zs hs => ?_⟩
  · have h1 := C34_crystal_mode (st.scrape v.sbases v.origin) v.sbases (f2.trans (hmode.trans hc)) (f3 (hmode.trans hc)) hd e
    rw [hD, hfix, f1] at h1
    have h2 := Except.ok.inj h1
    have h3 : ∀ e, cart v.sbases o e - o = cart v.sbases 0 e := fun e => by ext <;> simp [cart]
    rw [h3] at h2
    have h4 := congrArg (· - o) h2
    simp only [add_sub_cancel_left] at h4
    rw [h4, h3]; rfl
  · have h1 := C34_standard_mode (st.scrape v.sbases v.origin) (by rw [f2, hmode]; exact hc) d
    rw [hD, hfix, f1] at h1
    have h2 := Except.ok.inj h1
    rw [add_sub_cancel_left] at h2
    exact add_left_cancel h2
  have ha := apply_map _ _ (fun hm => ⟨v.sbases, (scrape_fields st v.sbases v.origin).2.2.1
    (by rw [← (scrape_fields st v.sbases v.origin).2.1]; exact hm), hd⟩) hD
  unfold Gen.supply at hs ⊢
  simp only [hv, hg] at hs ⊢
  cases h1 : v.getExtents bbox with
  | error e => rw [h1] at hs; cases hs
  | ok r =>
    rw [h1] at hs
    simp only at hs ⊢
    cases h2 : g.struct with
    | none => rw [h2] at hs; cases hs
    | some s =>
      rw [h2] at hs
      simp only at hs ⊢
      cases h3 : Gen.rawAtoms v s.sites bbox with
      | error e => rw [h3] at hs; cases hs
      | ok atoms =>
        rw [h3] at hs
        simp only at hs ⊢
        rw [ha]
        have := Except.ok.inj hs
        simp only [this]

/-- Concrete case: a strain given by three values about the generator origin; the unstrained generator supplies two atoms. -/
example : HStrain.make (some (.three ⟨1, 1, 1/2⟩)) none "crystal" = .ok (⟨⟨1, 0, 0, 0, 1, 0, 0, 0, 1/2⟩, "crystal", 0, true, none⟩ : HStrain ℚ) ∧
    (Gen.supply (fun _ _ _ => 0) (⟨some ⟨1, [(⟨0, 0, 0⟩, 6)]⟩, some ⟨1, .scalar 1, ⟨0, 0, 1⟩⟩, none, none⟩ : Gen ℚ)
      [⟨0, 0, 0⟩, ⟨0, 0, 1⟩]).2 = .ok ([⟨0, 0, 0⟩, ⟨0, 0, 1⟩], [6, 6]) := by
  constructor
  · rfl
  · decide +kernel

/-- **C34 (constructor).** A strain field given to the constructor of a Generator acts like one assigned afterwards: the generator
supplies the atoms of the generator made without it, mapped by the affine map of the strain; both constructors raise the same
exceptions. -/
theorem C34_constructor [FloorRing K] (m : Option (StrainArg K)) (origin : Option (V3 K)) (mode : String) (st : HStrain K)
    (h : HStrain.make m origin mode = .ok st) (og : Option (V3 K)) (s : Struct K) :
    (∀ e, Gen.make og (some s) (some st) = .error e ↔ Gen.make og (some s) none = .error e) ∧
    ∀ g, Gen.make og (some s) none = .ok g → s.latticeMatrix.det ≠ 0 →
      ∃ g' M, ∃ D : M3 K, Gen.make og (some s) (some st) = .ok g' ∧
        (match m with | none => Except.ok 1 | some a => HStrain.matrixSet a) = .ok M ∧
        (mode = "crystal" → ∀ e, D.mulVec (cart s.latticeMatrix 0 e) = cart s.latticeMatrix 0 (rowTimes e M)) ∧
        (mode ≠ "crystal" → ∀ d, D.mulVec d = rowTimes d M) ∧
        ∀ rng bbox ps zs, (g.supply rng bbox).2 = .ok (ps, zs) →
          (g'.supply rng bbox).2 = .ok (ps.map fun p => origin.getD (og.getD 0) + D.mulVec (p - origin.getD (og.getD 0)), zs) := by
  have hone : (⟨s.latticeMatrix, .scalar 1, og.getD 0⟩ : Voxel K).sbases = s.latticeMatrix := by
    ext <;> simp [Voxel.sbases, M3.smul_def]
  cases hb : Voxel.basesSet s.latticeMatrix with
  | error e =>
    refine ⟨fun e' => ?_, fun g hg => ?_⟩
    · simp only [Gen.make, Gen.setStructure, Voxel.make, hb, bind, Except.bind]
    · simp only [Gen.make, Gen.setStructure, Voxel.make, hb, bind, Except.bind] at hg
      cases hg
  | ok b =>
    have hbb : b = s.latticeMatrix := by
      unfold Voxel.basesSet at hb
      split_ifs at hb
      exact (Except.ok.inj hb).symm
    subst hbb
    have h1 : Gen.make og (some s) none = .ok ⟨some s, some ⟨s.latticeMatrix, .scalar 1, og.getD 0⟩, none, none⟩ := by
      cases og <;> simp [Gen.make, Gen.setStructure, Gen.setOrigin, Voxel.make, hb, bind, Except.bind, pure, Except.pure]
    have h2 : Gen.make og (some s) (some st) = .ok ⟨some s, some ⟨s.latticeMatrix, .scalar 1, og.getD 0⟩, some st, none⟩ := by
      cases og <;> simp [Gen.make, Gen.setStructure, Gen.setOrigin, Voxel.make, hb, bind, Except.bind, pure, Except.pure]
    refine ⟨fun e => by rw [h1, h2]; simp, fun g hg hd => ?_⟩
    rw [h1] at hg
    cases hg
    obtain ⟨M, D, hM, hc, hs, hsup⟩ := C34_supplied_atoms m origin mode st h
      ⟨some s, some ⟨s.latticeMatrix, .scalar 1, og.getD 0⟩, some st, none⟩ _ rfl rfl (by rw [hone]; exact hd)
    rw [hone] at hc
    exact ⟨_, M, D, h2, hM, hc, hs, hsup⟩

/-- Concrete case: the generator made with an origin supplies two atoms. -/
example : ∃ g : Gen ℚ, Gen.make (some ⟨0, 0, 1⟩) (some ⟨1, [(⟨0, 0, 0⟩, 6)]⟩) none = .ok g ∧
    (g.supply (fun _ _ _ => 0) [⟨0, 0, 0⟩, ⟨0, 0, 1⟩]).2 = .ok ([⟨0, 0, 0⟩, ⟨0, 0, 1⟩], [6, 6]) := by
  refine ⟨⟨some ⟨1, [(⟨0, 0, 0⟩, 6)]⟩, some ⟨1, .scalar 1, ⟨0, 0, 1⟩⟩, none, none⟩, ?_, ?_⟩
  · have hb : Voxel.basesSet (1 : M3 ℚ) = .ok 1 := by decide +kernel
    simp [Gen.make, Gen.setStructure, Gen.setOrigin, Voxel.make, hb, bind, Except.bind, pure, Except.pure]
  · decide +kernel

/-- **C34 (input forms).** Three values give the diagonal matrix, six values the symmetric Voigt matrix
(xx, yy, zz, yz, xz, xy), nine values the matrix row by row, a 3x3 array itself; every other shape raises ValueError. -/
theorem C34_matrix_forms :
    (∀ a b c : K, HStrain.matrixSet (.three ⟨a, b, c⟩) = .ok ⟨a, 0, 0, 0, b, 0, 0, 0, c⟩) ∧
    (∀ v : Fin 6 → K, ∃ M : M3 K, HStrain.matrixSet (.six v) = .ok M ∧ M.transpose = M ∧
      M.m00 = v 0 ∧ M.m11 = v 1 ∧ M.m22 = v 2 ∧ M.m12 = v 3 ∧ M.m02 = v 4 ∧ M.m01 = v 5) ∧
    (∀ v : Fin 9 → K, ∃ M : M3 K, HStrain.matrixSet (.nine v) = .ok M ∧
      M.row0 = ⟨v 0, v 1, v 2⟩ ∧ M.row1 = ⟨v 3, v 4, v 5⟩ ∧ M.row2 = ⟨v 6, v 7, v 8⟩) ∧
    (∀ M : M3 K, HStrain.matrixSet (.square M) = .ok M) ∧
    (∀ sh, HStrain.matrixSet (K := K) (.other sh) = .error .value) :=
  ⟨fun _ _ _ => rfl, fun _ => ⟨_, rfl, rfl, rfl, rfl, rfl, rfl, rfl, rfl⟩, fun _ => ⟨_, rfl, rfl, rfl, rfl⟩,
    fun _ => rfl, fun _ => rfl⟩

/-- Non-vacuity of C34: a shear in a sheared cell. -/
example : (⟨⟨1, 1/10, 0, 0, 1, 0, 0, 0, 1⟩, "crystal", ⟨1, 0, 0⟩, false, some ⟨2, 1, 0, 0, 3, 0, 0, 0, 1⟩⟩ : HStrain ℚ).applyPt
    ⟨3, 0, 0⟩ = .ok ⟨31/10, 3/10, 0⟩ := by decide +kernel

/-! ## C35, C36 -/

/-- **C35, finding.** Every string is accepted as a strain mode and stored. -/
theorem C35_every_mode_accepted (val : String) : HStrain.modeSet val = .ok val := by
  simp [HStrain.modeSet]

/-- **C35, refuted.** -/
theorem C35_invalid_modes_rejected_refuted :
    ¬ ∀ val : String, val ≠ "crystal" → val ≠ "standard" → ∃ e, HStrain.modeSet val = .error e := by
  intro h
  obtain ⟨e, he⟩ := h "cristal" (by decide) (by decide)
  rw [C35_every_mode_accepted] at he
  cases he

/-- A misspelt mode silently strains in Cartesian coordinates. -/
theorem C35_misspelt_mode_is_standard (s : HStrain K) (p : V3 K) (m : String) (h : m ≠ "crystal") :
    ({ s with mode := m } : HStrain K).applyPt p = ({ s with mode := "standard" } : HStrain K).applyPt p := by
  unfold HStrain.applyPt
  simp only [h, if_false]
  rw [if_neg (by decide)]

/-- **C36, finding.** `IStrain(...)` raises TypeError for every function, mode and random array. -/
theorem C36_never_constructible (ref : List (V3 K)) (f : Option (List (V3 K) → List (V3 K))) (mode : String) :
    IStrain.make ref f mode = .error .type := by
  cases f <;> rfl

/-- **C36, refuted.** Even a function that keeps the shape of its argument is not accepted. -/
theorem C36_constructible_refuted :
    ¬ ∀ (f : List (V3 ℚ) → List (V3 ℚ)), (∀ ps, (f ps).length = ps.length) →
      ∀ ref mode, IStrain.make ref (some f) mode = .ok () := by
  intro h
  have := h id (fun _ => rfl) [] "crystal"
  rw [C36_never_constructible] at this
  cases this

end

/-! ## C37 -/

section
variable {K : Type} [LinearOrder K]

theorem substPass_length (frac : K) (t s : ℤ) (probs : ℕ → K) (species out : List ℤ) (h : out.length = species.length) :
    (Post.substPass frac t s probs species out).length = species.length := by
  simp [Post.substPass, h]

theorem substPass_get (frac : K) (t s : ℤ) (probs : ℕ → K) (species out : List ℤ) (h : out.length = species.length)
    (i : ℕ) (hi : i < species.length) :
    (Post.substPass frac t s probs species out)[i]? =
      some (if species[i] = t ∧ probs i ≤ frac then s else out[i]'(h ▸ hi)) := by
  unfold Post.substPass
  rw [List.getElem?_map, List.getElem?_eq_getElem (by simp [h, hi])]
  simp

theorem substLoop_length (frac : K) (draws : ℕ → ℕ → K) (species : List ℤ) (ps : List (ℤ × ℤ)) :
    ∀ k out, out.length = species.length → (Post.substLoop frac draws species k ps out).length = species.length := by
  induction ps with
  | nil => intro k out h; exact h
  | cons p ps ih =>
    intro k out h
    obtain ⟨t, s⟩ := p
    exact ih _ _ (substPass_length _ _ _ _ _ _ h)

/-- The outcome at position `i`: the substitute of the last pair whose target matches and whose draw allows it. -/
theorem substLoop_get (frac : K) (draws : ℕ → ℕ → K) (species : List ℤ) (ps : List (ℤ × ℤ)) :
    ∀ (k : ℕ) (out : List ℤ), (h : out.length = species.length) → ∀ i, (hi : i < species.length) →
      ∃ z, (Post.substLoop frac draws species k ps out)[i]? = some z ∧
        ((z = out[i]'(h ▸ hi) ∧ ∀ j, (hj : j < ps.length) → ps[j].1 = species[i] → frac < draws (k + j) i) ∨
         ∃ j, ∃ hj : j < ps.length, ps[j] = (species[i], z) ∧ draws (k + j) i ≤ frac) := by
  induction ps with
  | nil =>
    intro k out h i hi
    refine ⟨out[i]'(h ▸ hi), List.getElem?_eq_getElem _, Or.inl ⟨rfl, fun j hj => by simp at hj⟩⟩
  | cons p ps ih =>
    intro k out h i hi
    obtain ⟨t, s⟩ := p
    have hl := substPass_length frac t s (draws k) species out h
    obtain ⟨z, hz, hcase⟩ := ih (k + 1) (Post.substPass frac t s (draws k) species out) hl i hi
    refine ⟨z, hz, ?_⟩
    have hg := substPass_get frac t s (draws k) species out h i hi
    rw [List.getElem?_eq_getElem (by rw [hl]; exact hi)] at hg
    injection hg with hg
    rcases hcase with ⟨hz1, hz2⟩ | ⟨j, hj, hp, hd⟩
    · rw [hg] at hz1
      by_cases hc : species[i] = t ∧ draws k i ≤ frac
      · rw [if_pos hc] at hz1
        exact Or.inr ⟨0, by simp, by simp [hz1, hc.1], by simpa using hc.2⟩
      · rw [if_neg hc] at hz1
        refine Or.inl ⟨hz1, fun j hj hp => ?_⟩
        cases j with
        | zero =>
          simp only [List.getElem_cons_zero] at hp
          simp only [Nat.add_zero]
          by_contra hcon
          exact hc ⟨hp.symm, not_lt.mp hcon⟩
        | succ j =>
          have := hz2 j (by simpa using hj) (by simpa using hp)
          rwa [show k + 1 + j = k + (j + 1) by omega] at this
    · exact Or.inr ⟨j + 1, by simpa using hj, by simpa using hp, by rwa [show k + (j + 1) = k + 1 + j by omega]⟩

/-- **C37 (constructor).** `ChemicalSubstitution` takes exactly the lists that pair every target with a substitute; any
other lists raise an AssertionError. -/
theorem C37_constructor (target substitute : List ℤ) (frac : K) :
    (target.length = substitute.length → ∃ t, Post.mkSubst target substitute frac = .ok t) ∧
      (target.length ≠ substitute.length → Post.mkSubst target substitute frac = .error .assertion) := by
  unfold Post.mkSubst
  exact ⟨fun h => ⟨_, if_pos h⟩, fun h => if_neg h⟩

/-- A list of two targets with one substitute is refused. -/
example : Post.mkSubst [1, 2] [3] (1 / 2 : ℚ) = .error .assertion := (C37_constructor [1, 2] [3] _).2 (by decide)

/-- **C37.** Chemical substitution keeps all positions and the number of atoms.  At each position the species is
unchanged, or it was a target in the original array and became a substitute paired with that target; substitutions
therefore never chain.  Holds for every random stream. -/
theorem C37_only_targets_change (target substitute : List ℤ) (frac : K) (t : Post K)
    (ht : Post.mkSubst target substitute frac = .ok t) (rng : ℕ → ℕ → ℕ → K) (n : ℕ) (ps : List (V3 K)) (zs : List ℤ) :
    (t.run rng n ps zs).2.1 = ps ∧ (t.run rng n ps zs).2.2.length = zs.length ∧
    ∀ i, (hi : i < zs.length) → ∃ z, (t.run rng n ps zs).2.2[i]? = some z ∧
      (z = zs[i] ∨ ∃ j, ∃ h1 : j < target.length, ∃ h2 : j < substitute.length, target[j] = zs[i] ∧ substitute[j] = z) := by
  unfold Post.mkSubst at ht
  split_ifs at ht with hlen
  cases ht
  have hrun : (Post.subst target substitute frac).run rng n ps zs =
    (n + 1, ps, Post.replaceSpecies target substitute frac (rng n) zs) := by rw [Post.run]
  rw [hrun]
  refine ⟨rfl, substLoop_length _ _ _ _ _ _ rfl, fun i hi => ?_⟩
  obtain ⟨z, hz, hc⟩ := substLoop_get frac (rng n) zs (target.zip substitute) 0 zs rfl i hi
  refine ⟨z, hz, ?_⟩
  rcases hc with ⟨h1, -⟩ | ⟨j, hj, hp, -⟩
  · exact Or.inl h1
  · have hj' : j < target.length ∧ j < substitute.length := by simpa using hj
    simp only [List.getElem_zip, Prod.mk.injEq] at hp
    exact Or.inr ⟨j, hj'.1, hj'.2, hp.1, hp.2⟩

/-- **C37 (fraction one).** If no draw exceeds the fraction (in particular fraction 1 with draws in [0,1)), every atom
whose species is a target is replaced by a substitute of that target. -/
theorem C37_fraction_one (target substitute : List ℤ) (frac : K) (t : Post K)
    (ht : Post.mkSubst target substitute frac = .ok t) (rng : ℕ → ℕ → ℕ → K) (hr : ∀ n k i, rng n k i ≤ frac)
    (n : ℕ) (ps : List (V3 K)) (zs : List ℤ) (i : ℕ) (hi : i < zs.length) (hmem : zs[i] ∈ target) :
    ∃ z, (t.run rng n ps zs).2.2[i]? = some z ∧
      ∃ j, ∃ h1 : j < target.length, ∃ h2 : j < substitute.length, target[j] = zs[i] ∧ substitute[j] = z := by
  unfold Post.mkSubst at ht
  split_ifs at ht with hlen
  cases ht
  have hrun : (Post.subst target substitute frac).run rng n ps zs =
    (n + 1, ps, Post.replaceSpecies target substitute frac (rng n) zs) := by rw [Post.run]
  rw [hrun]
  obtain ⟨z, hz, hc⟩ := substLoop_get frac (rng n) zs (target.zip substitute) 0 zs rfl i hi
  refine ⟨z, hz, ?_⟩
  rcases hc with ⟨-, hno⟩ | ⟨j, hj, hp, -⟩
  · obtain ⟨j, hj, hjt⟩ := List.mem_iff_getElem.mp hmem
    have := hno j (by simp [hj, ← hlen]) (by simpa using hjt)
    exact absurd (hr n (0 + j) i) (not_le.mpr this)
  · have hj' : j < target.length ∧ j < substitute.length := by simpa using hj
    simp only [List.getElem_zip, Prod.mk.injEq] at hp
    exact ⟨j, hj'.1, hj'.2, hp.1, hp.2⟩

/-- **C37 (fraction below every draw).** If every draw exceeds the fraction nothing changes. -/
theorem C37_no_draw_no_change (target substitute : List ℤ) (frac : K) (t : Post K)
    (ht : Post.mkSubst target substitute frac = .ok t) (rng : ℕ → ℕ → ℕ → K) (hr : ∀ n k i, frac < rng n k i)
    (n : ℕ) (ps : List (V3 K)) (zs : List ℤ) : (t.run rng n ps zs).2 = (ps, zs) := by
  unfold Post.mkSubst at ht
  split_ifs at ht with hlen
  cases ht
  have hrun : (Post.subst target substitute frac).run rng n ps zs =
    (n + 1, ps, Post.replaceSpecies target substitute frac (rng n) zs) := by rw [Post.run]
  rw [hrun]
  simp only [Prod.mk.injEq, true_and]
  apply List.ext_getElem?
  intro i
  by_cases hi : i < zs.length
  · obtain ⟨z, hz, hc⟩ := substLoop_get frac (rng n) zs (target.zip substitute) 0 zs rfl i hi
    rw [show Post.replaceSpecies target substitute frac (rng n) zs =
      Post.substLoop frac (rng n) zs 0 (target.zip substitute) zs from rfl, hz, List.getElem?_eq_getElem hi]
    rcases hc with ⟨h1, -⟩ | ⟨j, hj, hp, hd⟩
    · rw [h1]
    · exact absurd hd (not_le.mpr (hr _ _ _))
  · rw [List.getElem?_eq_none (by
      rw [show (Post.replaceSpecies target substitute frac (rng n) zs).length = zs.length from
        substLoop_length _ _ _ _ _ _ rfl]; omega), List.getElem?_eq_none (by omega)]

/-- Substitutions and sequences of them, nested in any way. -/
inductive OnlySubst : Post K → Prop
  | subst (t s f) : OnlySubst (.subst t s f)
  | seq (ts) (h : ∀ t ∈ ts, OnlySubst t) : OnlySubst (.seq ts)

/-- **C37 (sequences).** A PostSequence of substitutions never moves, adds or drops atoms. -/
theorem C37_sequences_keep_atoms (t : Post K) (h : OnlySubst t) (rng : ℕ → ℕ → ℕ → K) :
    ∀ (n : ℕ) (ps : List (V3 K)) (zs : List ℤ),
    (t.run rng n ps zs).2.1 = ps ∧ (t.run rng n ps zs).2.2.length = zs.length := by
  induction h with
  | subst t s f =>
    intro n ps zs
    rw [Post.run]
    exact ⟨rfl, substLoop_length _ _ _ _ _ _ rfl⟩
  | seq ts h ih =>
    intro n ps zs
    rw [Post.run]
    clear h
    induction ts generalizing n ps zs with
    | nil => rw [Post.runList]; exact ⟨rfl, rfl⟩
    | cons t ts iht =>
      rw [Post.runList]
      obtain ⟨h1, h2⟩ := ih t List.mem_cons_self n ps zs
      obtain ⟨h3, h4⟩ := iht (fun x hx => ih x (List.mem_cons_of_mem _ hx)) (t.run rng n ps zs).1 (t.run rng n ps zs).2.1 (t.run rng n ps zs).2.2
      exact ⟨h3.trans h1, h4.trans h2⟩

end

/-- Non-vacuity of C37, and no chaining: with 1->2 and 2->3 at fraction 1 the array [1,2,5] becomes [2,3,5]. -/
example : Post.mkSubst [1, 2] [2, 3] (1 : ℚ) = .ok (.subst [1, 2] [2, 3] 1) ∧
    Post.replaceSpecies [1, 2] [2, 3] (1 : ℚ) (fun _ _ => 1/2) [1, 2, 5] = [2, 3, 5] := by
  refine ⟨rfl, by decide +kernel⟩

/-! ## C38 -/

section
variable {K : Type} [Field K] [LinearOrder K] [IsStrictOrderedRing K] [FloorRing K]

/-- **C38 (partial).** Every site of the unstrained crystal lying in the box is supplied, displaced by the strain.
Missing from C38: sites that lie in the box only after straining (`C38_strained_fills_refuted`). -/
theorem C38_strained_fills_partial (g : Gen K) (v : Voxel K) (sites : List (V3 K × ℤ)) (st : HStrain K)
    (hg : Gen.Plain { g with strain := none } v sites) (hst : g.strain = some st)
    (hs : FracNearCell sites) (rng : ℕ → ℕ → ℕ → K) (bbox : List (V3 K)) (ps : List (V3 K)) (zs : List ℤ)
    (h : (g.supply rng bbox).2 = .ok (ps, zs)) (a : V3 K × ℤ) (ha : a ∈ Crystal v.sbases v.origin sites)
    (hin : a.1 ∈ Region bbox) :
    ∃ q, (st.scrape v.sbases v.origin).applyPt a.1 = .ok q ∧ (q, a.2) ∈ ps.zip zs := by
  have hg' := hg
  obtain ⟨h1, ⟨L, h2⟩, -, h4⟩ := hg
  simp only at h1 h2 h4
  unfold Gen.supply at h
  rw [h1] at h
  simp only at h
  cases he : v.getExtents bbox with
  | error e => rw [he] at h; simp at h
  | ok r =>
    obtain ⟨lo, hi⟩ := r
    rw [he, h2, h4, hst] at h
    simp only at h
    cases hr : Gen.rawAtoms v sites bbox with
    | error e => rw [hr] at h; simp at h
    | ok atoms =>
      rw [hr] at h
      simp only at h
      have hplain : ((({ g with strain := none } : Gen K)).supply rng bbox).2 = .ok (atoms.map Atom.pos, atoms.map Atom.Z) := by
        rw [Gen.supply_plain hg', hr]; rfl
      have hmem := C30_fills_region_partial _ v sites hg' hs rng bbox _ _ hplain a ha hin
      cases hap : (st.scrape v.sbases v.origin).apply (atoms.map Atom.pos) with
      | error e => rw [hap] at h; simp at h
      | ok qs =>
        rw [hap] at h
        simp only [Except.ok.injEq, Prod.mk.injEq] at h
        obtain ⟨rfl, rfl⟩ := h
        have hmap : (atoms.map Atom.pos).mapM (st.scrape v.sbases v.origin).applyPt = .ok qs := by
          unfold HStrain.apply at hap
          repeat' split at hap
          all_goals first | exact hap | cases hap
        have hF := mapM_length hmap
        clear hap hmap hplain hr
        generalize atoms.map Atom.pos = l at hF hmem
        generalize atoms.map Atom.Z = z at hmem
        induction hF generalizing z with
        | nil => simp at hmem
        | cons hx _ ih =>
          cases z with
          | nil => simp at hmem
          | cons c z =>
            rw [List.zip_cons_cons, List.mem_cons] at hmem
            rcases hmem with rfl | hmem
            · exact ⟨_, hx, by simp⟩
            · obtain ⟨q, hq, hq2⟩ := ih z hmem
              exact ⟨q, hq, List.mem_cons_of_mem _ hq2⟩

end

/-- **C38, finding.** Simple cubic cell strained by 1/2: the strained crystal has a site at (1,0,0) (the image of (2,0,0)),
which lies in the requested box, but the box is only filled with cells that cover it before straining. -/
theorem C38_strained_fills_refuted :
    ∃ (g : Gen ℚ) (v : Voxel ℚ) (sites : List (V3 ℚ × ℤ)) (st : HStrain ℚ) (bbox ps : List (V3 ℚ)) (zs : List ℤ),
      Gen.Plain { g with strain := none } v sites ∧ g.strain = some st ∧ FracNearCell sites ∧
      (g.supply (fun _ _ _ => 0) bbox).2 = .ok (ps, zs) ∧
      ∃ a ∈ Crystal v.sbases v.origin sites, ∃ q, (st.scrape v.sbases v.origin).applyPt a.1 = .ok q ∧
        q ∈ Region bbox ∧ (q, a.2) ∉ ps.zip zs := by
  refine ⟨⟨some ⟨1, [(⟨0, 0, 0⟩, 6)]⟩, some ⟨1, .scalar 1, 0⟩,
      some ⟨⟨1/2, 0, 0, 0, 1/2, 0, 0, 0, 1/2⟩, "crystal", 0, true, none⟩, none⟩,
    ⟨1, .scalar 1, 0⟩, [(⟨0, 0, 0⟩, 6)], ⟨⟨1/2, 0, 0, 0, 1/2, 0, 0, 0, 1/2⟩, "crystal", 0, true, none⟩, [⟨1, 0, 0⟩],
    [⟨1/2, 0, 0⟩], [6], ⟨rfl, ⟨1, rfl⟩, rfl, rfl⟩, rfl, ?_, by decide +kernel, (⟨2, 0, 0⟩, 6), ?_, ⟨1, 0, 0⟩, by decide +kernel,
    subset_convexHull _ _ (by simp), by decide +kernel⟩
  · intro f hf; fin_cases hf; norm_num
  · exact ⟨⟨2, 0, 0⟩, _, List.mem_singleton.mpr rfl, by decide +kernel⟩

end CZ
