import Verif.Props.AdsorbateFilters

/-!
# Property C68, second part: the placement
-/

namespace CZ
open Spec Ads Surf

theorem properRotation_mul {A B : M3 ℝ} (ha : ProperRotation A) (hb : ProperRotation B) : ProperRotation (A * B) := by
  refine ⟨?_, by rw [M3.det_mul, ha.2, hb.2, one_mul]⟩
  unfold Orthogonal
  have h1 := ha.1
  have h2 := hb.1
  unfold Orthogonal at h1 h2
  have : (A * B).transpose * (A * B) = B.transpose * (A.transpose * A) * B := by
    ext <;> simp only [M3.transpose, M3.mul_def] <;> ring
  rw [this, h1]
  have : B.transpose * 1 * B = B.transpose * B := by
    ext <;> simp only [M3.transpose, M3.mul_def, M3.one_def] <;> ring
  rw [this, h2]

/-- `set_origin(idx=...)` makes the atom with that index the origin. -/
theorem origin_of_idx (mol m1 : Mol ℝ) (x : MolVal ℝ) (i : ℤ) (hx : x.asInt = some i) (h : mol.setOriginByIdx x = (m1, .ok ())) :
    m1 = { mol with tracking := true, originIdx := some i } ∧ |i| < (mol.atoms.length : ℤ) ∧
      ∃ o, mol.atoms[(position mol.atoms.length i).toNat]? = some o ∧ m1.origin = .ok o := by
  have h1 : mol.setOriginByIdx x = Mol.setOriginIdx { mol with tracking := true } x := by
    cases x <;> first | rfl | cases hx
  rw [h1] at h
  unfold Mol.setOriginIdx at h
  rw [hx] at h
  simp only at h
  split at h
  · rename_i hlt
    obtain ⟨rfl, -⟩ := Prod.mk.inj h
    refine ⟨rfl, hlt, ?_⟩
    have hb := abs_lt.mp hlt
    have hp : (position mol.atoms.length i).toNat < mol.atoms.length := by
      unfold position; split_ifs <;> omega
    refine ⟨mol.atoms[(position mol.atoms.length i).toNat], List.getElem?_eq_getElem hp, ?_⟩
    unfold Mol.origin
    simp only [if_true]
    rw [normIdx_of (by omega) hb.2]
    exact pyGet_ok hp
  · obtain ⟨-, h2⟩ := Prod.mk.inj h
    cases h2

/-- **C68 (placement).** The molecule that results is the image of the given one under a rotation followed by a translation, with the
same species, priority and orientation; the bonding atom is at `target + bond * normal`. -/
theorem C68_place (mol m' : Mol ℝ) (hl : mol.species.length = mol.atoms.length) (x : MolVal ℝ) (i : ℤ) (hx : x.asInt = some i)
    (molVector : V3 ℝ) (molRotation bond : ℝ) (target normal : V3 ℝ)
    (h : place mol x molVector molRotation bond target normal = .ok m') :
    ∃ (R : M3 ℝ) (s : V3 ℝ), ProperRotation R ∧ m'.atoms = mol.atoms.map (fun p => R.mulVec p + s) ∧ m'.species = mol.species ∧
      m'.priority = mol.priority ∧ m'.orientation = mol.orientation ∧
      m'.atoms[(position mol.atoms.length i).toNat]? = some (target + bond • normal) ∧
      ∃ R1 R2, Tr.rotVtv (mol.orientation.mulVec molVector) normal = .ok R1 ∧ Tr.rotV normal molRotation = .ok R2 ∧ R = R2 * R1 := by
  unfold place at h
  simp only [Mol.fromMolecule] at h
  cases h1 : mol.setOriginByIdx x with
  | mk m1 r1 =>
  rw [h1] at h
  cases r1 with
  | error e => cases h
  | ok u1 =>
  cases u1
  simp only at h
  obtain ⟨hm1, -, o, ho, ho1⟩ := origin_of_idx mol m1 x i hx h1
  have e1 : m1.atoms = mol.atoms ∧ m1.species = mol.species ∧ m1.priority = mol.priority ∧ m1.orientation = mol.orientation := by
    rw [hm1]; exact ⟨rfl, rfl, rfl, rfl⟩
  cases hr1 : Tr.rotVtv (m1.orientation.mulVec molVector) normal with
  | error e => rw [hr1] at h; cases h
  | ok R1 =>
  rw [hr1] at h
  simp only [ho1] at h
  cases ht1 : Tr.mkRotation R1 (some o) true false with
  | error e => rw [ht1] at h; cases h
  | ok t1 =>
  rw [ht1] at h
  simp only at h
  obtain rfl := mkRotation_ok ht1
  obtain ⟨m2, h2, a2, s2, p2, q2, o2⟩ := Mol.C75_origin_moves m1 (by rw [e1.1, e1.2.1]; exact hl) o ho1 (.matrix .rotation R1 (some o) true false)
  rw [h2] at h
  simp only at h
  cases hr2 : Tr.rotV normal molRotation with
  | error e => rw [hr2] at h; cases h
  | ok R2 =>
  rw [hr2] at h
  simp only [o2] at h
  generalize hO2 : (Tr.apply (.matrix .rotation R1 (some o) true false) o) = O2 at h o2
  cases ht2 : Tr.mkRotation R2 (some O2) true false with
  | error e => rw [ht2] at h; cases h
  | ok t2 =>
  rw [ht2] at h
  simp only at h
  obtain rfl := mkRotation_ok ht2
  obtain ⟨m3, h3, a3, s3, p3, q3, o3⟩ := Mol.C75_origin_moves m2 (by rw [a2, s2, List.length_map, e1.1, e1.2.1]; exact hl) O2 o2
    (.matrix .rotation R2 (some O2) true false)
  rw [h3] at h
  simp only [o3] at h
  generalize hO3 : (Tr.apply (.matrix .rotation R2 (some O2) true false) O2) = O3 at h o3
  obtain ⟨m4, h4, a4, s4, p4, q4, o4⟩ := Mol.C75_origin_moves m3 (by
    rw [a3, s3, List.length_map, a2, s2, List.length_map, e1.1, e1.2.1]; exact hl) O3 o3
    (.translation (target + bond • normal - O3) true false)
  rw [h4] at h
  simp only at h
  obtain rfl := Except.ok.inj h
  have hP1 : ProperRotation R1 := C45_result_is_rotation _ _ _ hr1
  have hP2 : ProperRotation R2 := by
    by_cases hn : normal = 0
    · subst hn
      unfold Tr.rotV at hr2
      rw [if_pos ((norm3_eq_zero 0).mpr rfl)] at hr2
      cases hr2
    · obtain ⟨R, h5, h6, -⟩ := C45_rot_v normal molRotation hn
      rw [hr2] at h5
      obtain rfl := Except.ok.inj h5
      exact h6
  have hat : m4.atoms = mol.atoms.map (fun p => (R2 * R1).mulVec p +
      (target + bond • normal - O3 + O2 + R2.mulVec (o - R1.mulVec o - O2))) := by
    rw [a4, a3, a2, e1.1, List.map_map, List.map_map]
    apply List.map_congr_left
    intro p _
    simp only [Function.comp, Tr.apply, Tr.matApply]
    ext <;> simp only [M3.mulVec, M3.mul_def, V3.add_x, V3.add_y, V3.add_z, V3.sub_x, V3.sub_y, V3.sub_z] <;> ring
  refine ⟨R2 * R1, _, properRotation_mul hP2 hP1, hat, ?_, ?_, ?_, ?_, R1, R2, ?_, rfl, rfl⟩
  · rw [s4, s3, s2, e1.2.1]
  · rw [p4, p3, p2, e1.2.2.1]
  · rw [q4, q3, q2, e1.2.2.2]
  · rw [a4, a3, a2, e1.1, List.map_map, List.map_map, List.getElem?_map, ho]
    simp only [Option.map_some, Function.comp, hO2, hO3]
    congr 1
    simp only [Tr.apply]
    ext <;> simp
  · rw [← e1.2.2.2]; exact hr1

theorem mkRotation_of_proper {R : M3 ℝ} (h : ProperRotation R) (o : Option (V3 ℝ)) (l b : Bool) :
    Tr.mkRotation R o l b = .ok (.matrix .rotation R o l b) := by
  obtain ⟨t, ht⟩ := ((C40_no_improper R o l b).2 h.1).mpr h
  rw [ht, mkRotation_ok ht]

/-- **C68 (placement succeeds)** for every atom index of the molecule whenever `rot_vtv` gives a matrix. -/
theorem C68_place_ok (mol : Mol ℝ) (hl : mol.species.length = mol.atoms.length) (x : MolVal ℝ) (i : ℤ) (hx : x.asInt = some i)
    (hi : |i| < (mol.atoms.length : ℤ)) (molVector : V3 ℝ) (molRotation bond : ℝ) (target normal : V3 ℝ) (hn : normal ≠ 0)
    (R1 : M3 ℝ) (hR : Tr.rotVtv (mol.orientation.mulVec molVector) normal = .ok R1) :
    ∃ m', place mol x molVector molRotation bond target normal = .ok m' := by
  have h1 : mol.setOriginByIdx x = ({ mol with tracking := true, originIdx := some i }, .ok ()) := by
    have h1 : mol.setOriginByIdx x = Mol.setOriginIdx { mol with tracking := true } x := by
      cases x <;> first | rfl | cases hx
    rw [h1]
    unfold Mol.setOriginIdx
    rw [hx]
    simp only [hi, if_true]
  generalize hm1 : ({ mol with tracking := true, originIdx := some i } : Mol ℝ) = m1 at h1
  obtain ⟨-, -, o, -, ho1⟩ := origin_of_idx mol m1 x i hx h1
  have e1 : m1.atoms = mol.atoms ∧ m1.species = mol.species ∧ m1.orientation = mol.orientation := by
    rw [← hm1]; exact ⟨rfl, rfl, rfl⟩
  obtain ⟨m2, h2, a2, s2, -, -, o2⟩ := Mol.C75_origin_moves m1 (by rw [e1.1, e1.2.1]; exact hl) o ho1 (.matrix .rotation R1 (some o) true false)
  obtain ⟨R2, hR2, hP2, -⟩ := C45_rot_v normal molRotation hn
  obtain ⟨m3, h3, a3, s3, -, -, o3⟩ := Mol.C75_origin_moves m2 (by rw [a2, s2, List.length_map, e1.1, e1.2.1]; exact hl) _ o2
    (.matrix .rotation R2 (some (Tr.apply (.matrix .rotation R1 (some o) true false) o)) true false)
  obtain ⟨m4, h4, -⟩ := Mol.C75_origin_moves m3 (by
    rw [a3, s3, List.length_map, a2, s2, List.length_map, e1.1, e1.2.1]; exact hl) _ o3
    (.translation (target + bond • normal - (Tr.apply (.matrix .rotation R2 (some (Tr.apply (.matrix .rotation R1 (some o) true false) o)) true false)
      (Tr.apply (.matrix .rotation R1 (some o) true false) o))) true false)
  refine ⟨m4, ?_⟩
  unfold place
  simp only [Mol.fromMolecule, h1, e1.2.2, hR, ho1, mkRotation_of_proper (C45_result_is_rotation _ _ _ hR), h2, hR2, o2,
    mkRotation_of_proper hP2, h3, o3, h4]

/-- **C68 (direction).** Whenever the placement succeeds, the requested vector of the molecule ends up along the normal: the unit vectors
differ by less than two machine epsilons (for which inputs it succeeds: `C68_place_ok`, `C45_returns_iff`). -/
theorem C68_direction (mol m' : Mol ℝ) (hl : mol.species.length = mol.atoms.length) (x : MolVal ℝ) (i : ℤ) (hx : x.asInt = some i)
    (molVector : V3 ℝ) (molRotation bond : ℝ) (target normal : V3 ℝ)
    (h : place mol x molVector molRotation bond target normal = .ok m') :
    ∃ (R : M3 ℝ) (s : V3 ℝ), ProperRotation R ∧ m'.atoms = mol.atoms.map (fun p => R.mulVec p + s) ∧
      Spec.dist ((norm3 (mol.orientation.mulVec molVector))⁻¹ • R.mulVec (mol.orientation.mulVec molVector)) ((norm3 normal)⁻¹ • normal) <
        2 * machEps := by
  obtain ⟨R, s, h1, h2, -, -, -, -, R1, R2, h3, h4, rfl⟩ := C68_place mol m' hl x i hx molVector molRotation bond target normal h
  obtain ⟨h5, -, h6⟩ := C45_returns_iff (mol.orientation.mulVec molVector) normal
  obtain ⟨-, hn, -⟩ := h5.mp ⟨R1, h3⟩
  obtain ⟨h7, h8⟩ := h6 R1 h3
  obtain ⟨R2', h9, h10, h11⟩ := C45_rot_v normal molRotation hn
  rw [h4] at h9
  obtain rfl := Except.ok.inj h9
  refine ⟨_, s, h1, h2, ?_⟩
  have h12 : (norm3 (mol.orientation.mulVec molVector))⁻¹ • (R2 * R1).mulVec (mol.orientation.mulVec molVector) =
      R2.mulVec ((norm3 (mol.orientation.mulVec molVector))⁻¹ • R1.mulVec (mol.orientation.mulVec molVector)) := by
    ext <;> simp only [M3.mulVec, M3.mul_def, V3.smul_x, V3.smul_y, V3.smul_z] <;> ring
  have h13 : (norm3 normal)⁻¹ • normal = R2.mulVec ((norm3 normal)⁻¹ • normal) := by
    have : R2.mulVec ((norm3 normal)⁻¹ • normal) = (norm3 normal)⁻¹ • R2.mulVec normal := by
      ext <;> simp only [M3.mulVec, V3.smul_x, V3.smul_y, V3.smul_z] <;> ring
    rw [this, h11]
  rw [h12, h13, dist_eq]
  rw [dist_eq] at h8
  have h14 : ∀ a b : V3 ℝ, R2.mulVec a - R2.mulVec b = R2.mulVec (a - b) := by
    intro a b
    ext <;> simp only [M3.mulVec, V3.sub_x, V3.sub_y, V3.sub_z] <;> ring
  rw [h14, orth_norm h10.1]
  exact h8

/-- **C68 (direction, exact).** The alignment is exact unless the angle is within machine precision of 0 or of two right angles (without
being exactly that). -/
theorem C68_direction_exact (mol m' : Mol ℝ) (hl : mol.species.length = mol.atoms.length) (x : MolVal ℝ) (i : ℤ) (hx : x.asInt = some i)
    (molVector : V3 ℝ) (molRotation bond : ℝ) (target normal : V3 ℝ)
    (h : place mol x molVector molRotation bond target normal = .ok m')
    (ha : SameDirection (mol.orientation.mulVec molVector) normal ∨ SameDirection (-mol.orientation.mulVec molVector) normal ∨
      (machEps ≤ angle (mol.orientation.mulVec molVector) normal ∧ machEps ≤ Real.pi - angle (mol.orientation.mulVec molVector) normal)) :
    ∃ (R : M3 ℝ) (s : V3 ℝ), ProperRotation R ∧ m'.atoms = mol.atoms.map (fun p => R.mulVec p + s) ∧
      SameDirection (R.mulVec (mol.orientation.mulVec molVector)) normal := by
  obtain ⟨R, s, h1, h2, -, -, -, -, R1, R2, h3, h4, rfl⟩ := C68_place mol m' hl x i hx molVector molRotation bond target normal h
  obtain ⟨hv, hn, hno⟩ := (C45_returns_iff (mol.orientation.mulVec molVector) normal).1.mp ⟨R1, h3⟩
  obtain ⟨R1', h5, -, h6⟩ := C45_aligns_partial _ normal hv hn (by
    rcases ha with ha | ha | ha
    · exact .inl ha
    · refine .inr (.inr ⟨ha, fun hax => hno ⟨hax, ?_⟩⟩)
      obtain ⟨c, hc, rfl⟩ := ha
      have hnv := (norm3_pos _).mpr hv
      have e : (mol.orientation.mulVec molVector).dot (c • -mol.orientation.mulVec molVector) /
          (norm3 (mol.orientation.mulVec molVector) * norm3 (c • -mol.orientation.mulVec molVector)) = -1 := by
        rw [norm3_smul, norm3_neg, abs_of_pos hc]
        have := norm3_sq (mol.orientation.mulVec molVector)
        have e2 : (mol.orientation.mulVec molVector).dot (c • -mol.orientation.mulVec molVector) = -(c * (mol.orientation.mulVec molVector).normSq) := by
          simp [V3.dot, V3.normSq]; ring
        rw [e2, ← this]
        field_simp
      rw [angle, e, Real.arccos_neg_one, sub_self]
      exact machEps_pos
    · exact .inr (.inl ha))
  rw [h3] at h5
  obtain rfl := Except.ok.inj h5
  obtain ⟨R2', h7, h8, h9⟩ := C45_rot_v normal molRotation hn
  rw [h4] at h7
  obtain rfl := Except.ok.inj h7
  refine ⟨_, s, h1, h2, ?_⟩
  obtain ⟨c, hc, h10⟩ := h6
  refine ⟨c, hc, ?_⟩
  have h11 : (R2 * R1).mulVec (mol.orientation.mulVec molVector) = R2.mulVec (R1.mulVec (mol.orientation.mulVec molVector)) := by
    ext <;> simp only [M3.mulVec, M3.mul_def] <;> ring
  have h12 : ∀ v : V3 ℝ, c • R2.mulVec v = R2.mulVec (c • v) := by
    intro v
    ext <;> simp only [M3.mulVec, V3.smul_x, V3.smul_y, V3.smul_z] <;> ring
  rw [h11, h12, ← h10, h9]

/-- **C68 fails for antiparallel directions along an axis**: when the vector of the molecule is a negative multiple of a coordinate
axis and the normal is the opposite direction, the placement raises for every molecule. -/
theorem C68_antiparallel_raises (mol : Mol ℝ) (x : MolVal ℝ) (i : ℤ) (hx : x.asInt = some i) (hi : |i| < (mol.atoms.length : ℤ))
    (molVector : V3 ℝ) (hv : NegativeAxis (mol.orientation.mulVec molVector)) (molRotation bond : ℝ) (target : V3 ℝ) :
    place mol x molVector molRotation bond target (-(mol.orientation.mulVec molVector)) = .error .assertion := by
  have h1 : mol.setOriginByIdx x = ({ mol with tracking := true, originIdx := some i }, .ok ()) := by
    have h1 : mol.setOriginByIdx x = Mol.setOriginIdx { mol with tracking := true } x := by
      cases x <;> first | rfl | cases hx
    rw [h1]
    unfold Mol.setOriginIdx
    rw [hx]
    simp only [hi, if_true]
  unfold place
  simp only [Mol.fromMolecule, h1, C45_all_negative_axes_refuted _ hv]

/-- A water molecule bonded by the oxygen, on a surface facing up. -/
example : ∃ m', place ⟨[⟨0, 0, 0⟩, ⟨1, 0, 0⟩, ⟨0, 1, 0⟩], [8, 1, 1], 0, 1, false, none, some 0, true⟩ (.int 0) ⟨0, 0, 1⟩ 1 2
    ⟨5, 5, 5⟩ ⟨0, 0, 1⟩ = .ok m' ∧ m'.atoms[0]? = some (⟨5, 5, 5⟩ + (2 : ℝ) • ⟨0, 0, 1⟩) := by
  have hz : (⟨0, 0, 1⟩ : V3 ℝ) ≠ 0 := by intro h; have := congrArg V3.z h; simp at this
  have ho : (1 : M3 ℝ).mulVec ⟨0, 0, 1⟩ = ⟨0, 0, 1⟩ := M3.mulVec_one _
  obtain ⟨R, hR, -⟩ := C45_aligns_partial ((1 : M3 ℝ).mulVec ⟨0, 0, 1⟩) ⟨0, 0, 1⟩ (by rw [ho]; exact hz) hz
    (.inl ⟨1, one_pos, by rw [ho]; ext <;> simp⟩)
  obtain ⟨m', h⟩ := C68_place_ok ⟨[⟨0, 0, 0⟩, ⟨1, 0, 0⟩, ⟨0, 1, 0⟩], [8, 1, 1], 0, 1, false, none, some 0, true⟩ rfl (.int 0) 0 rfl
    (by simp) ⟨0, 0, 1⟩ 1 2 ⟨5, 5, 5⟩ ⟨0, 0, 1⟩ hz R hR
  obtain ⟨-, -, -, -, -, -, -, h1, -⟩ := C68_place _ m' rfl (.int 0) 0 rfl _ _ _ _ _ h
  exact ⟨m', h, by simpa [position] using h1⟩

end CZ
