import Verif.UnitCell
import Verif.Spec.UnitCell
import Verif.Props.Generator

/-!
# C98, C99: the convenience constructors of Generator
-/

namespace CZ
open Spec

/-- The number whose arc cosine is the reciprocal angle, before clipping. -/
noncomputable def gammaStarCos (angs : V3 ℝ) : ℝ :=
  (Real.cos (radians angs.x) * Real.cos (radians angs.y) - Real.cos (radians angs.z)) /
    (Real.sin (radians angs.x) * Real.sin (radians angs.y))

theorem sin_deg_pos {t : ℝ} (h : 0 < t ∧ t < 180) : 0 < Real.sin (radians t) := by
  have hp := Real.pi_pos
  apply Real.sin_pos_of_pos_of_lt_pi
  · unfold radians; have := h.1; positivity
  · unfold radians; rw [div_lt_iff₀ (by norm_num)]; nlinarith [h.2]

theorem gammaStarCos_sq {dims angs : V3 ℝ} (h : ProperCell dims angs) : gammaStarCos angs ^ 2 < 1 := by
  have sa := sin_deg_pos h.angles.1
  have sb := sin_deg_pos h.angles.2.1
  have hv := h.volume
  have e1 := Real.sin_sq_add_cos_sq (radians angs.x)
  have e2 := Real.sin_sq_add_cos_sq (radians angs.y)
  unfold gammaStarCos
  rw [div_pow, div_lt_one (by positivity)]
  unfold radians at *
  set ca := Real.cos (angs.x * Real.pi / 180)
  set cb := Real.cos (angs.y * Real.pi / 180)
  set cg := Real.cos (angs.z * Real.pi / 180)
  rw [mul_pow, eq_sub_of_add_eq e1, eq_sub_of_add_eq e2]
  nlinarith

/-- The matrix in terms of sines and cosines, for a proper cell. -/
theorem latticeFromParameters_eq {dims angs : V3 ℝ} (h : ProperCell dims angs) :
    latticeFromParameters dims angs =
      ⟨dims.x * Real.sin (radians angs.y), 0, dims.x * Real.cos (radians angs.y),
       -dims.y * Real.sin (radians angs.x) * gammaStarCos angs,
       dims.y * Real.sin (radians angs.x) * Real.sqrt (1 - gammaStarCos angs ^ 2), dims.y * Real.cos (radians angs.x),
       0, 0, dims.z⟩ := by
  have hv := gammaStarCos_sq h
  have hb := abs_lt.mp ((sq_lt_one_iff_abs_lt_one _).mp hv)
  have hc : max (-1) (min 1 (gammaStarCos angs)) = gammaStarCos angs := by
    rw [min_eq_right hb.2.le, max_eq_right hb.1.le]
  unfold latticeFromParameters
  simp only
  have : (Real.cos (radians angs.x) * Real.cos (radians angs.y) - Real.cos (radians angs.z)) /
    (Real.sin (radians angs.x) * Real.sin (radians angs.y)) = gammaStarCos angs := rfl
  rw [this, hc, Real.cos_arccos hb.1.le hb.2.le, Real.sin_arccos]

/-- Check of the library formula: combinations of its rows have the lengths of the cell.  (Nothing about czone.) -/
theorem latticeFromParameters_rows {dims angs : V3 ℝ} (h : ProperCell dims angs) (d : V3 ℝ) :
    (d.x • (latticeFromParameters dims angs).row0 + d.y • (latticeFromParameters dims angs).row1
      + d.z • (latticeFromParameters dims angs).row2).normSq = cellNormSq dims angs d := by
  have sa := sin_deg_pos h.angles.1
  have sb := sin_deg_pos h.angles.2.1
  have hv := gammaStarCos_sq h
  have e1 := Real.sin_sq_add_cos_sq (radians angs.x)
  have e2 := Real.sin_sq_add_cos_sq (radians angs.y)
  have e3 : Real.sqrt (1 - gammaStarCos angs ^ 2) ^ 2 = 1 - gammaStarCos angs ^ 2 := Real.sq_sqrt (by linarith)
  have e4 : gammaStarCos angs * (Real.sin (radians angs.x) * Real.sin (radians angs.y)) =
      Real.cos (radians angs.x) * Real.cos (radians angs.y) - Real.cos (radians angs.z) := by
    unfold gammaStarCos; field_simp
  rw [latticeFromParameters_eq h]
  simp only [cellNormSq, V3.normSq, V3.dot, M3.row0, M3.row1, M3.row2, V3.add_x, V3.add_y, V3.add_z, V3.smul_x, V3.smul_y,
    V3.smul_z]
  change _ = (d.x * dims.x) ^ 2 + (d.y * dims.y) ^ 2 + (d.z * dims.z) ^ 2
    + 2 * (d.y * dims.y) * (d.z * dims.z) * Real.cos (radians angs.x)
    + 2 * (d.x * dims.x) * (d.z * dims.z) * Real.cos (radians angs.y)
    + 2 * (d.x * dims.x) * (d.y * dims.y) * Real.cos (radians angs.z)
  set v := gammaStarCos angs
  set sa' := Real.sin (radians angs.x)
  set sb' := Real.sin (radians angs.y)
  set ca := Real.cos (radians angs.x)
  set cb := Real.cos (radians angs.y)
  set cg := Real.cos (radians angs.z)
  set w := Real.sqrt (1 - v ^ 2)
  linear_combination (d.y * dims.y) ^ 2 * e1 + (d.x * dims.x) ^ 2 * e2 + (d.y * dims.y * sa') ^ 2 * e3
    - 2 * (d.x * dims.x) * (d.y * dims.y) * e4

theorem latticeFromParameters_det {dims angs : V3 ℝ} (h : ProperCell dims angs) :
    (latticeFromParameters dims angs).det ≠ 0 := by
  have sa := sin_deg_pos h.angles.1
  have sb := sin_deg_pos h.angles.2.1
  have hv := gammaStarCos_sq h
  have hw : 0 < Real.sqrt (1 - gammaStarCos angs ^ 2) := Real.sqrt_pos.mpr (by linarith)
  obtain ⟨l1, l2, l3⟩ := h.lengths
  rw [latticeFromParameters_eq h]
  have : (0 : ℝ) < dims.x * Real.sin (radians angs.y) * (dims.y * Real.sin (radians angs.x) *
    Real.sqrt (1 - gammaStarCos angs ^ 2)) * dims.z := by positivity
  apply ne_of_gt
  simp only [M3.det]
  linarith

/-! ## C98 -/

/-- **C98 (construction).** For a proper cell and as many species as coordinates the constructor succeeds; the generator
then spans space with the *columns* of the lattice matrix. -/
theorem C98_builds {dims angs : V3 ℝ} (h : ProperCell dims angs) (Z : List ℤ) (coords : List (V3 ℝ))
    (hl : Z.length = coords.length) (origin : Option (V3 ℝ)) :
    ∃ g, Gen.fromUnitCell Z coords dims angs origin none = .ok g ∧
      Gen.Plain g ⟨latticeFromParameters dims angs, .scalar 1, origin.getD 0⟩ (coords.zip Z) := by
  have hb := basesSet_of_det (latticeFromParameters_det h)
  cases origin with
  | none =>
    refine ⟨⟨some ⟨latticeFromParameters dims angs, coords.zip Z⟩, some ⟨latticeFromParameters dims angs, .scalar 1, 0⟩,
      none, none⟩, ?_, rfl, ⟨_, rfl⟩, rfl, rfl⟩
    simp only [Gen.fromUnitCell, structureOf, hl, if_true, Gen.make, Gen.setStructure, Voxel.make, hb]
    rfl
  | some o =>
    refine ⟨⟨some ⟨latticeFromParameters dims angs, coords.zip Z⟩, some ⟨latticeFromParameters dims angs, .scalar 1, o⟩,
      none, none⟩, ?_, rfl, ⟨_, rfl⟩, rfl, rfl⟩
    simp only [Gen.fromUnitCell, structureOf, hl, if_true, Gen.make, Gen.setStructure, Voxel.make, hb]
    rfl

/-- The generator returned determines its voxel. -/
theorem fromUnitCell_plain {dims angs : V3 ℝ} (h : ProperCell dims angs) {Z : List ℤ} {coords : List (V3 ℝ)}
    {origin : Option (V3 ℝ)} {g : Gen ℝ} (hg : Gen.fromUnitCell Z coords dims angs origin none = .ok g) :
    Gen.Plain g ⟨latticeFromParameters dims angs, .scalar 1, origin.getD 0⟩ (coords.zip Z) := by
  by_cases hl : Z.length = coords.length
  · obtain ⟨g', hg', hp⟩ := C98_builds h Z coords hl origin
    rw [hg] at hg'
    cases hg'
    exact hp
  · simp only [Gen.fromUnitCell, structureOf, if_neg hl] at hg
    cases hg

theorem siteAt_sub (L : M3 ℝ) (o : V3 ℝ) (n n' : V3 ℤ) (f f' : V3 ℝ) :
    siteAt (⟨L, .scalar 1, o⟩ : Voxel ℝ).sbases o n f - siteAt (⟨L, .scalar 1, o⟩ : Voxel ℝ).sbases o n' f' =
      L.mulVec (crystalCoords n f - crystalCoords n' f') := by
  ext <;> simp [siteAt, cart, Voxel.sbases, M3.smul_def, M3.col0, M3.col1, M3.col2, M3.mulVec, crystalCoords] <;> ring

theorem properCell_right {dims : V3 ℝ} (h : 0 < dims.x ∧ 0 < dims.y ∧ 0 < dims.z) : ProperCell dims ⟨90, 90, 90⟩ := by
  have e : Real.cos (90 * Real.pi / 180) = 0 := by
    rw [show (90 : ℝ) * Real.pi / 180 = Real.pi / 2 by ring]; exact Real.cos_pi_div_two
  refine ⟨h, by norm_num, ?_⟩
  simp only [e]
  norm_num

theorem cos_90 : Real.cos (radians 90) = 0 := by
  rw [show radians 90 = Real.pi / 2 by unfold radians; ring]; exact Real.cos_pi_div_two

theorem sin_90 : Real.sin (radians 90) = 1 := by
  rw [show radians 90 = Real.pi / 2 by unfold radians; ring]; exact Real.sin_pi_div_two

/-- Only the right angle has cosine zero. -/
theorem eq_90_of_cos {t : ℝ} (h : 0 < t ∧ t < 180) (hc : Real.cos (radians t) = 0) : t = 90 := by
  have hp := Real.pi_pos
  have h1 : radians t = Real.arccos 0 := by
    rw [← hc, Real.arccos_cos]
    · unfold radians; have := h.1; positivity
    · unfold radians; rw [div_le_iff₀ (by norm_num)]; nlinarith [h.2]
  rw [Real.arccos_zero] at h1
  unfold radians at h1
  have : Real.pi * (t - 90) = 0 := by linarith
  rcases mul_eq_zero.mp this with h | h
  · exact absurd h hp.ne'
  · linarith

/-- **C98 (refused).** Lists of species and coordinates of different lengths raise (pymatgen's ValueError), whatever the cell. -/
theorem C98_refused (dims angs : V3 ℝ) (Z : List ℤ) (coords : List (V3 ℝ)) (hl : Z.length ≠ coords.length) (origin : Option (V3 ℝ))
    (strain : Option (HStrain ℝ)) : Gen.fromUnitCell Z coords dims angs origin strain = .error .value := by
  unfold Gen.fromUnitCell structureOf
  rw [if_neg hl]

example : ([6, 7] : List ℤ).length ≠ ([0] : List (V3 ℝ)).length := by decide

/-- **C98 (exact condition).** For a proper cell the crystal spanned by the generator has the interatomic distances of
the cell iff all three angles are right. -/
theorem C98_distances_iff {dims angs : V3 ℝ} (h : ProperCell dims angs) (Z : List ℤ) (coords : List (V3 ℝ))
    (hne : coords.zip Z ≠ []) (origin : Option (V3 ℝ)) (g : Gen ℝ)
    (hg : Gen.fromUnitCell Z coords dims angs origin none = .ok g) (v : Voxel ℝ) (hv : g.voxel = some v) :
    (∀ (n n' : V3 ℤ), ∀ f ∈ coords.zip Z, ∀ f' ∈ coords.zip Z,
      (siteAt v.sbases v.origin n f.1 - siteAt v.sbases v.origin n' f'.1).normSq =
        cellNormSq dims angs (crystalCoords n f.1 - crystalCoords n' f'.1)) ↔ angs = ⟨90, 90, 90⟩ := by
  have hP := fromUnitCell_plain h hg
  obtain rfl : v = ⟨latticeFromParameters dims angs, .scalar 1, origin.getD 0⟩ := by
    have := hP.1
    rw [hv] at this
    exact Option.some.inj this
  have sa := sin_deg_pos h.angles.1
  have sb := sin_deg_pos h.angles.2.1
  obtain ⟨l1, l2, l3⟩ := h.lengths
  constructor
  · intro hd
    obtain ⟨f, hf⟩ := List.exists_mem_of_ne_nil _ hne
    have key : ∀ n : V3 ℤ, ((latticeFromParameters dims angs).mulVec ⟨n.x, n.y, n.z⟩).normSq =
        cellNormSq dims angs ⟨n.x, n.y, n.z⟩ := by
      intro n
      have := hd n 0 f hf f hf
      rw [siteAt_sub] at this
      have e : crystalCoords n f.1 - crystalCoords 0 f.1 = ⟨n.x, n.y, n.z⟩ := by
        ext <;> simp [crystalCoords]
      rwa [e] at this
    have kz := key ⟨0, 0, 1⟩
    have kx := key ⟨1, 0, 0⟩
    rw [latticeFromParameters_eq h] at kz kx
    simp only [cellNormSq, M3.mulVec, V3.normSq, V3.dot] at kz kx
    push_cast at kz kx
    have e1 := Real.sin_sq_add_cos_sq (radians angs.x)
    have e2 := Real.sin_sq_add_cos_sq (radians angs.y)
    have q : (dims.x * Real.cos (radians angs.y)) ^ 2 + (dims.y * Real.cos (radians angs.x)) ^ 2 = 0 := by
      linear_combination kz
    have q1 := sq_nonneg (dims.x * Real.cos (radians angs.y))
    have q2 := sq_nonneg (dims.y * Real.cos (radians angs.x))
    have z1 : dims.x * Real.cos (radians angs.y) = 0 := pow_eq_zero_iff (n := 2) (by norm_num) |>.mp (by linarith)
    have z2 : dims.y * Real.cos (radians angs.x) = 0 := pow_eq_zero_iff (n := 2) (by norm_num) |>.mp (by linarith)
    have cb : Real.cos (radians angs.y) = 0 := (mul_eq_zero.mp z1).resolve_left l1.ne'
    have ca : Real.cos (radians angs.x) = 0 := (mul_eq_zero.mp z2).resolve_left l2.ne'
    have sa1 : Real.sin (radians angs.x) = 1 := by
      rw [ca] at e1; nlinarith [sa]
    have sb1 : Real.sin (radians angs.y) = 1 := by
      rw [cb] at e2; nlinarith [sb]
    have cg : gammaStarCos angs = 0 := by
      rw [sa1, sb1] at kx
      have : (dims.y * gammaStarCos angs) ^ 2 = 0 := by linear_combination kx
      exact (mul_eq_zero.mp (pow_eq_zero_iff (by norm_num) |>.mp this)).resolve_left l2.ne'
    have cg' : Real.cos (radians angs.z) = 0 := by
      unfold gammaStarCos at cg
      rw [ca, cb, sa1, sb1] at cg
      simpa using cg
    have a1 := eq_90_of_cos h.angles.1 ca
    have a2 := eq_90_of_cos h.angles.2.1 cb
    have a3 := eq_90_of_cos h.angles.2.2 cg'
    ext <;> assumption
  · rintro rfl n n' f - f' -
    rw [siteAt_sub, latticeFromParameters_eq h]
    have hg0 : gammaStarCos ⟨90, 90, 90⟩ = 0 := by unfold gammaStarCos; simp [cos_90]
    generalize crystalCoords n f.1 - crystalCoords n' f'.1 = d
    have e : Real.cos (90 * Real.pi / 180) = 0 := cos_90
    simp only [cellNormSq, M3.mulVec, V3.normSq, V3.dot, hg0, cos_90, sin_90, e]
    norm_num
    ring

/-- **C98 (partial).** Atoms supplied by a generator made from a cell with right angles could have been cut from the
crystal described by the arguments.  Missing: every other cell, for which this fails (`C98_distances_iff`,
`C98_unit_cell_refuted`). -/
theorem C98_right_angles_partial (dims : V3 ℝ) (hd : 0 < dims.x ∧ 0 < dims.y ∧ 0 < dims.z) (Z : List ℤ)
    (coords : List (V3 ℝ)) (origin : Option (V3 ℝ)) (g : Gen ℝ)
    (hg : Gen.fromUnitCell Z coords dims ⟨90, 90, 90⟩ origin none = .ok g) (rng : ℕ → ℕ → ℕ → ℝ) (bbox : List (V3 ℝ))
    (ps : List (V3 ℝ)) (zs : List ℤ) (hs : (g.supply rng bbox).2 = .ok (ps, zs)) :
    CutFromCrystal dims ⟨90, 90, 90⟩ (coords.zip Z) ps zs := by
  have h := properCell_right hd
  have hP := fromUnitCell_plain h hg
  obtain ⟨lo, hi, -, idx, hnd, -, rfl, rfl⟩ := C29_enumerates_once g _ _ hP rng bbox ps zs hs
  refine ⟨idx, hnd, by simp, rfl, ?_⟩
  have hz : ∀ a ∈ (idx.map fun x => siteAt (⟨latticeFromParameters dims ⟨90, 90, 90⟩, .scalar 1, origin.getD 0⟩ :
      Voxel ℝ).sbases (origin.getD 0) x.1 ((coords.zip Z).get x.2).1).zip idx, a.1 =
        siteAt (⟨latticeFromParameters dims ⟨90, 90, 90⟩, .scalar 1, origin.getD 0⟩ :
      Voxel ℝ).sbases (origin.getD 0) a.2.1 ((coords.zip Z).get a.2.2).1 := by
    intro a ha
    rw [show idx = idx.map id by simp, List.map_map, List.zip_map'] at ha
    obtain ⟨x, -, rfl⟩ := List.mem_map.mp ha
    rfl
  intro a ha b hb
  rw [hz a ha, hz b hb]
  have hne : coords.zip Z ≠ [] := by
    intro e
    have h2 : (coords.zip Z).length = 0 := by rw [e]; rfl
    have h3 := a.2.2.2
    omega
  exact (C98_distances_iff h Z coords hne origin g hg _ hP.1).mpr rfl a.2.1 b.2.1 _ (List.get_mem _ _) _ (List.get_mem _ _)

/-- Hexagonal cell: a = b = 2, c = 4, angles 90, 90, 120. -/
theorem hexagonal_proper : ProperCell ⟨2, 2, 4⟩ ⟨90, 90, 120⟩ := by
  have e : Real.cos (90 * Real.pi / 180) = 0 := cos_90
  have e' : Real.cos (120 * Real.pi / 180) = -(1 / 2) := by
    rw [show (120 : ℝ) * Real.pi / 180 = Real.pi - Real.pi / 3 by ring, Real.cos_pi_sub, Real.cos_pi_div_three]
  refine ⟨by norm_num, by norm_num, ?_⟩
  simp only [e, e']
  norm_num

/-- **C98, finding.** A hexagonal cell with one atom, a = b = 2 and c = 4: the generator supplies two atoms at distance
√3, although no two atoms of that crystal are closer than 2. -/
theorem C98_unit_cell_refuted :
    ∃ g, Gen.fromUnitCell [6] [0] ⟨2, 2, 4⟩ ⟨90, 90, 120⟩ none none = .ok g ∧
      ∃ bbox ps zs, (∀ rng, (g.supply rng bbox).2 = .ok (ps, zs)) ∧
        (∃ p ∈ ps, ∃ q ∈ ps, (p - q).normSq = 3) ∧
        ¬ CutFromCrystal ⟨2, 2, 4⟩ ⟨90, 90, 120⟩ [(0, 6)] ps zs := by
  obtain ⟨g, hg, hP⟩ := C98_builds hexagonal_proper [6] [0] rfl none
  have e' : Real.cos (radians 120) = -(1 / 2) := by
    rw [show radians 120 = Real.pi - Real.pi / 3 by unfold radians; ring, Real.cos_pi_sub, Real.cos_pi_div_three]
  have hgs : gammaStarCos ⟨90, 90, 120⟩ = 1 / 2 := by
    unfold gammaStarCos; simp [cos_90, sin_90, e']
  set L := latticeFromParameters ⟨2, 2, 4⟩ ⟨90, 90, 120⟩ with hL
  have hLe : L = ⟨2, 0, 0, -1, 2 * Real.sqrt (1 - (1 / 2) ^ 2), 0, 0, 0, 4⟩ := by
    rw [hL, latticeFromParameters_eq hexagonal_proper]
    simp only [hgs, cos_90, sin_90]
    norm_num
  have hw : Real.sqrt (1 - (1 / 2 : ℝ) ^ 2) ^ 2 = 3 / 4 := by rw [Real.sq_sqrt (by norm_num)]; norm_num
  have hLd : L.det ≠ 0 := latticeFromParameters_det hexagonal_proper
  clear_value L
  let v : Voxel ℝ := ⟨L, .scalar 1, 0⟩
  have hdet : v.sbases.det ≠ 0 := by
    have : v.sbases = L := by
      show (1 : ℝ) • L = L
      ext <;> simp [M3.smul_def]
    rw [this]
    exact hLd
  let bbox : List (V3 ℝ) := [siteAt v.sbases 0 0 0, siteAt v.sbases 0 ⟨0, 1, 0⟩ 0]
  obtain ⟨out, hout⟩ := C29_supply_succeeds g _ _ hP (fun _ _ _ => 0) bbox hdet (by simp [bbox])
  obtain ⟨lo, hi, hx, idx, hnd, hidx, hps, hzs⟩ := C29_enumerates_once g _ _ hP (fun _ _ _ => 0) bbox out.1 out.2
    (by rw [hout])
  have h0 : InBlock lo hi ⟨((0 : ℤ) : ℝ) + 0, ((0 : ℤ) : ℝ) + 0, ((0 : ℤ) : ℝ) + 0⟩ :=
    C28_extents_cover v bbox lo hi hx _ (subset_convexHull _ _ (show _ ∈ bbox from List.mem_cons_self)) _ rfl
  have h1 : InBlock lo hi ⟨((0 : ℤ) : ℝ) + 0, ((1 : ℤ) : ℝ) + 0, ((0 : ℤ) : ℝ) + 0⟩ :=
    C28_extents_cover v bbox lo hi hx _ (subset_convexHull _ _
      (show _ ∈ bbox from List.mem_cons_of_mem _ (List.mem_singleton_self _))) _ rfl
  have m0 : ((0 : V3 ℤ), (0 : Fin 1)) ∈ idx := by
    refine (hidx _ _).mpr ?_
    obtain ⟨⟨a, b⟩, ⟨c, d⟩, e, f⟩ := h0
    simp only [add_zero, Int.cast_le] at a b c d e f
    exact ⟨⟨a, b⟩, ⟨c, d⟩, e, f⟩
  have m1 : ((⟨0, 1, 0⟩ : V3 ℤ), (0 : Fin 1)) ∈ idx := by
    refine (hidx _ _).mpr ?_
    obtain ⟨⟨a, b⟩, ⟨c, d⟩, e, f⟩ := h1
    simp only [add_zero, Int.cast_le] at a b c d e f
    exact ⟨⟨a, b⟩, ⟨c, d⟩, e, f⟩
  have hz : ∀ i : Fin ([(0 : V3 ℝ)].zip [(6 : ℤ)]).length, (([(0 : V3 ℝ)].zip [(6 : ℤ)]).get i).1 = 0 := by
    intro i
    have : i = ⟨0, Nat.zero_lt_one⟩ := Fin.ext (Nat.lt_one_iff.mp i.2)
    rw [this]
    rfl
  simp only [hz] at hps
  have p0 : siteAt v.sbases 0 0 0 ∈ out.1 := by rw [hps]; exact List.mem_map.mpr ⟨_, m0, rfl⟩
  have p1 : siteAt v.sbases 0 ⟨0, 1, 0⟩ 0 ∈ out.1 := by rw [hps]; exact List.mem_map.mpr ⟨_, m1, rfl⟩
  have hdist : (siteAt v.sbases 0 ⟨0, 1, 0⟩ 0 - siteAt v.sbases 0 0 0).normSq = 3 := by
    rw [siteAt_sub L 0, hLe]
    simp [crystalCoords, M3.mulVec, V3.normSq, V3.dot]
    nlinarith [hw]
  refine ⟨g, hg, bbox, out.1, out.2, fun rng => ?_, ⟨_, p1, _, p0, hdist⟩, ?_⟩
  · rw [Gen.supply_plain hP] at hout ⊢
    rw [hout]
  · rintro ⟨labels, -, hlen, -, hall⟩
    have hget : ∀ p ∈ out.1, ∃ l, (p, l) ∈ out.1.zip labels := by
      intro p hp
      obtain ⟨i, hi, rfl⟩ := List.getElem_of_mem hp
      refine ⟨labels[i]'(by omega), ?_⟩
      rw [List.mem_iff_getElem]
      exact ⟨i, by simp; omega, by simp⟩
    obtain ⟨l0, hl0⟩ := hget _ p0
    obtain ⟨l1, hl1⟩ := hget _ p1
    have := hall _ hl1 _ hl0
    rw [hdist] at this
    have f0 : ∀ i : Fin ([((0 : V3 ℝ), (6 : ℤ))]).length, ([((0 : V3 ℝ), (6 : ℤ))].get i).1 = 0 := by
      intro i; fin_cases i; rfl
    simp only [f0] at this
    have e1 : Real.cos (90 * Real.pi / 180) = 0 := cos_90
    have e2 : Real.cos (120 * Real.pi / 180) = -(1 / 2) := e'
    simp only [cellNormSq, crystalCoords, V3.sub_x, V3.sub_y, V3.sub_z, V3.zero_x, V3.zero_y, V3.zero_z, e1, e2] at this
    have h3 : (3 : ℝ) = ((4 * ((l1.1.x - l0.1.x) ^ 2 + (l1.1.y - l0.1.y) ^ 2 + 4 * (l1.1.z - l0.1.z) ^ 2
      - (l1.1.x - l0.1.x) * (l1.1.y - l0.1.y)) : ℤ) : ℝ) := by
      push_cast
      linear_combination this
    have h4 : (3 : ℤ) = 4 * ((l1.1.x - l0.1.x) ^ 2 + (l1.1.y - l0.1.y) ^ 2 + 4 * (l1.1.z - l0.1.z) ^ 2
      - (l1.1.x - l0.1.x) * (l1.1.y - l0.1.y)) := by exact_mod_cast h3
    omega

/-- Non-vacuity of C98: rock salt, two atoms in an orthorhombic cell, placed at an origin. -/
example : ∃ g, Gen.fromUnitCell [11, 17] [0, ⟨1/2, 1/2, 1/2⟩] ⟨3, 4, 5⟩ ⟨90, 90, 90⟩ (some ⟨1, 2, 3⟩) none = .ok g ∧
    g.voxel = some ⟨latticeFromParameters ⟨3, 4, 5⟩ ⟨90, 90, 90⟩, .scalar 1, ⟨1, 2, 3⟩⟩ := by
  obtain ⟨g, hg, hp⟩ := C98_builds (properCell_right (dims := ⟨3, 4, 5⟩) (by norm_num)) [11, 17]
    [0, ⟨1/2, 1/2, 1/2⟩] rfl (some ⟨1, 2, 3⟩)
  exact ⟨g, hg, hp.1⟩

/-! ## C99 -/

/-- **C99 (partial).** With only one of number and symbol, the generator is made from the expansion of the sites under
that group.  Missing: both given, where the documentation says that the number wins (`C99_symbol_wins`,
`C99_number_overrides_refuted`). -/
theorem C99_one_given_partial (sg : SpaceGroups) (Z : List ℤ) (coords : List (V3 ℝ)) (dims angs : V3 ℝ)
    (origin : Option (V3 ℝ)) (strain : Option (HStrain ℝ)) (n : ℤ) (sym : String)
    (hs : sg.symbolOf n = .ok sym) (hn : sg.numberOf sym = .ok n) (st : Struct ℝ)
    (he : sg.expand n (latticeFromParameters dims angs) Z coords = .ok st) :
    Gen.fromSpacegroup sg Z coords dims angs (some n) none origin strain = Gen.make origin (some st) strain ∧
    Gen.fromSpacegroup sg Z coords dims angs none (some sym) origin strain = Gen.make origin (some st) strain := by
  simp only [Gen.fromSpacegroup, hs, hn, he, and_self]

/-- **C99 (refused).** Without number and symbol ValueError; a number or symbol that the tables refuse raises what they raise. -/
theorem C99_refused (sg : SpaceGroups) (Z : List ℤ) (coords : List (V3 ℝ)) (dims angs : V3 ℝ)
    (origin : Option (V3 ℝ)) (strain : Option (HStrain ℝ)) :
    Gen.fromSpacegroup sg Z coords dims angs none none origin strain = .error .value ∧
    (∀ n e, sg.symbolOf n = .error e → Gen.fromSpacegroup sg Z coords dims angs (some n) none origin strain = .error e) ∧
    (∀ s e, sg.numberOf s = .error e → Gen.fromSpacegroup sg Z coords dims angs none (some s) origin strain = .error e) ∧
    ∀ s n e, sg.numberOf s = .ok n → sg.expand n (latticeFromParameters dims angs) Z coords = .error e →
      Gen.fromSpacegroup sg Z coords dims angs none (some s) origin strain = .error e := by
  refine ⟨rfl, fun n e h => ?_, fun s e h => ?_, fun s n e h1 h2 => ?_⟩
  · simp only [Gen.fromSpacegroup, h]
  · simp only [Gen.fromSpacegroup, h]
  · simp only [Gen.fromSpacegroup, h1, h2]

/-- **C99 (what happens instead).** Whenever a symbol is given the number is ignored. -/
theorem C99_symbol_wins (sg : SpaceGroups) (Z : List ℤ) (coords : List (V3 ℝ)) (dims angs : V3 ℝ)
    (origin : Option (V3 ℝ)) (strain : Option (HStrain ℝ)) (sgn : Option ℤ) (sym : String) :
    Gen.fromSpacegroup sg Z coords dims angs sgn (some sym) origin strain =
      Gen.fromSpacegroup sg Z coords dims angs none (some sym) origin strain := rfl

/-- Two entries of the tables: P1 keeps the sites, P-1 adds the inverted ones. -/
def twoGroups : SpaceGroups where
  symbolOf n := if n = 1 then .ok "P1" else if n = 2 then .ok "P-1" else .error .value
  numberOf s := if s = "P1" then .ok 1 else if s = "P-1" then .ok 2 else .error .value
  expand n L Z coords :=
    if n = 1 then .ok ⟨L, coords.zip Z⟩
    else .ok ⟨L, (coords.zip Z).flatMap fun f => [f, (-f.1, f.2)]⟩

/-- **C99, finding.** `from_spacegroup(..., sgn=2, sym="P1")` does not give the generator of `sgn=2`, although the
documentation says that sgn overrides sym: the inverted atom is missing. -/
theorem C99_number_overrides_refuted :
    ∃ g g', Gen.fromSpacegroup twoGroups [6] [⟨1/4, 0, 0⟩] ⟨2, 2, 2⟩ ⟨90, 90, 90⟩ (some 2) (some "P1") none none = .ok g ∧
      Gen.fromSpacegroup twoGroups [6] [⟨1/4, 0, 0⟩] ⟨2, 2, 2⟩ ⟨90, 90, 90⟩ (some 2) none none none = .ok g' ∧
      g.struct.map (fun s => s.sites.length) = some 1 ∧ g'.struct.map (fun s => s.sites.length) = some 2 := by
  have hb := basesSet_of_det (latticeFromParameters_det (properCell_right (dims := ⟨2, 2, 2⟩) (by norm_num)))
  refine ⟨⟨some ⟨latticeFromParameters ⟨2, 2, 2⟩ ⟨90, 90, 90⟩, [(⟨1/4, 0, 0⟩, 6)]⟩,
      some ⟨latticeFromParameters ⟨2, 2, 2⟩ ⟨90, 90, 90⟩, .scalar 1, 0⟩, none, none⟩,
    ⟨some ⟨latticeFromParameters ⟨2, 2, 2⟩ ⟨90, 90, 90⟩, [(⟨1/4, 0, 0⟩, 6), (-⟨1/4, 0, 0⟩, 6)]⟩,
      some ⟨latticeFromParameters ⟨2, 2, 2⟩ ⟨90, 90, 90⟩, .scalar 1, 0⟩, none, none⟩, ?_, ?_, rfl, rfl⟩
  · simp [Gen.fromSpacegroup, twoGroups, Gen.make, Gen.setStructure, Voxel.make, hb]
    rfl
  · simp [Gen.fromSpacegroup, twoGroups, Gen.make, Gen.setStructure, Voxel.make, hb]
    rfl

end CZ
