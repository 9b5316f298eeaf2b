import Verif.Recipes
import Verif.Props.PrefabDistance
import Verif.Props.PrefabReturns
import Verif.Props.Rotation
import Verif.Props.World

/-!
# Property C130: the worked examples of the documentation
-/

namespace CZ
open Spec

noncomputable section
open Classical

namespace Recipes
open Prefab

/-! ## planes of the defected particle -/

theorem npRound_third (i : ℤ) : npRound (-(i : ℝ) / 3) = -((i + 1) / 3) := by
  have h := npRound_near (K := ℝ) (-(i : ℝ) / 3)
  rw [abs_le] at h
  obtain ⟨h1, h2⟩ := h
  have e1 : -(3 : ℝ) ≤ 6 * npRound (-(i : ℝ) / 3) + 2 * i := by linarith
  have e2 : 6 * (npRound (-(i : ℝ) / 3) : ℝ) + 2 * i ≤ 3 := by linarith
  have f1 : -3 ≤ 6 * npRound (-(i : ℝ) / 3) + 2 * i := by exact_mod_cast e1
  have f2 : 6 * npRound (-(i : ℝ) / 3) + 2 * i ≤ 3 := by exact_mod_cast e2
  omega

theorem norm_111 : norm3 (⟨1, 1, 1⟩ : V3 ℝ) = √3 := by
  unfold norm3 V3.normSq V3.dot
  norm_num

theorem millerV_111 : millerV ⟨1, 1, 1⟩ = ⟨1, 1, 1⟩ := by simp [millerV]

/-- The direction (111) of a cubic cell. -/
def diagonal (a : ℝ) (B : M3 ℝ) : V3 ℝ := (a * √3)⁻¹ • B.mulVec ⟨1, 1, 1⟩

theorem diagonal_eq {a : ℝ} {B : M3 ℝ} (hB : CubicCell a B) {r : V3 ℝ} (hr : r = (a ^ 2)⁻¹ • B.mulVec (millerV ⟨1, 1, 1⟩)) :
    len r = √3 / a ∧ (len r)⁻¹ • r = diagonal a B ∧ (len r)⁻¹ = a / √3 := by
  have ha := hB.1
  have h3 : (0 : ℝ) < √3 := by positivity
  have hl : len r = √3 / a := by rw [hr, cubic_len hB, millerV_111, norm_111]
  refine ⟨hl, ?_, by rw [hl, inv_div]⟩
  rw [hl, hr, smul_smul, millerV_111]
  unfold diagonal
  congr 1
  field_simp

theorem below_ok {a : ℝ} {x : Voxel ℝ} (hB : CubicCell a x.sbases) (i : ℤ) :
    below x (a / √3) i = .ok (x.sbases.mulVec ⟨-(i : ℝ) / 3, -(i : ℝ) / 3, -(i : ℝ) / 3⟩) := by
  have ha := hB.1
  have h3 : (0 : ℝ) < √3 := by positivity
  have hs : √3 * √3 = (3 : ℝ) := Real.mul_self_sqrt (by norm_num)
  have hl : norm3 (x.sbases.mulVec ⟨1, 1, 1⟩) = a * √3 := by
    have e1 := norm3_sq (x.sbases.mulVec ⟨1, 1, 1⟩)
    rw [cubic_normSq hB, ← norm3_sq, norm_111, ← mul_pow] at e1
    exact (pow_left_inj₀ (norm3_nonneg _) (by positivity) (by norm_num)).mp e1
  unfold below unitOrNan
  rw [hl, if_neg (by positivity)]
  simp only [bind, Except.bind, pure, Except.pure]
  congr 1
  have e : (a / √3) * (a * √3)⁻¹ = 1 / 3 := by
    rw [div_mul_eq_mul_div, mul_inv, ← mul_assoc, mul_inv_cancel₀ ha.ne', one_mul, div_eq_mul_inv, ← mul_inv, hs]
    norm_num
  rw [smul_smul, smul_smul, mul_assoc, e]
  ext <;> simp [M3.mulVec] <;> ring

/-- The planes (111) of the example: asked for at `-i` spacings, put at the nearest multiple of three. -/
theorem snap_below {g : Gen ℝ} {x : Voxel ℝ} {a : ℝ} (hx : g.voxel = some x) (hn : g.strain = none) (hB : CubicCell a x.sbases)
    (ha : machEps * a < 1) (i : ℤ) :
    ∃ p, snapPlane (x.sbases.mulVec ⟨-(i : ℝ) / 3, -(i : ℝ) / 3, -(i : ℝ) / 3⟩) g ⟨1, 1, 1⟩ "nearest" = .ok p ∧ p.normal = diagonal a x.sbases ∧
      norm3 p.normal = 1 ∧ height (diagonal a x.sbases) p.point = ((-3 * ((i + 1) / 3) : ℤ) : ℝ) * (a / √3) ∧
      ∀ q, (Alg.plane p).interior q = true ↔ height (diagonal a x.sbases) q < ((-3 * ((i + 1) / 3) : ℤ) : ℝ) * (a / √3) + 1 / 10 ^ 5 := by
  have hr := cubic_reciprocal hB ⟨1, 1, 1⟩
  obtain ⟨l1, l2, l3⟩ := diagonal_eq hB rfl
  have ha0 := hB.1
  have h3 : (1 : ℝ) ≤ √3 := by rw [Real.one_le_sqrt]; norm_num
  have hl0 : 0 < len ((a ^ 2)⁻¹ • x.sbases.mulVec (millerV ⟨1, 1, 1⟩)) := by rw [l1]; positivity
  have hle : machEps < norm3 ((a ^ 2)⁻¹ • x.sbases.mulVec (millerV ⟨1, 1, 1⟩)) := by
    rw [← len_eq, l1, lt_div_iff₀ ha0]; linarith
  obtain ⟨p, hp, h1, -⟩ := snap_spec hx hn (cubic_det hB) hr hle "nearest" (.inl rfl) ⟨-(i : ℝ) / 3, -(i : ℝ) / 3, -(i : ℝ) / 3⟩
  rw [cart_eq, add_zero] at hp
  obtain ⟨u1, u2⟩ := snapPlane_unit hp
  have hpt := snapPlane_point hx hn (cubic_det hB) hp
  have hN : p.normal = diagonal a x.sbases := by rw [h1, ← len_eq, l2]
  have hc : snapCoord "nearest" 1 (-(i : ℝ) / 3) = ((-((i + 1) / 3) : ℤ) : ℝ) := by
    have := snapCoord_mul "nearest" (.inl rfl) 1 (-(i : ℝ) / 3)
    simp only [Int.cast_one, one_mul, snapInt, if_true, npRound_third] at this
    exact this
  have hh : height (diagonal a x.sbases) p.point = ((-3 * ((i + 1) / 3) : ℤ) : ℝ) * (a / √3) := by
    rw [hpt, ← l2, height_miller hr hl0, div_eq_mul_inv, l3]
    simp only [hc, miller]
    push_cast
    ring
  refine ⟨p, hp, hN, u1, hh, fun q => ?_⟩
  have e : p = rung p.normal p.point 0 0 := by
    obtain ⟨pn, pp, pt⟩ := p
    simp only at u2
    subst u2
    simp [rung]
  rw [e, rung_interior u1, hN, hh, mul_zero, add_zero]

/-! ## the defected particle -/

theorem det_bases {x : Voxel ℝ} (hs : ColumnScale x.scale) (h : x.sbases.det ≠ 0) : x.bases.det ≠ 0 := by
  intro h0
  apply h
  have : ∃ c : ℝ, x.sbases.det = c * x.bases.det := by
    unfold Voxel.sbases
    split
    · rename_i c _; exact ⟨c ^ 3, by simp only [M3.det, M3.smul_def]; ring⟩
    · rename_i s _; exact ⟨s.x * s.y * s.z, by simp only [M3.det]; ring⟩
    · rename_i s _; exact ⟨s.x * s.y * s.z, by simp only [M3.det]; ring⟩
    · rename_i e; rw [e] at hs; exact hs.elim
  obtain ⟨c, hc⟩ := this
  rw [hc, h0, mul_zero]

/-- The regions of the four Volumes. -/
def grainAlgs (s : Sphere) (pl : ℕ → Plane) : ℕ → List Alg
  | 0 => [.sphere s]
  | k + 1 => [.sphere s, .plane (pl k)]

def pick {α : Type} (a b c d : α) : ℕ → α
  | 0 => a
  | 1 => b
  | 2 => c
  | _ => d

/-- The four Volumes of the example. -/
def grainVol (s : Sphere) (pl : ℕ → Plane) (gs : ℕ → Gen ℝ) (k : ℕ) : Vol :=
  ⟨none, none, none, grainAlgs s pl k, some (.crystal (gs k)), 4 - k, 1 / 10 ^ 10, none, none⟩

theorem lateral_bb {B : M3 ℝ} (j : ℤ) : {w | ∃ u ∈ fccLayer B ⟨1, 1, 1⟩ j, w = u + (1 / 3 : ℝ) • B.mulVec ⟨-1, 2, -1⟩} = fccLayer B ⟨1, 1, 1⟩ (j + 1) := by
  rw [fccLayer_shift (e := ⟨0, 1, 0⟩) (m := 1) ⟨0, 2, 0, by simp, by simp, by simp, by omega⟩ ⟨0, -2, 0, by simp, by simp, by simp, by omega⟩
    (by simp [miller])]
  have : B.mulVec ((⟨0, 1, 0⟩ : V3 ℝ) - (((1 : ℤ) : ℝ) / 3) • millerV ⟨1, 1, 1⟩) = (1 / 3 : ℝ) • B.mulVec ⟨-1, 2, -1⟩ := by
    ext <;> simp [millerV, M3.mulVec] <;> ring
  rw [this]

theorem lateral_ba {B : M3 ℝ} (j : ℤ) : {w | ∃ u ∈ fccLayer B ⟨1, 1, 1⟩ j, w = u + (1 / 3 : ℝ) • B.mulVec ⟨1, 1, -2⟩} = fccLayer B ⟨1, 1, 1⟩ (j + 2) := by
  rw [fccLayer_shift (e := ⟨1, 1, 0⟩) (m := 2) ⟨2, 2, 0, by simp, by simp, by simp, by omega⟩ ⟨-2, -2, 0, by simp, by simp, by simp, by omega⟩
    (by simp [miller]; norm_num)]
  have : B.mulVec ((⟨1, 1, 0⟩ : V3 ℝ) - (((2 : ℤ) : ℝ) / 3) • millerV ⟨1, 1, 1⟩) = (1 / 3 : ℝ) • B.mulVec ⟨1, 1, -2⟩ := by
    ext <;> simp [millerV, M3.mulVec] <;> ring
  rw [this]

/-- Numbers of the layers below which the grains of the example begin. -/
def plane (i j : ℤ) : ℕ → ℤ := pick 0 (-3 * ((i + 1) / 3)) (-3 * ((j + 1) / 3)) 0

/-- **C130 (the defected particle).** For every fcc crystal in its cubic cell with a lattice point at the coordinate origin, every radius and every two
numbers of layers at least two and three apart, the program of nanoparticle_on_substrate.rst builds a MultiVolume of four grains. -/
theorem C130_particle_partial (env : Env) (g : Gen ℝ) (x : Voxel ℝ) (s : Struct ℝ) (a : ℝ) (Z : ℤ) (hx : g.voxel = some x) (hst : g.struct = some s)
    (hn : g.strain = none) (hp : g.post = none) (hs : ColumnScale x.scale) (hB : CubicCell a x.sbases) (ha : machEps * a < 1) (ha' : 1 / 10 ^ 4 ≤ a)
    (hZ : FccSites s Z) (hnd : s.sites.Nodup) (o : V3 ℤ) (ho : x.origin = cart x.sbases 0 ⟨(o.x : ℝ), (o.y : ℝ), (o.z : ℝ)⟩) (R : ℝ) (hR : 0 < R) (i j : ℤ)
    (hi : 2 ≤ i) (hij : i + 3 ≤ j) :
    ∃ (ws : ℕ → Vol) (gs : ℕ → Gen ℝ), particle env g (a / √3) R i j = .ok (.multi ((List.range 4).map fun k => .vol (ws k)) 0 none) ∧
      (∀ k, k ≤ 3 → (ws k).gen = some (.crystal (gs k)) ∧ CubicStack (Lateral (diagonal a x.sbases) (a / √3) (gs k) Z) ∧
        Layers (diagonal a x.sbases) (a / √3) (gs k) Z ∧
        ∀ q, Owns env ws 4 k q ↔ Spec.dist 0 q < R + 1 / 10 ^ 5 ∧ InLayer (diagonal a x.sbases) (fun k => plane i j k * (a / √3)) (1 / 10 ^ 5) 3 k q) ∧
      gs 1 = g ∧
      (∀ m, Lateral (diagonal a x.sbases) (a / √3) (gs 0) Z m = Lateral (diagonal a x.sbases) (a / √3) (gs 1) Z (-m)) ∧
      (∀ m, Lateral (diagonal a x.sbases) (a / √3) (gs 2) Z m = Lateral (diagonal a x.sbases) (a / √3) (gs 1) Z (m + 2)) ∧
      (∀ m, Lateral (diagonal a x.sbases) (a / √3) (gs 3) Z m = Lateral (diagonal a x.sbases) (a / √3) (gs 2) Z (m + 2)) ∧
      ∀ n0, ∃ n1 t' as ss, (VTree.multi ((List.range 4).map fun k => .vol (ws k)) 0 none).populate env n0 = (t', n1, .ok ()) ∧
        t'.held = some (as, ss) ∧ (as.zip ss).Pairwise fun q q' => q.2 = Z → q'.2 = Z → a / √2 ≤ Spec.dist q.1 q'.1 := by
  have ha0 := hB.1
  have hd := cubic_det hB
  have h3 : (0 : ℝ) < √3 := by positivity
  have h33 : √3 * √3 = (3 : ℝ) := Real.mul_self_sqrt (by norm_num)
  have h111 : Is111 ⟨1, 1, 1⟩ := ⟨.inl rfl, .inl rfl, .inl rfl⟩
  obtain ⟨l1, l2, l3⟩ := diagonal_eq hB rfl
  have hl0 : 0 < len ((a ^ 2)⁻¹ • x.sbases.mulVec (millerV ⟨1, 1, 1⟩)) := by rw [l1]; positivity
  -- planes
  obtain ⟨p0, s1, s2, s3, s4, s5⟩ := snap_below hx hn hB ha 0
  obtain ⟨pa, a1, a2, a3, a4, a5⟩ := snap_below hx hn hB ha i
  obtain ⟨pb, b1, b2, b3, b4, b5⟩ := snap_below hx hn hB ha j
  have hc0 : x.sbases.mulVec ⟨-((0 : ℤ) : ℝ) / 3, -((0 : ℤ) : ℝ) / 3, -((0 : ℤ) : ℝ) / 3⟩ = 0 := by ext <;> simp [M3.mulVec]
  rw [hc0] at s1
  have z0 : (-3 * ((0 + 1) / 3) : ℤ) = 0 := by norm_num
  rw [z0] at s4 s5
  -- generators
  obtain ⟨gt, t1, ⟨yt, t2, -, -⟩, t3, t4⟩ := gen_step hx (Tr.mkReflection p0 true false) (by
    show (Tr.reflMatrix p0.normal * x.bases).det ≠ 0
    rw [M3.det_mul, reflMatrix_det s3]
    simpa using det_bases hs hd)
  obtain ⟨ga, u1, ⟨ya, u2, -, -⟩, u3, u4⟩ := gen_step hx (.translation ((1 / 3 : ℝ) • x.sbases.mulVec ⟨1, 1, -2⟩) true false) (by exact det_bases hs hd)
  obtain ⟨gb, v1, ⟨yb, v2, -, -⟩, v3, v4⟩ := gen_step hx (.translation ((1 / 3 : ℝ) • x.sbases.mulVec ⟨-1, 2, -1⟩) true false) (by exact det_bases hs hd)
  obtain ⟨⟨yt', t5, -, t6, -⟩, -, hmir⟩ := mirrored_of s3 hx hs t1
  obtain ⟨⟨ya', u5, -, u6, -⟩, -, hdisa⟩ := displaced_of hx hs u1
  obtain ⟨⟨yb', v5, -, v6, -⟩, -, hdisb⟩ := displaced_of hx hs v1
  -- layers
  obtain ⟨f1, f2⟩ := fcc_lateral hx hst hZ ho hB h111 rfl hl0
  rw [l2, l3] at f1 f2
  have hn1 : norm3 (diagonal a x.sbases) = 1 := s2 ▸ s3
  rw [s2] at hmir
  rw [s4] at hmir
  have hzero : ∀ w : V3 ℝ, miller ⟨1, 1, 1⟩ w = 0 → height (diagonal a x.sbases) ((1 / 3 : ℝ) • x.sbases.mulVec w) = ((0 : ℤ) : ℝ) * (a / √3) := by
    intro w hw
    have : (1 / 3 : ℝ) • x.sbases.mulVec w = x.sbases.mulVec ((1 / 3 : ℝ) • w) := by ext <;> simp [M3.mulVec] <;> ring
    rw [this, ← l2, height_miller (cubic_reciprocal hB _) hl0]
    have : miller ⟨1, 1, 1⟩ ((1 / 3 : ℝ) • w) = 1 / 3 * miller ⟨1, 1, 1⟩ w := by simp [miller]; ring
    rw [this, hw]; simp
  have hza := hzero ⟨1, 1, -2⟩ (by simp [miller]; norm_num)
  have hzb := hzero ⟨-1, 2, -1⟩ (by simp [miller]; norm_num)
  have Lt : ∀ m, Lateral (diagonal a x.sbases) (a / √3) gt Z m = fccLayer x.sbases ⟨1, 1, 1⟩ (-1 * m + 0) := by
    intro m
    rw [lateral_mirrored hn1 hmir, f2]; congr 1; ring
  have La : ∀ m, Lateral (diagonal a x.sbases) (a / √3) ga Z m = fccLayer x.sbases ⟨1, 1, 1⟩ (1 * m + 2) := by
    intro m
    rw [lateral_displaced hdisa Z 0 hza, hza, Int.cast_zero, zero_mul, zero_smul, sub_zero, sub_zero, f2, lateral_ba, one_mul]
  have Lb : ∀ m, Lateral (diagonal a x.sbases) (a / √3) gb Z m = fccLayer x.sbases ⟨1, 1, 1⟩ (1 * m + 1) := by
    intro m
    rw [lateral_displaced hdisb Z 0 hzb, hzb, Int.cast_zero, zero_mul, zero_smul, sub_zero, sub_zero, f2, lateral_bb, one_mul]
  have Lm : ∀ m, Lateral (diagonal a x.sbases) (a / √3) g Z m = fccLayer x.sbases ⟨1, 1, 1⟩ (1 * m + 0) := by
    intro m; rw [f2, one_mul, add_zero]
  -- the Volumes
  let sph : Sphere := ⟨R, 0, 1 / 10 ^ 5⟩
  let pl : ℕ → Plane := pick p0 pa pb pb
  let gs : ℕ → Gen ℝ := pick gt g ga gb
  let ws := grainVol sph pl gs
  let ε : ℕ → ℤ := pick (-1) 1 1 1
  let c : ℕ → ℤ := pick 0 0 2 1
  have hLat : ∀ k, k ≤ 3 → (ε k = 1 ∨ ε k = -1) ∧ ∀ m, Lateral (diagonal a x.sbases) (a / √3) (gs k) Z m = fccLayer x.sbases ⟨1, 1, 1⟩ (ε k * m + c k) := by
    intro k hk
    interval_cases k
    · exact ⟨.inr rfl, Lt⟩
    · exact ⟨.inl rfl, Lm⟩
    · exact ⟨.inl rfl, La⟩
    · exact ⟨.inl rfl, Lb⟩
  have hLay : ∀ k, k ≤ 3 → Layers (diagonal a x.sbases) (a / √3) (gs k) Z := by
    intro k hk
    interval_cases k
    · exact layers_mirrored hn1 hmir f1
    · exact f1
    · exact layers_displaced hdisa Z 0 hza f1
    · exact layers_displaced hdisb Z 0 hzb f1
  have hgs : ∀ k, k ≤ 3 → (gs k).struct = some s ∧ (gs k).strain = none ∧ (gs k).post = none := by
    intro k hk
    interval_cases k
    · exact ⟨t4.trans hst, t3.trans hn, (fromGenerator_rest t1).2.2.trans hp⟩
    · exact ⟨hst, hn, hp⟩
    · exact ⟨u4.trans hst, u3.trans hn, (fromGenerator_rest u1).2.2.trans hp⟩
    · exact ⟨v4.trans hst, v3.trans hn, (fromGenerator_rest v1).2.2.trans hp⟩
  have hvox : ∀ k, k ≤ 3 → ∃ y, (gs k).voxel = some y ∧ y.sbases.det ≠ 0 := by
    intro k hk
    interval_cases k
    · refine ⟨yt', t5, ?_⟩
      rw [t6, M3.det_mul, reflMatrix_det s3]
      simpa using hd
    · exact ⟨x, hx, hd⟩
    · exact ⟨ya', u5, by rw [u6]; exact hd⟩
    · exact ⟨yb', v5, by rw [v6]; exact hd⟩
  have hball : ∀ q, Inside env (.vol (ball 0 R)) q ↔ Spec.dist 0 q < R + 1 / 10 ^ 5 := by
    intro q
    rw [← Vol.interior_iff]
    simp only [Vol.interior, ball, List.all_cons, List.all_nil, Bool.and_true, Bool.true_and, Alg.interior, Sphere.interior, decide_eq_true_eq]
    rw [dist_symm, Spec.dist, Real.sqrt_lt' (by positivity)]
    simp only [V3.normSq, V3.dot, V3.sub_x, V3.sub_y, V3.sub_z, pow_two]
  have hpl : ∀ k, k < 3 → ∀ q, (Alg.plane (pl k)).interior q = true ↔ height (diagonal a x.sbases) q < plane i j k * (a / √3) + 1 / 10 ^ 5 := by
    intro k hk q
    interval_cases k
    · exact s5 q
    · exact a5 q
    · exact b5 q
  have hown : ∀ k, k ≤ 3 → ∀ q, Owns env ws 4 k q ↔ Inside env (.vol (ball 0 R)) q ∧
      InLayer (diagonal a x.sbases) (fun k => plane i j k * (a / √3)) (1 / 10 ^ 5) 3 k q := by
    have hin : ∀ k q, Inside env (.vol { ws k with priority := (3 : ℤ) - k }) q ↔ Inside env (.vol (ws k)) q := fun k q => inside_priority
    have key := fun k hk q => owns_iff (env := env) (v := ball 0 R) (ws := fun k => { ws k with priority := (3 : ℤ) - k }) (N := 3)
      (n := diagonal a x.sbases) (c := fun k => plane i j k * (a / √3)) (tol := 1 / 10 ^ 5) (fun _ _ => rfl)
      (fun q => by rw [hin, ← Vol.interior_iff, ← Vol.interior_iff]; rfl)
      (fun k hk q => by
        rw [hin, ← hpl k hk, ← Vol.interior_iff, ← Vol.interior_iff]
        simp only [Vol.interior, ws, grainVol, grainAlgs, ball, List.all_cons, List.all_nil, Bool.and_true, Bool.true_and, Bool.and_eq_true]
        rfl)
      (fun m l hml hl => by
        have : plane i j l ≤ plane i j m := by
          interval_cases l <;> interval_cases m <;> simp only [plane, pick] <;> omega
        have : (plane i j l : ℝ) ≤ plane i j m := by exact_mod_cast this
        exact mul_le_mul_of_nonneg_right this (by positivity)) k hk q
    intro k hk q
    rw [← key k hk q]
    unfold Owns
    simp only [hin]
    refine and_congr Iff.rfl (forall_congr' fun l => forall_congr' fun hl => forall_congr' fun hne => imp_congr ?_ Iff.rfl)
    show (4 : ℤ) - l ≤ 4 - k ↔ (3 : ℤ) - l ≤ 3 - k
    omega
  have hK : ∀ m l, m < l → l < 3 → plane i j l + 1 ≤ plane i j m := by
    intro m l hml hl
    interval_cases l <;> interval_cases m <;> simp only [plane, pick] <;> omega
  have hdist := layered_distance (env := env) (v := ball 0 R) (ws := ws) (gs := gs) (N := 3) (K := plane i j) (ε := ε) (c := c) (Z := Z) hB h111 hn1
    (d := a / √3) (by positivity) (by rw [div_pow, sq √3, h33]; ring) (by
      have : √3 < 2 := by rw [Real.sqrt_lt' (by norm_num)]; norm_num
      rw [lt_div_iff₀ h3]; linarith) hK (fun k hk => ⟨hLay k hk, hown k hk⟩) hLat (fun k hk => by
      interval_cases k <;> simp only [ε, c, pick, plane] <;> omega)
  refine ⟨ws, gs, ?_, ?_, rfl, ?_, ?_, ?_, ?_⟩
  · have htol : tolSet (1 / 10 ^ 5) = .ok (1 / 10 ^ 5) := if_pos (by norm_num)
    unfold particle
    simp only [hx, Sphere.make, Sphere.radiusSet, if_pos hR, htol, bind, Except.bind, pure, Except.pure, below_ok hB, s1, a1, b1, t1, u1, v1, Vol.make,
      Vol.addGenerator]
    rfl
  · intro k hk
    refine ⟨rfl, ?_, hLay k hk, fun q => ?_⟩
    · obtain ⟨e1, e2⟩ := hLat k hk
      intro m
      simp only [e2, fccLayer_eq_iff hd h111, Ne]
      refine ⟨fccLayer_nonempty _ h111 _, ?_, ?_, ?_⟩ <;> rcases e1 with e1 | e1 <;> rw [e1] <;> omega
    · rw [hown k hk, hball]
  · intro m
    rw [(hLat 0 (by omega)).2, (hLat 1 (by omega)).2, fccLayer_eq_iff hd h111]
    simp only [ε, c, pick]; omega
  · intro m
    rw [(hLat 2 (by omega)).2, (hLat 1 (by omega)).2, fccLayer_eq_iff hd h111]
    simp only [ε, c, pick]; omega
  · intro m
    rw [(hLat 3 (by omega)).2, (hLat 2 (by omega)).2, fccLayer_eq_iff hd h111]
    simp only [ε, c, pick]; omega
  · intro n0
    have hsup : Supplying env (.multi ((List.range 4).map fun k => .vol (ws k)) 0 none) := by
      refine .multi _ _ _ (by simp [List.range_succ]) ?_
      intro t ht
      obtain ⟨k, hk, rfl⟩ := List.mem_map.mp ht
      have hk : k ≤ 3 := by have := List.mem_range.mp hk; omega
      obtain ⟨y, e1, e2⟩ := hvox k hk
      obtain ⟨sp, -, hbox⟩ := sphere_boundingBox (env := env) (v := ws k) rfl (by
        interval_cases k <;> simp [ws, grainVol, grainAlgs, Vol.spheres])
      obtain ⟨g1, g2, g3⟩ := hgs k hk
      exact supplying_crystal hbox (by simp [Vol.sphereBox, Vol.rectPrism]) rfl ⟨e1, ⟨s.latticeMatrix, by rw [g1]⟩, g2, g3⟩ e2
    obtain ⟨t', n1, ht⟩ := C12_populate_succeeds env _ hsup n0
    obtain ⟨as, ss, cs, k1, -⟩ := C12_nested_resolution env _ t' n0 n1 ht
    exact ⟨n1, t', as, ss, ht, k1, layered_populated hZ hnd (fun k hk => rfl) hgs hdist rfl ht k1⟩

/-- Concrete case of C130: the numbers of the documentation (three and eight layers below the twin plane) with a crystal of cell 1 and a sphere of radius
10; the second fault is not at the eighth but at the ninth layer. -/
example (env : Env) : ∃ (ws : ℕ → Vol) (gs : ℕ → Gen ℝ), particle env fccGen (1 / √3) 10 3 8 = .ok (.multi ((List.range 4).map fun k => .vol (ws k)) 0 none) ∧
    (∀ k, k ≤ 3 → ∀ q, Owns env ws 4 k q ↔ Spec.dist 0 q < 10 + 1 / 10 ^ 5 ∧
      InLayer (diagonal 1 (⟨1, .scalar 1, 0⟩ : Voxel ℝ).sbases) (fun k => plane 3 8 k * (1 / √3)) (1 / 10 ^ 5) 3 k q) ∧
    gs 1 = fccGen ∧ plane 3 8 0 = 0 ∧ plane 3 8 1 = -3 ∧ plane 3 8 2 = -9 := by
  have hB : CubicCell 1 (⟨1, .scalar 1, 0⟩ : Voxel ℝ).sbases := by
    rw [unit_sbases]
    exact ⟨one_pos, by ext <;> simp [M3.mul_def, M3.transpose, M3.one_def, M3.smul_def],
      by ext <;> simp [M3.mul_def, M3.transpose, M3.one_def, M3.smul_def]⟩
  obtain ⟨ws, gs, h1, h2, h3, -⟩ := C130_particle_partial env fccGen _ _ 1 79 rfl rfl rfl rfl trivial hB (by rw [mul_one]; exact machEps_lt_one)
    (by norm_num) (by intro f; simp [V3.ext_iff]) (by simp [V3.ext_iff]) ⟨0, 0, 0⟩
    (by rw [unit_sbases, cart_eq, add_zero, M3.mulVec_one]; ext <;> simp) 10 (by norm_num) 3 8 (by norm_num) (by norm_num)
  exact ⟨ws, gs, h1, fun k hk => (h2 k hk).2.2.2, h3, rfl, rfl, rfl⟩

/-! ## placing it on the substrate -/

/-- **C130, finding.** The example cannot place the particle: `s2s_alignment` raises IndexError for every radius. -/
theorem C130_placing_refuted (R : ℝ) : placing R = .error .index := by
  have n1 : norm3 (⟨0, 0, -1⟩ : V3 ℝ) = 1 := by unfold norm3 V3.normSq V3.dot; norm_num
  have n2 : norm3 (⟨0, 0, 1⟩ : V3 ℝ) = 1 := by unfold norm3 V3.normSq V3.dot; norm_num
  unfold placing
  rw [make_unit n1, make_unit n2]
  simp only [bind, Except.bind]
  refine (C47_exceptions _ _ _ _ n1 n2 (.inl ?_)).1 0 (.inl rfl)
  refine ⟨1, one_pos, ?_⟩
  ext <;> simp

/-! ## the core of the core-shell particle -/

theorem facets_ok {g : Gen ℝ} {x : Voxel ℝ} {a : ℝ} (hx : g.voxel = some x) (hn : g.strain = none) (hB : CubicCell a x.sbases) (ha : machEps * a < 1) (b : ℝ)
    (m : ℤ) : ∀ hs : List (V3 ℤ), (∀ h ∈ hs, 1 ≤ norm3 (millerV h)) →
      ∃ ps : List Plane, facets g b m hs = .ok (ps.map .plane) ∧ ps.length = hs.length
  | [], _ => ⟨[], rfl, rfl⟩
  | h :: hs, H => by
    obtain ⟨ps, h1, h2⟩ := facets_ok hx hn hB ha b m hs fun k hk => H k (List.mem_cons_of_mem _ hk)
    have hd := cubic_det hB
    have hle : machEps < norm3 ((a ^ 2)⁻¹ • x.sbases.mulVec (millerV h)) := by
      rw [← len_eq, cubic_len hB, lt_div_iff₀ hB.1]
      exact lt_of_lt_of_le ha (H h List.mem_cons_self)
    obtain ⟨f, hf⟩ : ∃ f, x.sbases.mulVec f = ((m : ℝ) * b) • millerV h := by
      obtain ⟨f, hf⟩ : ∃ f, x.sbases.solve (((m : ℝ) * b) • millerV h) = .ok f := ⟨_, if_neg hd⟩
      exact ⟨f, (M3.solve_iff _ _ _ hd).mp hf⟩
    obtain ⟨p, hp, -⟩ := snap_spec hx hn hd (cubic_reciprocal hB h) hle "nearest" (.inl rfl) f
    rw [cart_eq, add_zero, hf] at hp
    refine ⟨p :: ps, ?_, by simp [h2]⟩
    simp only [facets, hp, h1, bind, Except.bind, pure, Except.pure, List.map_cons]

/-- **C130, finding.** The core of core_shell_nanoparticle.rst is made without an exception for every unstrained crystal in a cubic cell, but no MultiVolume
that begins with it can ever be populated: six planes have a bounding box the generator refuses. -/
theorem C130_core_shell_refuted (env : Env) (g : Gen ℝ) (x : Voxel ℝ) (a : ℝ) (hx : g.voxel = some x) (hn : g.strain = none) (hB : CubicCell a x.sbases)
    (ha : machEps * a < 1) (b : ℝ) (m : ℤ) :
    ∃ v, core env g b m = .ok v ∧ ∀ rest pr n, ((VTree.multi (.vol v :: rest) pr none).populate env n).2.2 = .error .value := by
  obtain ⟨ps, h1, h2⟩ := facets_ok hx hn hB ha b m [⟨1, 0, 0⟩, ⟨-1, 0, 0⟩, ⟨0, 1, 0⟩, ⟨0, -1, 0⟩, ⟨0, 0, 1⟩, ⟨0, 0, -1⟩] (by
    intro h hh
    simp only [List.mem_cons, List.not_mem_nil, or_false] at hh
    rcases hh with rfl | rfl | rfl | rfl | rfl | rfl <;> (unfold norm3 V3.normSq V3.dot millerV; norm_num))
  refine ⟨⟨none, none, none, ps.map .plane, some (.crystal g), 0, 1 / 10 ^ 10, none, none⟩, ?_, fun rest pr n => ?_⟩
  · unfold core
    simp only [h1, bind, Except.bind, Vol.make, Vol.addGenerator, pure, Except.pure, foldl_addAlg, Vol.blank, List.nil_append]
  · have hps : ∀ l : List Plane, Vol.planes ⟨none, none, none, l.map .plane, some (.crystal g), 0, 1 / 10 ^ 10, none, none⟩ = l ∧
        Vol.spheres ⟨none, none, none, l.map .plane, some (.crystal g), 0, 1 / 10 ^ 10, none, none⟩ = [] := by
      intro l
      unfold Vol.planes Vol.spheres
      induction l with
      | nil => exact ⟨rfl, rfl⟩
      | cons p l ih => simp only [List.map_cons, List.filterMap_cons]; exact ⟨by rw [ih.1], ih.2⟩
    have := C20_planes_always_raise env ⟨none, none, none, ps.map .plane, some (.crystal g), 0, 1 / 10 ^ 10, none, none⟩ n rfl (hps ps).2
      (by rw [(hps ps).1, h2]; simp) (.inl ⟨g, x, rfl, hx⟩)
    simp only [VTree.populate, VTree.populateList, this]

/-- Concrete case: four cells of a crystal of cell 1. -/
example (env : Env) : ∃ v, core env fccGen 1 4 = .ok v ∧ ∀ rest pr n, ((VTree.multi (.vol v :: rest) pr none).populate env n).2.2 = .error .value :=
  C130_core_shell_refuted env fccGen _ 1 rfl rfl (by
    rw [unit_sbases]
    exact ⟨one_pos, by ext <;> simp [M3.mul_def, M3.transpose, M3.one_def, M3.smul_def],
      by ext <;> simp [M3.mul_def, M3.transpose, M3.one_def, M3.smul_def]⟩) (by rw [mul_one]; exact machEps_lt_one) 1 4

end Recipes
end
end CZ
