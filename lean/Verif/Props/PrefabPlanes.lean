import Verif.Props.Prefab
import Verif.Props.Misc

/-!
# Properties C87, C88, C90: where the planes of the defects lie
-/

namespace CZ
open Spec

noncomputable section
open Classical

namespace Prefab

/-! ## The ladder of planes -/

theorem inv_transpose {M R : M3 ℝ} (h : M.inv = .ok R) : M.transpose.inv = .ok R.transpose := by
  unfold M3.inv at h ⊢
  have hd : M.transpose.det = M.det := by unfold M3.transpose M3.det; ring
  rw [hd]
  split_ifs at h ⊢ with h0
  cases h
  congr 1
  simp only [M3.transpose, M3.adj, M3.smul_def]
  ext <;> ring

/-- pymatgen's spacing is the reciprocal length of the reciprocal vector. -/
theorem dHkl_eq {s : Struct ℝ} {h : V3 ℤ} {r : V3 ℝ} (hd : s.latticeMatrix.det ≠ 0) (hr : IsReciprocal s.latticeMatrix.transpose h r)
    (h0 : 0 < len r) : dHkl s h = .ok (len r)⁻¹ := by
  obtain ⟨R, hR⟩ : ∃ R, s.latticeMatrix.inv = .ok R := ⟨_, if_neg hd⟩
  have e := reciprocal_eq (inv_transpose hR) hr
  rw [show R.transpose.transpose = R from rfl] at e
  unfold dHkl
  simp only [hR, bind, Except.bind, e]
  rw [len_eq] at h0 ⊢
  rw [if_neg h0.ne']

theorem snapInt_err (mode : String) (a : ℤ) (t : ℝ) : |(snapInt mode a t : ℝ) - a * t| < 1 := by
  unfold snapInt
  by_cases h1 : mode = "nearest"
  · rw [if_pos h1]
    have := npRound_near ((a : ℝ) * t)
    linarith
  rw [if_neg h1]
  by_cases h2 : mode = "ceil"
  · rw [if_pos h2]
    obtain ⟨-, k1, k2, k3, k4⟩ := C54_round_away ((a : ℝ) * t)
    have e : (((if 0 < (a : ℝ) * t then 1 else if (a : ℝ) * t < 0 then -1 else 0) * ⌈|(a : ℝ) * t|⌉ : ℤ) : ℝ) = roundAway ((a : ℝ) * t) := by
      unfold roundAway
      split_ifs <;> simp
    rw [e]
    rcases le_total 0 ((a : ℝ) * t) with hs | hs
    · rw [abs_of_nonneg hs, abs_of_nonneg (k1 hs)] at k3 k4
      rw [abs_lt]; constructor <;> linarith
    · rw [abs_of_nonpos hs, abs_of_nonpos (k2 hs)] at k3 k4
      rw [abs_lt]; constructor <;> linarith
  · rw [if_neg h2]
    obtain ⟨k1, k2, k3⟩ := npFix_spec ((a : ℝ) * t)
    rcases lt_trichotomy ((a : ℝ) * t) 0 with hs | hs | hs
    · have : (npFix ((a : ℝ) * t) : ℝ) ≤ 0 := by nlinarith
      rw [abs_of_neg hs, abs_of_nonpos this] at k1 k2
      rw [abs_lt]; constructor <;> linarith
    · rw [hs]; simp [npFix]
    · have : 0 ≤ (npFix ((a : ℝ) * t) : ℝ) := by nlinarith
      rw [abs_of_pos hs, abs_of_nonneg this] at k1 k2
      rw [abs_lt]; constructor <;> linarith

theorem snapInt_err' (mode : String) (a : ℤ) (t : ℝ) : |(snapInt mode a t : ℝ) - a * t| ≤ ((if a = 0 then 0 else 1 : ℤ) : ℝ) ∧
    (a ≠ 0 → |(snapInt mode a t : ℝ) - a * t| < ((if a = 0 then 0 else 1 : ℤ) : ℝ)) := by
  have := snapInt_err mode a t
  by_cases h : a = 0
  · rw [if_pos h]; subst h; rw [snapInt_zero]; simp
  · rw [if_neg h]; push_cast; exact ⟨this.le, fun _ => this⟩

theorem snapSum_err (mode : String) {h : V3 ℤ} (h0 : h.x ≠ 0 ∨ h.y ≠ 0 ∨ h.z ≠ 0) (f : V3 ℝ) :
    |(snapSum mode h f : ℝ) - miller h f| < nonzeros h := by
  obtain ⟨ex, fx⟩ := snapInt_err' mode h.x f.x
  obtain ⟨ey, fy⟩ := snapInt_err' mode h.y f.y
  obtain ⟨ez, fz⟩ := snapInt_err' mode h.z f.z
  have e : (snapSum mode h f : ℝ) - miller h f = (snapInt mode h.x f.x - h.x * f.x) + (snapInt mode h.y f.y - h.y * f.y) +
      (snapInt mode h.z f.z - h.z * f.z) := by
    unfold snapSum miller; push_cast; ring
  rw [e]
  unfold nonzeros
  rw [Int.cast_add, Int.cast_add]
  refine lt_of_le_of_lt (abs_add_three _ _ _) ?_
  rcases h0 with h | h | h
  · have := fx h; push_cast at *; linarith
  · have := fy h; push_cast at *; linarith
  · have := fz h; push_cast at *; linarith

theorem miller_nonzero {B : M3 ℝ} {h : V3 ℤ} {r : V3 ℝ} (hr : IsReciprocal B h r) (hd : B.det ≠ 0) (h0 : 0 < len r) : h.x ≠ 0 ∨ h.y ≠ 0 ∨ h.z ≠ 0 := by
  by_contra hn
  push Not at hn
  obtain ⟨hx, hy, hz⟩ := hn
  have key : ∀ q : V3 ℝ, q.dot r = 0 := by
    intro q
    have hq : q = B.mulVec ((B.det)⁻¹ • B.adj.mulVec q) := by
      rw [M3.mulVec_smul, M3.mulVec_adj_mulVec, smul_smul, inv_mul_cancel₀ hd, one_smul]
    rw [hq, dot_reciprocal hr]
    unfold miller; rw [hx, hy, hz]; simp
  have := key r
  rw [dot_self] at this
  rw [len_eq] at h0
  have h2 := norm3_sq r
  rw [this] at h2
  nlinarith

/-- Heights along the normal of the family are plane numbers times the spacing. -/
theorem height_miller {B : M3 ℝ} {h : V3 ℤ} {r : V3 ℝ} (hr : IsReciprocal B h r) (h0 : 0 < len r) (f : V3 ℝ) :
    height ((len r)⁻¹ • r) (B.mulVec f) = miller h f / len r := by
  rw [← dot_reciprocal hr]
  unfold height V3.dot
  simp only [V3.smul_x, V3.smul_y, V3.smul_z]
  field_simp

theorem sdist_height (p : Plane) (q : V3 ℝ) : p.sdist q = height p.normal q - height p.normal p.point := by
  unfold Plane.sdist height V3.dot; ring

theorem sdist_self (p : Plane) : p.sdist p.point = 0 := by rw [sdist_height, sub_self]

theorem frac_exists {B : M3 ℝ} (hd : B.det ≠ 0) (q : V3 ℝ) : ∃ f, q = B.mulVec f :=
  ⟨(B.det)⁻¹ • B.adj.mulVec q, by rw [M3.mulVec_smul, M3.mulVec_adj_mulVec, smul_smul, inv_mul_cancel₀ hd, one_smul]⟩

/-- A snapped plane of a regular crystal. -/
theorem snap_height {g : Gen ℝ} {x : Voxel ℝ} {s : Struct ℝ} {h : V3 ℤ} {r : V3 ℝ} (H : Regular g x s h r) (mode : String)
    (hm : mode = "nearest" ∨ mode = "ceil" ∨ mode = "floor") (q : V3 ℝ) :
    ∃ p S, snapPlane q g h mode = .ok p ∧ p.normal = (len r)⁻¹ • r ∧ height ((len r)⁻¹ • r) p.point = (S : ℤ) / len r ∧
      |(S : ℝ) - len r * height ((len r)⁻¹ • r) q| < nonzeros h := by
  have hl := H.length
  have h0 : 0 < len r := machEps_pos.trans hl
  obtain ⟨f, rfl⟩ := frac_exists H.det q
  rw [len_eq] at hl
  obtain ⟨p, h1, h2, h3⟩ := snap_spec H.voxel H.strain H.det H.recip hl mode hm f
  rw [cart_eq, add_zero] at h1
  rw [← len_eq] at h2 h3
  refine ⟨p, snapSum mode h f, h1, h2, ?_, ?_⟩
  · obtain ⟨e, he⟩ := frac_exists H.det p.point
    have h4 := h3 e
    rw [← he, sdist_self] at h4
    have h5 : miller h e = snapSum mode h f := by
      have := mul_eq_zero.mp h4.symm
      rcases this with h | h
      · exact absurd h (inv_ne_zero h0.ne')
      · linarith
    rw [he, height_miller H.recip h0, h5]
  · rw [height_miller H.recip h0, mul_div_cancel₀ _ h0.ne']
    exact snapSum_err mode (miller_nonzero H.recip H.det h0) f

/-- Start and end of the ladder. -/
theorem ladder_spec {g : Gen ℝ} {x : Voxel ℝ} {s : Struct ℝ} {h : V3 ℤ} {r : V3 ℝ} (H : Regular g x s h r) (a e : V3 ℝ) :
    ∃ sp ep Ss Se, snapPlane a g h "floor" = .ok sp ∧ snapPlane e g h "ceil" = .ok ep ∧ dHkl s h = .ok (len r)⁻¹ ∧
      sp.normal = (len r)⁻¹ • r ∧ height ((len r)⁻¹ • r) sp.point = (Ss : ℤ) / len r ∧
      npRound (ep.distFrom sp.point / (len r)⁻¹) = |(Se : ℤ) - Ss| ∧
      |(Ss : ℝ) - len r * height ((len r)⁻¹ • r) a| < nonzeros h ∧ |(Se : ℝ) - len r * height ((len r)⁻¹ • r) e| < nonzeros h := by
  have h0 : 0 < len r := machEps_pos.trans H.length
  obtain ⟨sp, Ss, a1, a2, a3, a4⟩ := snap_height H "floor" (.inr (.inr rfl)) a
  obtain ⟨ep, Se, b1, b2, b3, b4⟩ := snap_height H "ceil" (.inr (.inl rfl)) e
  obtain ⟨r', r1, r2⟩ := H.spacing
  refine ⟨sp, ep, Ss, Se, a1, b1, by rw [← r2]; exact dHkl_eq H.lattice r1 (by rw [r2]; exact h0), a2, a3, ?_, a4, b4⟩
  have : ep.distFrom sp.point / (len r)⁻¹ = ((|Se - Ss| : ℤ) : ℝ) := by
    unfold Plane.distFrom
    rw [sdist_height, b2, a3, b3, div_inv_eq_mul, ← sub_div, abs_div, abs_of_pos h0, div_mul_cancel₀ _ h0.ne', abs_sub_comm]
    push_cast; rfl
  rw [this, npRound_int]

/-- The plane of given number. -/
theorem plane_eq {B : M3 ℝ} (hd : B.det ≠ 0) {h : V3 ℤ} {r : V3 ℝ} (hr : IsReciprocal B h r) (h0 : 0 < len r) (k : ℤ) :
    {q | height ((len r)⁻¹ • r) q = k / len r} = LatticePlane B 0 h k := by
  ext q
  obtain ⟨f, rfl⟩ := frac_exists hd q
  rw [Set.mem_ofPred_eq, height_miller hr h0, div_left_inj' h0.ne']
  unfold LatticePlane
  rw [Set.mem_ofPred_eq]
  constructor
  · intro e; exact ⟨f, by rw [cart_eq, add_zero], e⟩
  · rintro ⟨e, he, hk⟩
    rw [cart_eq, add_zero] at he
    rw [← dot_reciprocal hr, he, dot_reciprocal hr, hk]

/-! ## What a run of either builder consists of -/

/-- A run of the common part of the builders. -/
def Run (env : Env) (g : Gen ℝ) (v : Vol) (N m : ℤ) (h : V3 ℤ) (n0 : V3 ℝ)
    (defect : ℕ → Py Plane → Gen ℝ → ℤ → Py (Tr ℝ × ℤ × Bool)) (st : State) : Prop :=
  ∃ (b : BBox) (se : V3 ℝ × V3 ℝ) (sp ep : Plane) (s : Struct ℝ) (d : ℝ) (L : ℕ) (xs : List ℤ),
    v.boundingBox env = .ok b ∧ boxSpan n0 b = .ok se ∧
    snapPlane (sphereSpan n0 v.algs se).1 g h "floor" = .ok sp ∧ snapPlane (sphereSpan n0 v.algs se).2 g h "ceil" = .ok ep ∧
    g.struct = some s ∧ dHkl s h = .ok d ∧ L = (npRound (ep.distFrom sp.point / d)).toNat + 1 ∧ Splitting N m L xs ∧
    assemble env g v N ((List.range L).map (rung sp.normal sp.point d)) xs.reverse defect = .ok st

theorem fcc_run {env : Env} {p : Fcc} {g : Gen ℝ} {v : Vol} {x : Voxel ℝ} (hg : p.gen = some g) (hv : p.vol = some (.vol v))
    (hx : g.voxel = some x) (hN : 0 ≤ p.N) {split : ℕ → ℕ} {fuel : ℕ} {rand : ℕ → ℝ} {t : VTree} {tw sf : Bool}
    (h : p.build env split fuel rand = some (.ok (t, tw, sf))) :
    ∃ n0 st, unitOrNan (x.bases.mulVec (millerV p.plane)) = .ok n0 ∧ t = .multi st.vols 0 none ∧
      Run env g v p.N p.minSep p.plane n0 (fun i => fccDefect p.plane p.ratio (rand i)) st := by
  obtain ⟨n0, b, se, sp, ep, s, d, L, xs, st, a0, a1, a2, a3, a4, a5, a6, a7, a8, a9, a10, -, -⟩ := fcc_build_inv hg hv hx hN h
  exact ⟨n0, st, a0, a10, b, se, sp, ep, s, d, L, xs, a1, a2, a3, a4, a5, a6, a7, a8, a9⟩

theorem wurtzite_run {env : Env} {p : Wurtzite} {g : Gen ℝ} {v : Vol} {x : Voxel ℝ} (hg : p.gen = some g) (hv : p.vol = some (.vol v))
    (hx : g.voxel = some x) (hN : 0 ≤ p.N) {split : ℕ → ℕ} {fuel : ℕ} {t : VTree} (h : p.build env split fuel = some (.ok t)) :
    ∃ R n0 st, x.reciprocalBases = .ok R ∧ unitOrNan (R.mulVec (millerV ⟨0, 0, 2⟩)) = .ok n0 ∧ t = .multi st.vols 0 none ∧
      Run env g v p.N p.minSep ⟨0, 0, 2⟩ n0 (fun _ => wurtziteDefect (((1 / 2 : ℝ) • x.sbases).mulVec ⟨0, 0, -1⟩)) st := by
  obtain ⟨R, n0, b, se, sp, ep, s, d, L, xs, st, a00, a0, a1, a2, a3, a4, a5, a6, a7, a8, a9, a10⟩ := wurtzite_build_inv hg hv hx hN h
  exact ⟨R, n0, st, a00, a0, a10, b, se, sp, ep, s, d, L, xs, a1, a2, a3, a4, a5, a6, a7, a8, a9⟩

/-- The planes of a run for a regular crystal: `K k` is the number of the k-th plane, `Ss`, `Se` those of the first and the last
plane of the search. -/
theorem run_spec {env : Env} {g : Gen ℝ} {v : Vol} {N m : ℤ} {h : V3 ℤ} {n0 : V3 ℝ}
    {defect : ℕ → Py Plane → Gen ℝ → ℤ → Py (Tr ℝ × ℤ × Bool)} {st : State} {x : Voxel ℝ} {s : Struct ℝ} {r : V3 ℝ}
    (H : Regular g x s h r) (hi : Intact env v) (hN : 0 ≤ N) (hm : 0 ≤ m) (R : Run env g v N m h n0 defect st) :
    ∃ (b : BBox) (se : V3 ℝ × V3 ℝ) (Ss Se : ℤ) (q0 : V3 ℝ) (K : ℕ → ℤ) (X : ℕ → ℕ) (gs : ℕ → Gen ℝ) (ss : ℕ → ℤ) (ts : ℕ → Tr ℝ) (bs : ℕ → Bool) (ws : ℕ → Vol),
      v.boundingBox env = .ok b ∧ boxSpan n0 b = .ok se ∧
      |(Ss : ℝ) - len r * height ((len r)⁻¹ • r) (sphereSpan n0 v.algs se).1| < nonzeros h ∧
      |(Se : ℝ) - len r * height ((len r)⁻¹ • r) (sphereSpan n0 v.algs se).2| < nonzeros h ∧
      (∀ k, k < N.toNat → Ss + m ≤ K k ∧ K k ≤ Ss + |Se - Ss| - m) ∧
      (∀ i j, i < j → j < N.toNat → K j + m ≤ K i) ∧
      VTree.multi st.vols 0 none = .multi ((List.range (N.toNat + 1)).map fun k => .vol (ws k)) 0 none ∧
      (∀ k, k ≤ N.toNat → (ws k).gen = some (.crystal (gs k)) ∧ ∀ q, Owns env ws (N.toNat + 1) k q ↔
        Inside env (.vol v) q ∧ InLayer ((len r)⁻¹ • r) (fun k => K k / len r) (1 / 10 ^ 5) N.toNat k q) ∧
      gs 0 = g ∧ ss 0 = 1 ∧
      (∀ k, K k = Ss + X k) ∧ height ((len r)⁻¹ • r) q0 = Ss / len r ∧
      (∀ k, k < N.toNat → defect k (.ok (rung ((len r)⁻¹ • r) q0 (len r)⁻¹ (X k))) (gs k) (ss k) = .ok (ts k, ss (k + 1), bs k) ∧
        (gs k).fromGenerator [ts k] = .ok (gs (k + 1))) ∧
      ∃ sp, snapPlane (sphereSpan n0 v.algs se).1 g h "floor" = .ok sp ∧ sp.point = q0 := by
  obtain ⟨b, se, sp, ep, s', d, L, xs, a1, a2, a3, a4, a5, a6, a7, a8, a9⟩ := R
  obtain ⟨sp', ep', Ss, Se, c1, c2, c3, c4, c5, c6, c7, c8⟩ := ladder_spec H (sphereSpan n0 v.algs se).1 (sphereSpan n0 v.algs se).2
  have hs := H.struct
  rw [a5] at hs
  cases hs
  rw [a3] at c1; cases c1
  rw [a4] at c2; cases c2
  rw [a6] at c3; cases c3
  have h0 : 0 < len r := machEps_pos.trans H.length
  have h1 : norm3 sp.normal = 1 := (snapPlane_unit a3).1
  rw [c4] at a9 h1
  rw [c6] at a7
  have hL : (L : ℤ) = |Se - Ss| + 1 := by rw [a7]; push_cast; rw [Int.toNat_of_nonneg (abs_nonneg _)]
  obtain ⟨gs, ss, ts, bs, ws, X, -, -, k3, k4, k5, k6, k7, k8, k9, k10, k11, -, -, -⟩ := assemble_layers hi hN hm h1 a8 a9
  have hh : ∀ k, height ((len r)⁻¹ • r) sp.point + X k * (len r)⁻¹ = ((Ss + X k : ℤ) : ℝ) / len r := by
    intro k; rw [c5]; push_cast; ring
  have hmono : ∀ i j, i < j → j < N.toNat → ((Ss + X j : ℤ) : ℝ) / len r ≤ ((Ss + X i : ℤ) : ℝ) / len r := by
    intro i j hij hj
    have := k7 i j hij hj
    have : ((Ss + X j : ℤ) : ℝ) ≤ ((Ss + X i : ℤ) : ℝ) := by exact_mod_cast (by omega : Ss + (X j : ℤ) ≤ Ss + X i)
    gcongr
  refine ⟨b, se, Ss, Se, sp.point, fun k => Ss + X k, X, gs, ss, ts, bs, ws, a1, a2, c7, c8, ?_, ?_, by rw [k5], ?_, k3, k4, fun _ => rfl, c5, k11, sp, a3, rfl⟩
  · intro k hk
    have := k6 k hk
    rw [hL] at this
    dsimp only
    constructor <;> omega
  · intro i j hij hj
    have := k7 i j hij hj
    dsimp only
    omega
  · intro k hk
    refine ⟨(k8 k hk).2, fun q => ?_⟩
    exact owns_iff (fun k hk => (k8 k hk).1) k9 (fun k hk p => by rw [k10 k hk p, hh]) hmono k hk q

/-! ## The range of the search -/

theorem rowMin_spec (f : V3 ℝ → ℝ) : ∀ (ps : List (V3 ℝ)) (p : V3 ℝ), rowMin f p ps ∈ p :: ps ∧ ∀ q ∈ p :: ps, f (rowMin f p ps) ≤ f q
  | [], p => by simp [rowMin]
  | q :: qs, p => by
    unfold rowMin
    split_ifs with h
    · obtain ⟨h1, h2⟩ := rowMin_spec f qs q
      refine ⟨List.mem_cons_of_mem _ h1, fun z hz => ?_⟩
      rcases List.mem_cons.mp hz with rfl | hz
      · exact (h2 q List.mem_cons_self).trans h.le
      · exact h2 z hz
    · obtain ⟨h1, h2⟩ := rowMin_spec f qs p
      refine ⟨?_, fun z hz => ?_⟩
      · rcases List.mem_cons.mp h1 with h1 | h1
        · rw [h1]; exact List.mem_cons_self
        · exact List.mem_cons_of_mem _ (List.mem_cons_of_mem _ h1)
      · rcases List.mem_cons.mp hz with rfl | hz
        · exact h2 z List.mem_cons_self
        · rcases List.mem_cons.mp hz with rfl | hz
          · exact (h2 p List.mem_cons_self).trans (not_lt.mp h)
          · exact h2 z (List.mem_cons_of_mem _ hz)

theorem rowMax_eq (f : V3 ℝ → ℝ) : ∀ (ps : List (V3 ℝ)) (p : V3 ℝ), rowMax f p ps = rowMin (fun q => - f q) p ps
  | [], p => rfl
  | q :: qs, p => by
    unfold rowMax rowMin
    rw [rowMax_eq f qs q, rowMax_eq f qs p]
    simp only [neg_lt_neg_iff]

theorem height_dot (n p : V3 ℝ) : n.dot p = height n p := rfl

theorem height_smul (n : V3 ℝ) (c : ℝ) (p : V3 ℝ) : height n (c • p) = c * height n p := by
  unfold height; simp only [V3.smul_x, V3.smul_y, V3.smul_z]; ring

theorem height_self {n : V3 ℝ} (h : norm3 n = 1) : height n n = 1 := norm3_eq_one.mp h

/-- The two points the search starts from. -/
theorem range_spec {env : Env} {v : Vol} {n : V3 ℝ} {lo hi : ℝ} (hn : norm3 n = 1) (h : SearchRange env v n lo hi) : lo ≤ hi ∧
    (∃ b se, v.boundingBox env = .ok b ∧ boxSpan n b = .ok se) ∧
    ∀ b se, v.boundingBox env = .ok b → boxSpan n b = .ok se → height n (sphereSpan n v.algs se).1 = lo ∧ height n (sphereSpan n v.algs se).2 = hi := by
  rcases h with ⟨ps, h1, h2, ⟨p, hp, rfl⟩, ⟨p', hp', rfl⟩, h5⟩ | ⟨c, tol, h1, h2, h3, rfl⟩
  · refine ⟨(h5 p' hp').1, ?_, ?_⟩
    · cases ps with
      | nil => cases hp
      | cons q qs => exact ⟨_, _, h1, rfl⟩
    · intro b se hb hse
      rw [h1] at hb
      cases hb
      have hsph : sphereSpan n v.algs se = se := by
        unfold sphereSpan
        generalize v.algs = as at h2
        induction as generalizing se with
        | nil => rfl
        | cons a as ih =>
          rw [List.foldl_cons]
          have := h2 a List.mem_cons_self
          cases a with
          | sphere s => exact absurd rfl (this s)
          | plane s => exact ih se hse fun a ha => h2 a (List.mem_cons_of_mem _ ha)
          | cyl s => exact ih se hse fun a ha => h2 a (List.mem_cons_of_mem _ ha)
      rw [hsph]
      cases ps with
      | nil => cases hp
      | cons q qs =>
        cases hse
        have e1 := rowMin_spec (n.dot ·) qs q
        have e2 := rowMin_spec (fun z => - n.dot z) qs q
        rw [rowMax_eq]
        constructor
        · exact le_antisymm (e1.2 p hp) (h5 _ e1.1).1
        · exact le_antisymm (h5 _ e2.1).2 (by have := e2.2 p' hp'; exact neg_le_neg_iff.mp this)
  · have hs : sphereSpan n v.algs = fun _ => ((-1 * hi) • n, hi • n) := by
      funext se; unfold sphereSpan; rw [h2]; rfl
    refine ⟨by linarith, ?_, ?_⟩
    · have : v.boundingBox env = .ok (.rows (Vol.sphereBox ⟨hi, c, tol⟩)) := by
        unfold Vol.boundingBox; simp [h1, Vol.spheres, h2, Vol.smallest]
      obtain ⟨q, qs, e⟩ : ∃ q qs, Vol.sphereBox ⟨hi, c, tol⟩ = q :: qs := ⟨_, _, rfl⟩
      rw [e] at this
      exact ⟨_, _, this, rfl⟩
    · intro b se _ _
      rw [hs]
      simp only [height_smul, height_self hn]
      constructor <;> ring

theorem unit_dir {r w : V3 ℝ} (h0 : 0 < len r) {c : ℝ} (hc : 0 < c) (hw : w = c • r) : unitOrNan w = .ok ((len r)⁻¹ • r) ∧ norm3 ((len r)⁻¹ • r) = 1 := by
  rw [len_eq] at h0 ⊢
  have e : norm3 w = c * norm3 r := by rw [hw, norm3_smul, abs_of_pos hc]
  refine ⟨?_, norm3_unit h0.ne'⟩
  unfold unitOrNan
  rw [if_neg (by rw [e]; positivity), e, hw, smul_smul]
  congr 2
  field_simp

/-! ## C87 -/

/-- The N planes between the grains of the layered result `t` are planes of the family `h` of the crystal, with numbers
descending by at least `m`. -/
def FamilyLayers (env : Env) (v : Vol) (x : Voxel ℝ) (h : V3 ℤ) (r : V3 ℝ) (N : ℕ) (m : ℤ) (t : VTree) : Prop :=
  ∃ (c : ℕ → ℝ) (J : ℕ → ℤ) (ws : ℕ → Vol), t = .multi ((List.range (N + 1)).map fun k => .vol (ws k)) 0 none ∧
    (∀ k, k ≤ N → ∀ q, Owns env ws (N + 1) k q ↔ Inside env (.vol v) q ∧ InLayer ((len r)⁻¹ • r) c (1 / 10 ^ 5) N k q) ∧
    (∀ k, k < N → {q | height ((len r)⁻¹ • r) q = c k} = LatticePlane x.sbases x.origin h (J k)) ∧
    ∀ i j, i < j → j < N → J j + m ≤ J i

theorem run_family {env : Env} {g : Gen ℝ} {v : Vol} {N m : ℤ} {h : V3 ℤ} {n0 : V3 ℝ}
    {defect : ℕ → Py Plane → Gen ℝ → ℤ → Py (Tr ℝ × ℤ × Bool)} {st : State} {x : Voxel ℝ} {s : Struct ℝ} {r : V3 ℝ}
    (H : Regular g x s h r) (hi : Intact env v) (hN : 0 ≤ N) (hm : 0 ≤ m) (o : V3 ℤ)
    (ho : x.origin = cart x.sbases 0 ⟨(o.x : ℝ), (o.y : ℝ), (o.z : ℝ)⟩) (R : Run env g v N m h n0 defect st) :
    FamilyLayers env v x h r N.toNat m (.multi st.vols 0 none) := by
  obtain ⟨b, se, Ss, Se, q0, K, X, gs, ss, ts, bs, ws, a1, a2, a3, a4, a5, a6, a7, a8, a9, a10, a11, a12, a13⟩ := run_spec H hi hN hm R
  have h0 : 0 < len r := machEps_pos.trans H.length
  refine ⟨fun k => K k / len r, fun k => K k - (h.x * o.x + h.y * o.y + h.z * o.z), ws, a7, fun k hk => (a8 k hk).2, ?_, ?_⟩
  · intro k hk
    rw [plane_eq H.det H.recip h0, ho]
    exact latticePlane_shift _ _ _ _
  · intro i j hij hj
    have := a6 i j hij hj
    dsimp only; omega

/-- **C87 (fcc, partial).** For an unstrained crystal whose origin is a lattice point of the lattice through the coordinate
origin and whose family `plane` has the spacing of the lattice of the structure, the defects of the fcc prefabs lie on
planes of the family, at least `min_sep` planes apart.  Missing: other origins, strain, scaled or skewed cells (refuted). -/
theorem C87_fcc_partial (env : Env) (p : Fcc) (g : Gen ℝ) (v : Vol) (x : Voxel ℝ) (s : Struct ℝ) (r : V3 ℝ) (hg : p.gen = some g)
    (hv : p.vol = some (.vol v)) (H : Regular g x s p.plane r) (hi : Intact env v) (hN : 0 ≤ p.N) (hm : 0 ≤ p.minSep) (o : V3 ℤ)
    (ho : x.origin = cart x.sbases 0 ⟨(o.x : ℝ), (o.y : ℝ), (o.z : ℝ)⟩) (split : ℕ → ℕ) (fuel : ℕ) (rand : ℕ → ℝ) (t : VTree) (tw sf : Bool)
    (h : p.build env split fuel rand = some (.ok (t, tw, sf))) : FamilyLayers env v x p.plane r p.N.toNat p.minSep t := by
  obtain ⟨n0, st, -, rfl, R⟩ := fcc_run hg hv H.voxel hN h
  exact run_family H hi hN hm o ho R

/-- **C87 (wurtzite, partial).** The same for wurtziteStackingFault and the planes (002). -/
theorem C87_wurtzite_partial (env : Env) (p : Wurtzite) (g : Gen ℝ) (v : Vol) (x : Voxel ℝ) (s : Struct ℝ) (r : V3 ℝ) (hg : p.gen = some g)
    (hv : p.vol = some (.vol v)) (H : Regular g x s ⟨0, 0, 2⟩ r) (hi : Intact env v) (hN : 0 ≤ p.N) (hm : 0 ≤ p.minSep) (o : V3 ℤ)
    (ho : x.origin = cart x.sbases 0 ⟨(o.x : ℝ), (o.y : ℝ), (o.z : ℝ)⟩) (split : ℕ → ℕ) (fuel : ℕ) (t : VTree)
    (h : p.build env split fuel = some (.ok t)) : FamilyLayers env v x ⟨0, 0, 2⟩ r p.N.toNat p.minSep t := by
  obtain ⟨R, n0, st, -, -, rfl, R⟩ := wurtzite_run hg hv H.voxel hN h
  exact run_family H hi hN hm o ho R

/-! ## C88 -/

/-- The planes between the grains lie strictly between the heights `lo` and `hi`. -/
def CutsBetween (env : Env) (v : Vol) (n : V3 ℝ) (lo hi : ℝ) (N : ℕ) (t : VTree) : Prop :=
  ∃ (c : ℕ → ℝ) (ws : ℕ → Vol), t = .multi ((List.range (N + 1)).map fun k => .vol (ws k)) 0 none ∧
    (∀ k, k ≤ N → ∀ q, Owns env ws (N + 1) k q ↔ Inside env (.vol v) q ∧ InLayer n c (1 / 10 ^ 5) N k q) ∧
    ∀ k, k < N → lo < c k ∧ c k < hi

theorem run_cuts {env : Env} {g : Gen ℝ} {v : Vol} {N m : ℤ} {h : V3 ℤ}
    {defect : ℕ → Py Plane → Gen ℝ → ℤ → Py (Tr ℝ × ℤ × Bool)} {st : State} {x : Voxel ℝ} {s : Struct ℝ} {r : V3 ℝ}
    (H : Regular g x s h r) (hi : Intact env v) (hN : 0 ≤ N) (hm : nonzeros h ≤ m) {lo hi' : ℝ} (hn : norm3 ((len r)⁻¹ • r) = 1)
    (hr : SearchRange env v ((len r)⁻¹ • r) lo hi') (R : Run env g v N m h ((len r)⁻¹ • r) defect st) :
    CutsBetween env v ((len r)⁻¹ • r) lo hi' N.toNat (.multi st.vols 0 none) := by
  have hm0 : 0 ≤ m := by
    refine le_trans ?_ hm
    unfold nonzeros; split_ifs <;> norm_num
  obtain ⟨b, se, Ss, Se, q0, K, X, gs, ss, ts, bs, ws, a1, a2, a3, a4, a5, a6, a7, a8, a9, a10, a11, a12, a13⟩ := run_spec H hi hN hm0 R
  have h0 : 0 < len r := machEps_pos.trans H.length
  obtain ⟨hle, -, hr⟩ := range_spec hn hr
  obtain ⟨r1, r2⟩ := hr b se a1 a2
  rw [r1, abs_lt] at a3
  rw [r2, abs_lt] at a4
  have hmR : (nonzeros h : ℝ) ≤ m := by exact_mod_cast hm
  have hmul : len r * lo ≤ len r * hi' := by gcongr
  refine ⟨fun k => K k / len r, ws, a7, fun k hk => (a8 k hk).2, fun k hk => ?_⟩
  obtain ⟨k1, k2⟩ := a5 k hk
  have k1' : (Ss : ℝ) + m ≤ K k := by exact_mod_cast k1
  rcases le_total Ss Se with hs | hs
  · rw [abs_of_nonneg (by omega)] at k2
    have k2' : (K k : ℝ) ≤ Se - m := by exact_mod_cast (by omega : K k ≤ Se - m)
    dsimp only
    rw [lt_div_iff₀ h0, div_lt_iff₀ h0]
    constructor <;> linarith
  · rw [abs_of_nonpos (by omega)] at k2
    have k2' : (m : ℝ) + m ≤ Ss - Se := by exact_mod_cast (by omega : m + m ≤ Ss - Se)
    exfalso; linarith

/-- **C88 (fcc, partial).** If the direction [hkl] is perpendicular to the planes (hkl) (as in cubic cells) and `min_sep` is at
least the number of Miller indices that are not zero, every defect plane lies strictly inside the searched range of heights:
between the lowest and the highest corner of the bounding box (points or cylinder), or at less than the radius
of the only sphere from the coordinate origin.  Missing: spheres with another centre (refuted). -/
theorem C88_fcc_partial (env : Env) (p : Fcc) (g : Gen ℝ) (v : Vol) (x : Voxel ℝ) (s : Struct ℝ) (r : V3 ℝ) (hg : p.gen = some g)
    (hv : p.vol = some (.vol v)) (H : Regular g x s p.plane r) (hi : Intact env v) (hN : 0 ≤ p.N) (hm : nonzeros p.plane ≤ p.minSep)
    (hdir : ∃ c : ℝ, 0 < c ∧ cart x.bases 0 ⟨(p.plane.x : ℝ), (p.plane.y : ℝ), (p.plane.z : ℝ)⟩ = c • r) (lo hi' : ℝ)
    (hr : SearchRange env v ((len r)⁻¹ • r) lo hi') (split : ℕ → ℕ) (fuel : ℕ) (rand : ℕ → ℝ) (t : VTree) (tw sf : Bool)
    (h : p.build env split fuel rand = some (.ok (t, tw, sf))) : CutsBetween env v ((len r)⁻¹ • r) lo hi' p.N.toNat t := by
  obtain ⟨n0, st, hn0, rfl, R⟩ := fcc_run hg hv H.voxel hN h
  obtain ⟨c, hc, he⟩ := hdir
  rw [cart_eq, add_zero] at he
  obtain ⟨e1, e2⟩ := unit_dir (machEps_pos.trans H.length) hc he
  rw [show millerV p.plane = ⟨(p.plane.x : ℝ), (p.plane.y : ℝ), (p.plane.z : ℝ)⟩ from rfl, e1] at hn0
  cases hn0
  exact run_cuts H hi hN hm e2 hr R

/-- **C88 (wurtzite, partial).** The same for wurtziteStackingFault, when `reciprocal_bases @ (0,0,2)` points along the normal of
the planes (as for a crystal that has not been rotated); `min_sep` at least 1. -/
theorem C88_wurtzite_partial (env : Env) (p : Wurtzite) (g : Gen ℝ) (v : Vol) (x : Voxel ℝ) (s : Struct ℝ) (r : V3 ℝ) (hg : p.gen = some g)
    (hv : p.vol = some (.vol v)) (H : Regular g x s ⟨0, 0, 2⟩ r) (hi : Intact env v) (hN : 0 ≤ p.N) (hm : 1 ≤ p.minSep)
    (hdir : ∃ (R : M3 ℝ) (c : ℝ), R * x.sbases = 1 ∧ 0 < c ∧ cart R 0 ⟨0, 0, 2⟩ = c • r) (lo hi' : ℝ)
    (hr : SearchRange env v ((len r)⁻¹ • r) lo hi') (split : ℕ → ℕ) (fuel : ℕ) (t : VTree)
    (h : p.build env split fuel = some (.ok t)) : CutsBetween env v ((len r)⁻¹ • r) lo hi' p.N.toNat t := by
  obtain ⟨R', n0, st, hR, hn0, rfl, R⟩ := wurtzite_run hg hv H.voxel hN h
  obtain ⟨Q, c, hQ, hc, he⟩ := hdir
  have hRQ : R' = Q := by
    obtain ⟨-, h2⟩ := M3.inv_mul _ _ hR
    calc R' = 1 * R' := (M3_one_mul _).symm
      _ = Q * x.sbases * R' := by rw [hQ]
      _ = Q * (x.sbases * R') := by ext <;> simp only [M3.mul_def] <;> ring
      _ = Q := by rw [h2]; ext <;> simp [M3.mul_def, M3.one_def]
  subst hRQ
  rw [cart_eq, add_zero] at he
  obtain ⟨e1, e2⟩ := unit_dir (machEps_pos.trans H.length) hc he
  rw [show millerV ⟨0, 0, 2⟩ = ⟨0, 0, 2⟩ by simp [millerV], e1] at hn0
  cases hn0
  exact run_cuts H hi hN (by simpa [nonzeros] using hm) e2 hr R

end Prefab

end
end CZ
