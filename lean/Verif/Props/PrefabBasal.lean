import Verif.Props.PrefabHexagonal

/-!
# Property C94: basal faults of the wurtzite prefab for every origin, sublattice and size
-/

namespace CZ
open Spec

noncomputable section
open Classical

namespace Prefab

/-- Lateral positions of a close-packed layer through `a`; `m` modulo 3 is its letter. -/
def basalLayer (B : M3 ℝ) (a : V3 ℝ) (m : ℤ) : Set (V3 ℝ) := {w | ∃ i j : ℤ, w = B.mulVec ⟨a.x + i + (m : ℝ) / 3, a.y + j - (m : ℝ) / 3, 0⟩}

theorem basalLayer_shift (B : M3 ℝ) (a : V3 ℝ) (m t : ℤ) :
    {w | ∃ u ∈ basalLayer B a m, w = u + B.mulVec ⟨(t : ℝ) / 3, -(t : ℝ) / 3, 0⟩} = basalLayer B a (m + t) := by
  ext w
  constructor
  · rintro ⟨u, ⟨i, j, rfl⟩, rfl⟩
    refine ⟨i, j, ?_⟩
    rw [← M3.mulVec_add]
    congr 1; ext <;> simp <;> ring
  · rintro ⟨i, j, rfl⟩
    refine ⟨_, ⟨i, j, rfl⟩, ?_⟩
    rw [← M3.mulVec_add]
    congr 1; ext <;> simp <;> ring

theorem basalLayer_eq_iff {B : M3 ℝ} (hd : B.det ≠ 0) (a : V3 ℝ) (m m' : ℤ) : basalLayer B a m = basalLayer B a m' ↔ 3 ∣ m - m' := by
  constructor
  · intro e
    have h : B.mulVec ⟨a.x + ((0 : ℤ) : ℝ) + (m : ℝ) / 3, a.y + ((0 : ℤ) : ℝ) - (m : ℝ) / 3, 0⟩ ∈ basalLayer B a m := ⟨0, 0, rfl⟩
    rw [e] at h
    obtain ⟨i, j, h⟩ := h
    have := congrArg V3.x (mulVec_inj hd h)
    simp only at this
    have h' : ((m - m' : ℤ) : ℝ) = ((3 * i : ℤ) : ℝ) := by push_cast at this ⊢; linarith
    exact ⟨i, by exact_mod_cast h'⟩
  · rintro ⟨k, hk⟩
    obtain rfl : m = m' + 3 * k := by omega
    ext w
    constructor
    · rintro ⟨i, j, rfl⟩
      exact ⟨i + k, j - k, by congr 1; ext <;> push_cast <;> ring⟩
    · rintro ⟨i, j, rfl⟩
      exact ⟨i - k, j + k, by congr 1; ext <;> push_cast <;> ring⟩

/-- Crystal coordinates of the atoms. -/
def InBasal (a f : V3 ℝ) : Prop :=
  ∃ l i j : ℤ, f.z = a.z + (l : ℝ) / 2 ∧ f.x = a.x + i + ((l % 2 : ℤ) : ℝ) / 3 ∧ f.y = a.y + j - ((l % 2 : ℤ) : ℝ) / 3

theorem basal_crystal {g : Gen ℝ} {x : Voxel ℝ} {s : Struct ℝ} {Z : ℤ} {a : V3 ℝ} (hx : g.voxel = some x) (hs : g.struct = some s) (hZ : HcpSitesAt s Z a)
    {o : V3 ℝ} (ho : x.origin = x.sbases.mulVec o) (q : V3 ℝ) :
    (q, Z) ∈ CrystalOf g ↔ ∃ f, InBasal (o + a) f ∧ q = x.sbases.mulVec f := by
  have hsite : ∀ n f, siteAt x.sbases x.origin n f = x.sbases.mulVec ⟨o.x + n.x + f.x, o.y + n.y + f.y, o.z + n.z + f.z⟩ := by
    intro n f
    rw [siteAt_eq, ho, ← M3.mulVec_add]
    rw [← M3.mulVec_add]; congr 1; ext <;> simp [Gen.castV] <;> ring
  constructor
  · rintro ⟨v', s', e1, e2, n, ⟨f, Z'⟩, hf, he⟩
    rw [hx] at e1; cases e1
    rw [hs] at e2; cases e2
    injection he with he1 he2
    simp only at he1 he2
    subst he2
    rw [he1, hsite]
    refine ⟨_, ?_, rfl⟩
    obtain ⟨i, j, l, rfl | rfl⟩ := hZ.1 f hf
    · refine ⟨2 * (n.z + l), n.x + i, n.y + j, ?_, ?_, ?_⟩ <;> (try rw [show 2 * (n.z + l) % 2 = 0 by omega]) <;> simp <;> ring
    · refine ⟨2 * (n.z + l) + 1, n.x + i, n.y + j, ?_, ?_, ?_⟩ <;> (try rw [show (2 * (n.z + l) + 1) % 2 = 1 by omega]) <;> simp <;> ring
  · rintro ⟨f, ⟨l, i, j, hl, hi, hj⟩, rfl⟩
    have key : ∀ (e : V3 ℝ) (n : V3 ℤ), (e, Z) ∈ s.sites → f = ⟨o.x + n.x + e.x, o.y + n.y + e.y, o.z + n.z + e.z⟩ →
        (x.sbases.mulVec f, Z) ∈ CrystalOf g := by
      intro e n he hf
      exact ⟨x, s, hx, hs, n, (e, Z), he, by rw [hsite, hf]⟩
    simp only [V3.add_x, V3.add_y, V3.add_z] at hl hi hj
    obtain ⟨k, rfl | rfl⟩ : ∃ k : ℤ, l = 2 * k ∨ l = 2 * k + 1 := ⟨l / 2, by omega⟩
    · rw [show 2 * k % 2 = 0 by omega] at hi hj
      obtain ⟨i', j', l', h⟩ := hZ.2.1
      refine key _ ⟨i - i', j - j', k - l'⟩ h ?_
      push_cast at hl hi hj
      ext <;> simp <;> linarith
    · rw [show (2 * k + 1) % 2 = 1 by omega] at hi hj
      obtain ⟨i', j', l', h⟩ := hZ.2.2
      refine key _ ⟨i - i', j - j', k - l'⟩ h ?_
      push_cast at hl hi hj
      ext <;> simp <;> linarith

theorem basal_lateral {g : Gen ℝ} {x : Voxel ℝ} {s : Struct ℝ} {Z : ℤ} {a : V3 ℝ} (hx : g.voxel = some x) (hs : g.struct = some s) (hZ : HcpSitesAt s Z a)
    {o : V3 ℝ} (ho : x.origin = x.sbases.mulVec o) (hd : x.sbases.det ≠ 0) (hc : UprightCell x.sbases) {r : V3 ℝ}
    (hr : IsReciprocal x.sbases ⟨0, 0, 2⟩ r) (h0 : 0 < len r) :
    LayersFrom ((len r)⁻¹ • r) (2 * (o + a).z * (len r)⁻¹) (len r)⁻¹ g Z ∧
      ∀ j, LateralFrom ((len r)⁻¹ • r) (2 * (o + a).z * (len r)⁻¹) (len r)⁻¹ g Z j = basalLayer x.sbases (o + a) (j % 2) := by
  have hax := upright_axis hd hc hr h0
  have hh : ∀ f : V3 ℝ, height ((len r)⁻¹ • r) (x.sbases.mulVec f) = 2 * f.z * (len r)⁻¹ := by
    intro f; rw [height_miller hr h0, div_eq_mul_inv]; simp [miller]
  have hlat : ∀ f : V3 ℝ, x.sbases.mulVec f - height ((len r)⁻¹ • r) (x.sbases.mulVec f) • ((len r)⁻¹ • r) = x.sbases.mulVec ⟨f.x, f.y, 0⟩ := by
    intro f
    have e : x.sbases.mulVec f = x.sbases.mulVec ⟨f.x, f.y, 0⟩ + f.z • x.sbases.mulVec ⟨0, 0, 1⟩ := by
      rw [← M3.mulVec_smul, ← M3.mulVec_add]; congr 1; ext <;> simp
    rw [hh]
    conv_lhs => rw [e, hax]
    ext <;> simp <;> ring
  have hinv : (len r)⁻¹ ≠ 0 := inv_ne_zero h0.ne'
  constructor
  · intro q hq
    obtain ⟨f, ⟨l, i, j, hl, -, -⟩, rfl⟩ := (basal_crystal hx hs hZ ho q).mp hq
    exact ⟨l, by rw [hh, hl]; ring⟩
  · intro j
    ext w
    constructor
    · rintro ⟨q, hq, hj, rfl⟩
      obtain ⟨f, ⟨l, i, k, hl, ha, hb⟩, rfl⟩ := (basal_crystal hx hs hZ ho q).mp hq
      rw [hh, hl] at hj
      have hj' : (l : ℝ) * (len r)⁻¹ = j * (len r)⁻¹ := by linear_combination hj
      obtain rfl : l = j := by exact_mod_cast mul_right_cancel₀ hinv hj'
      exact ⟨i, k, by rw [hlat, ha, hb]⟩
    · rintro ⟨i, k, rfl⟩
      refine ⟨x.sbases.mulVec ⟨(o + a).x + i + ((j % 2 : ℤ) : ℝ) / 3, (o + a).y + k - ((j % 2 : ℤ) : ℝ) / 3, (o + a).z + (j : ℝ) / 2⟩,
        (basal_crystal hx hs hZ ho _).mpr ⟨_, ⟨j, i, k, rfl, rfl, rfl⟩, rfl⟩, by rw [hh]; ring, by rw [hlat]⟩

theorem lateralFrom_displaced {n b : V3 ℝ} {c d : ℝ} {g g' : Gen ℝ} (h : Displaced b g g') (Z m : ℤ) (hb : height n b = m * d) (j : ℤ) :
    LateralFrom n c d g' Z j = {w | ∃ u ∈ LateralFrom n c d g Z (j - m), w = u + (b - height n b • n)} := by
  ext w
  constructor
  · rintro ⟨q, hq, hj, rfl⟩
    obtain ⟨⟨q', Z'⟩, h1, h2, h3⟩ := (h (q, Z)).mp hq
    simp only at h2 h3
    subst h2 h3
    rw [height_add, hb] at hj
    refine ⟨q' - height n q' • n, ⟨q', h1, by push_cast; linarith, rfl⟩, ?_⟩
    rw [height_add]; ext <;> simp <;> ring
  · rintro ⟨u, ⟨q, hq, hj, rfl⟩, rfl⟩
    refine ⟨q + b, (h (q + b, Z)).mpr ⟨(q, Z), hq, rfl, rfl⟩, ?_, ?_⟩
    · rw [height_add, hj, hb]; push_cast; ring
    · rw [height_add]; ext <;> simp <;> ring

theorem layersFrom_displaced {n b : V3 ℝ} {c d : ℝ} {g g' : Gen ℝ} (h : Displaced b g g') (Z m : ℤ) (hb : height n b = m * d)
    (hl : LayersFrom n c d g Z) : LayersFrom n c d g' Z := by
  intro q hq
  obtain ⟨⟨q', Z'⟩, h1, h2, h3⟩ := (h (q, Z)).mp hq
  simp only at h2 h3
  subst h2 h3
  obtain ⟨j, hj⟩ := hl q' h1
  exact ⟨j + m, by rw [height_add, hj, hb]; push_cast; ring⟩

set_option maxHeartbeats 1000000 in
/-- **C94 (every origin, sublattice and size).** For an unstrained crystal whose c axis is perpendicular to a and b, wherever its origin lies and
however large or far away the body is: whenever `build_object` of wurtziteStackingFault returns, every species on hexagonal close-packed sites -
both sublattices of wurtzite - is stacked ABAB in all grains, and between consecutive grains there is a basal fault of type I₁. -/
theorem C94_basal_faults (env : Env) (p : Wurtzite) (g : Gen ℝ) (v : Vol) (x : Voxel ℝ) (s : Struct ℝ) (r : V3 ℝ) (hg : p.gen = some g)
    (hv : p.vol = some (.vol v)) (H : Regular g x s ⟨0, 0, 2⟩ r) (hs : ColumnScale x.scale) (hc : UprightCell x.sbases) (hi : Intact env v)
    (hN : 0 ≤ p.N) (hm : 0 ≤ p.minSep) (split : ℕ → ℕ) (fuel : ℕ) (t : VTree) (h : p.build env split fuel = some (.ok t)) :
    ∃ (n : V3 ℝ) (d : ℝ) (K : ℕ → ℤ) (ws : ℕ → Vol) (gs : ℕ → Gen ℝ), 0 < d ∧ cart x.sbases 0 ⟨0, 0, 1⟩ = (2 * d) • n ∧ len n = 1 ∧
      t = .multi ((List.range (p.N.toNat + 1)).map fun k => .vol (ws k)) 0 none ∧
      (∀ i j, i < j → j < p.N.toNat → K j + p.minSep ≤ K i) ∧ gs 0 = g ∧
      (∀ k, k ≤ p.N.toNat → (ws k).gen = some (.crystal (gs k)) ∧
        ∀ q, Owns env ws (p.N.toNat + 1) k q ↔ Inside env (.vol v) q ∧ InLayer n (fun k => K k * d) (1 / 10 ^ 5) p.N.toNat k q) ∧
      ∀ Z a, HcpSitesAt s Z a → ∃ c,
        (∀ k, k ≤ p.N.toNat → LayersFrom n c d (gs k) Z ∧ HexStack (LateralFrom n c d (gs k) Z)) ∧
        ∀ k, k < p.N.toNat → BasalFault (LateralFrom n c d (gs k) Z) (LateralFrom n c d (gs (k + 1)) Z) := by
  have h0 : 0 < len r := machEps_pos.trans H.length
  have e2 : norm3 ((len r)⁻¹ • r) = 1 := by rw [len_eq] at h0 ⊢; exact norm3_unit h0.ne'
  have hax := upright_axis H.det hc H.recip h0
  obtain ⟨R', n0, st, hR, hn0, rfl, R⟩ := wurtzite_run hg hv H.voxel hN h
  obtain ⟨b, se, Ss, Se, q0, K, X, gs, ss, ts, bs, ws, a1, a2, a3, a4, a5, a6, a7, a8, a9, a10, a11, a12, a13, sp, a14, a15⟩ := run_spec H hi hN hm R
  obtain ⟨w1, w2⟩ := wurtzite_loop H.voxel hs (pl := fun k => rung ((len r)⁻¹ • r) q0 (len r)⁻¹ (X k)) a9 a10 a13
  obtain ⟨o, ho⟩ := frac_exists H.det x.origin
  have hh : ∀ f : V3 ℝ, height ((len r)⁻¹ • r) (x.sbases.mulVec f) = 2 * f.z * (len r)⁻¹ := by
    intro f; rw [height_miller H.recip h0, div_eq_mul_inv]; simp [miller]
  have hhz : ∀ (k b : ℕ), height ((len r)⁻¹ • r) (((-1) ^ k : ℝ) • x.sbases.mulVec ⟨(b : ℝ) / 3, -(b : ℝ) / 3, 0⟩ + x.sbases.mulVec ⟨0, 0, -1 / 2⟩) =
      ((-1 : ℤ) : ℝ) * (len r)⁻¹ := by
    intro k b
    rw [height_add, height_smul, hh, hh]; push_cast; ring
  have hlat : ∀ (k b : ℕ), ((-1) ^ k : ℝ) • x.sbases.mulVec ⟨(b : ℝ) / 3, -(b : ℝ) / 3, 0⟩ + x.sbases.mulVec ⟨0, 0, -1 / 2⟩ -
      (((-1 : ℤ) : ℝ) * (len r)⁻¹) • ((len r)⁻¹ • r) = x.sbases.mulVec ⟨(((-1) ^ k * b : ℤ) : ℝ) / 3, -(((-1) ^ k * b : ℤ) : ℝ) / 3, 0⟩ := by
    intro k b
    have e1 : x.sbases.mulVec ⟨0, 0, -1 / 2⟩ = (-1 / 2 : ℝ) • x.sbases.mulVec ⟨0, 0, 1⟩ := by
      rw [← M3.mulVec_smul]; congr 1; ext <;> simp
    have e2 : x.sbases.mulVec ⟨(((-1) ^ k * b : ℤ) : ℝ) / 3, -(((-1) ^ k * b : ℤ) : ℝ) / 3, 0⟩ = ((-1) ^ k : ℝ) • x.sbases.mulVec ⟨(b : ℝ) / 3, -(b : ℝ) / 3, 0⟩ := by
      rw [← M3.mulVec_smul]; congr 1; ext <;> simp only [V3.smul_x, V3.smul_y, V3.smul_z] <;> push_cast <;> ring
    rw [e1, e2, hax]
    push_cast
    ext <;> simp <;> ring
  refine ⟨(len r)⁻¹ • r, (len r)⁻¹, K, ws, gs, inv_pos.mpr h0, by rw [cart_eq, add_zero, hax], by rw [len_eq, e2], a7, a6, a9, ?_, ?_⟩
  · intro k hk
    refine ⟨(a8 k hk).1, fun q => ?_⟩
    rw [(a8 k hk).2]
    simp only [div_eq_mul_inv]
  intro Z a hZ
  obtain ⟨l1, l2⟩ := basal_lateral H.voxel H.struct hZ ho H.det hc H.recip h0
  refine ⟨2 * (o + a).z * (len r)⁻¹, ?_⟩
  generalize 2 * (o + a).z * (len r)⁻¹ = c at *
  have hstep : ∀ (k b : ℕ), Displaced (((-1) ^ k : ℝ) • x.sbases.mulVec ⟨(b : ℝ) / 3, -(b : ℝ) / 3, 0⟩ + x.sbases.mulVec ⟨0, 0, -1 / 2⟩) (gs k) (gs (k + 1)) →
      ∀ (m j : ℤ), LateralFrom ((len r)⁻¹ • r) c (len r)⁻¹ (gs k) Z (j + 1) = basalLayer x.sbases (o + a) m →
      LateralFrom ((len r)⁻¹ • r) c (len r)⁻¹ (gs (k + 1)) Z j = basalLayer x.sbases (o + a) (m + (-1) ^ k * b) := by
    intro k b hD m j hj
    rw [lateralFrom_displaced hD Z (-1) (hhz k b), sub_neg_eq_add, hj, hhz, hlat, basalLayer_shift]
  have hdis : ∀ k, k < p.N.toNat → ∃ b : ℕ, (b = 1 ∨ b = 2) ∧
      Displaced (((-1) ^ k : ℝ) • x.sbases.mulVec ⟨(b : ℝ) / 3, -(b : ℝ) / 3, 0⟩ + x.sbases.mulVec ⟨0, 0, -1 / 2⟩) (gs k) (gs (k + 1)) := by
    intro k hk
    obtain ⟨b, hb, -, hD⟩ := w2 k hk
    rw [cart_eq, add_zero, cart_eq, add_zero] at hD
    exact ⟨b, hb, hD⟩
  have hst : ∀ k, k ≤ p.N.toNat → ∃ m : ℤ, LayersFrom ((len r)⁻¹ • r) c (len r)⁻¹ (gs k) Z ∧
      ∀ j, LateralFrom ((len r)⁻¹ • r) c (len r)⁻¹ (gs k) Z j = basalLayer x.sbases (o + a) ((j + k) % 2 + m) := by
    intro k
    induction k with
    | zero => intro _; rw [a9]; exact ⟨0, l1, fun j => by rw [l2]; simp⟩
    | succ k ih =>
      intro hk
      obtain ⟨m, i1, i2⟩ := ih (by omega)
      obtain ⟨b, -, hD⟩ := hdis k (by omega)
      refine ⟨m + (-1) ^ k * b, layersFrom_displaced hD Z (-1) (hhz k b) i1, fun j => ?_⟩
      rw [hstep k b hD _ j (i2 (j + 1))]
      congr 1
      push_cast
      rw [show j + 1 + (k : ℤ) = j + (k + 1) by ring]
      ring
  constructor
  · intro k hk
    obtain ⟨m, i1, i2⟩ := hst k hk
    refine ⟨i1, fun j => ?_⟩
    rw [i2, i2, i2]
    refine ⟨⟨_, 0, 0, rfl⟩, ?_, ?_⟩
    · rw [Ne, basalLayer_eq_iff H.det]; omega
    · rw [basalLayer_eq_iff H.det]; omega
  · intro k hk
    obtain ⟨m, i1, i2⟩ := hst k hk.le
    obtain ⟨b, hb, hD⟩ := hdis k hk
    refine ⟨b, fun j => ?_⟩
    have s1 := hstep k b hD _ j (i2 _)
    have s2 := hstep k b hD _ (j - 1) (i2 _)
    rw [s1, s2, i2, Ne, basalLayer_eq_iff H.det, basalLayer_eq_iff H.det]
    have hk2 : ((-1) ^ k = (1 : ℤ) ∧ (k : ℤ) % 2 = 0) ∨ ((-1) ^ k = (-1 : ℤ) ∧ (k : ℤ) % 2 = 1) := by
      rcases Nat.even_or_odd k with he | ho
      · left; exact ⟨he.neg_one_pow, by obtain ⟨m, rfl⟩ := he; push_cast; omega⟩
      · right; exact ⟨ho.neg_one_pow, by obtain ⟨m, rfl⟩ := ho; push_cast; omega⟩
    rcases hk2 with ⟨e, e'⟩ | ⟨e, e'⟩ <;> rw [e] <;> rcases hb with rfl | rfl <;> constructor <;> push_cast <;> omega

/-! ## Zinc oxide -/

/-- Wurtzite with both sublattices (a = 1, c = 2, u = 3/8). -/
def zincOxide : Struct ℝ :=
  ⟨hexCell, [(⟨1 / 3, 2 / 3, 0⟩, 30), (⟨2 / 3, 1 / 3, 1 / 2⟩, 30), (⟨1 / 3, 2 / 3, 3 / 8⟩, 8), (⟨2 / 3, 1 / 3, 7 / 8⟩, 8)]⟩

/-- Its crystal, with the origin between the lattice points. -/
def zincGen : Gen ℝ := ⟨some zincOxide, some ⟨hexCell, .scalar 1, ⟨1 / 7, 1 / 5, 1 / 3⟩⟩, none, none⟩

def zincPrefab : Wurtzite := ⟨some zincGen, some (.vol (ball 0 10)), 2, 3⟩

theorem zinc_sbases : (⟨hexCell, .scalar 1, ⟨1 / 7, 1 / 5, 1 / 3⟩⟩ : Voxel ℝ).sbases = hexCell := by
  unfold Voxel.sbases; simp [M3.smul_def]

theorem zinc_regular : Regular zincGen ⟨hexCell, .scalar 1, ⟨1 / 7, 1 / 5, 1 / 3⟩⟩ zincOxide ⟨0, 0, 2⟩ ⟨0, 0, 1⟩ where
  voxel := rfl
  struct := rfl
  strain := rfl
  det := by rw [zinc_sbases]; simp [hexCell, M3.det]
  lattice := by simp [zincOxide, hexCell, M3.det]
  recip := by
    rw [zinc_sbases]; intro f; rw [cart_eq, add_zero]; simp [miller, hexCell, M3.mulVec]
  length := by rw [len_e3]; exact machEps_lt_one
  spacing := ⟨⟨0, 0, 1⟩, by
    intro f
    rw [cart_eq, add_zero]; simp [miller, zincOxide, hexCell, M3.mulVec, M3.transpose], rfl⟩

theorem zinc_sites : HcpSitesAt zincOxide 30 ⟨1 / 3, 2 / 3, 0⟩ ∧ HcpSitesAt zincOxide 8 ⟨1 / 3, 2 / 3, 3 / 8⟩ := by
  constructor
  · refine ⟨fun f hf => ⟨0, 0, 0, ?_⟩, ⟨0, 0, 0, ?_⟩, ⟨0, 0, 0, ?_⟩⟩
    · simp only [zincOxide, List.mem_cons, Prod.mk.injEq, List.not_mem_nil, or_false] at hf
      rcases hf with ⟨rfl, -⟩ | ⟨rfl, -⟩ | ⟨-, h⟩ | ⟨-, h⟩
      · left; ext <;> norm_num
      · right; ext <;> norm_num
      · omega
      · omega
    · simp [zincOxide]
    · simp only [zincOxide, List.mem_cons, Prod.mk.injEq]; right; left; refine ⟨?_, trivial⟩; ext <;> norm_num
  · refine ⟨fun f hf => ⟨0, 0, 0, ?_⟩, ⟨0, 0, 0, ?_⟩, ⟨0, 0, 0, ?_⟩⟩
    · simp only [zincOxide, List.mem_cons, Prod.mk.injEq, List.not_mem_nil, or_false] at hf
      rcases hf with ⟨-, h⟩ | ⟨-, h⟩ | ⟨rfl, -⟩ | ⟨rfl, -⟩
      · omega
      · omega
      · left; ext <;> norm_num
      · right; ext <;> norm_num
    · simp [zincOxide]
    · simp only [zincOxide, List.mem_cons, Prod.mk.injEq]; right; right; right; left; refine ⟨?_, trivial⟩; ext <;> norm_num

/-- Concrete case: two faults in a ball of zinc oxide; both the zinc and the oxygen layers are faulted. -/
example (env : Env) : ∃ split fuel t, zincPrefab.build env split fuel = some (.ok t) ∧
    ∃ (n : V3 ℝ) (d : ℝ) (gs : ℕ → Gen ℝ), gs 0 = zincGen ∧
      ∃ c c', (∀ k, k ≤ 2 → HexStack (LateralFrom n c d (gs k) 30) ∧ HexStack (LateralFrom n c' d (gs k) 8)) ∧
        ∀ k, k < 2 → BasalFault (LateralFrom n c d (gs k) 30) (LateralFrom n c d (gs (k + 1)) 30) ∧
          BasalFault (LateralFrom n c' d (gs k) 8) (LateralFrom n c' d (gs (k + 1)) 8) := by
  have H := zinc_regular
  have hi := ball_intact env 0 10
  have h2 : (0 : ℤ) ≤ zincPrefab.N := by show (0 : ℤ) ≤ 2; norm_num
  have h3 : (0 : ℤ) ≤ zincPrefab.minSep := by show (0 : ℤ) ≤ 3; norm_num
  have s3 : √3 ≠ 0 := by simp
  obtain ⟨-, split, fuel, t, ht⟩ := C90_wurtzite_returns_partial env zincPrefab _ _ _ _ _ rfl rfl H (by rw [len_e3]; norm_num [machEps]) trivial hi h2 h3
    ⟨⟨1, 0, 0, 1 / √3, 2 / √3, 0, 0, 0, 1 / 2⟩, 1, by
      rw [zinc_sbases]; ext <;> simp [hexCell, M3.mul_def, M3.one_def] <;> field_simp <;> norm_num, one_pos, by
      rw [cart_eq, add_zero]; ext <;> simp [M3.mulVec]⟩ (-10) 10 (ball_range env 0 (by norm_num) _) (by
      rw [len_e3]
      show (((2 + 1) * 3 + 1 : ℤ) : ℝ) ≤ _
      norm_num)
  refine ⟨split, fuel, t, ht, ?_⟩
  obtain ⟨n, d, K, ws, gs, -, -, -, -, -, k2, -, k4⟩ := C94_basal_faults env zincPrefab _ _ _ _ _ rfl rfl H trivial
    (by intro u w; rw [zinc_sbases, cart_eq, cart_eq, add_zero, add_zero]; simp [Perp, hexCell, M3.mulVec]) hi h2 h3 _ _ _ ht
  obtain ⟨c, z1, z2⟩ := k4 _ _ zinc_sites.1
  obtain ⟨c', o1, o2⟩ := k4 _ _ zinc_sites.2
  exact ⟨n, d, gs, k2, c, c', fun k hk => ⟨(z1 k hk).2, (o1 k hk).2⟩, fun k hk => ⟨z2 k hk, o2 k hk⟩⟩

end Prefab

end
end CZ
