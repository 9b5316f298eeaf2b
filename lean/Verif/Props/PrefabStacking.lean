import Verif.Props.PrefabCubic

/-!
# Property C89: stacking of the layers in the fcc prefabs
-/

namespace CZ
open Spec

noncomputable section
open Classical

namespace Prefab

/-! ## Layers under the operations -/

theorem height_add (n p q : V3 ℝ) : height n (p + q) = height n p + height n q := by
  unfold height; simp only [V3.add_x, V3.add_y, V3.add_z]; ring

theorem height_sub (n p q : V3 ℝ) : height n (p - q) = height n p - height n q := by
  unfold height; simp only [V3.sub_x, V3.sub_y, V3.sub_z]; ring

/-- A displacement within the layers. -/
theorem lateral_displaced {n b : V3 ℝ} {d : ℝ} {g g' : Gen ℝ} (h : Displaced b g g') (Z m : ℤ) (hb : height n b = m * d) (j : ℤ) :
    Lateral n d g' Z j = {w | ∃ u ∈ Lateral n d g Z (j - m), w = u + (b - height n b • n)} := by
  ext w
  constructor
  · rintro ⟨q, hq, hj, rfl⟩
    obtain ⟨⟨q', Z'⟩, h1, h2, h3⟩ := (h (q, Z)).mp hq
    simp only at h2 h3
    subst h2 h3
    rw [height_add, hb] at hj
    refine ⟨q' - height n q' • n, ⟨q', h1, by push_cast; linarith, rfl⟩, ?_⟩
    rw [height_add]; ext <;> simp <;> ring
  · rintro ⟨u, ⟨q, hq, hj, rfl⟩, rfl⟩
    refine ⟨q + b, (h (q + b, Z)).mpr ⟨(q, Z), hq, rfl, rfl⟩, ?_, ?_⟩
    · rw [height_add, hj, hb]; push_cast; ring
    · rw [height_add]; ext <;> simp <;> ring

theorem layers_displaced {n b : V3 ℝ} {d : ℝ} {g g' : Gen ℝ} (h : Displaced b g g') (Z m : ℤ) (hb : height n b = m * d) (hl : Layers n d g Z) :
    Layers n d g' Z := by
  intro q hq
  obtain ⟨⟨q', Z'⟩, h1, h2, h3⟩ := (h (q, Z)).mp hq
  simp only at h2 h3
  subst h2 h3
  obtain ⟨j, hj⟩ := hl q' h1
  exact ⟨j + m, by rw [height_add, hj, hb]; push_cast; ring⟩

/-- Mirror images: heights are reflected, lateral positions kept. -/
theorem mirror_height {n q x y : V3 ℝ} (hn : norm3 n = 1) (h : MirrorImage n q x y) :
    height n y = 2 * height n q - height n x ∧ y - height n y • n = x - height n x • n := by
  have h1 : n.x * n.x + n.y * n.y + n.z * n.z = 1 := norm3_eq_one.mp hn
  obtain ⟨m1, s, m2⟩ := h
  have ey : y = x + s • n := by rw [← m2]; ext <;> simp
  subst ey
  have hh : height n (x + s • n) = height n x + s := by
    rw [height_add]; unfold height; simp only [V3.smul_x, V3.smul_y, V3.smul_z]; linear_combination s * h1
  rw [hh]
  constructor
  · unfold Perp at m1
    unfold height
    simp only [V3.sub_x, V3.sub_y, V3.sub_z, V3.add_x, V3.add_y, V3.add_z, V3.smul_x, V3.smul_y, V3.smul_z] at m1
    linear_combination 2 * m1 - s * h1
  · ext <;> simp <;> ring

theorem mirror_exists {n x : V3 ℝ} (hn : norm3 n = 1) (c : ℝ) : ∃ y q, height n q = c ∧ MirrorImage n q x y := by
  refine ⟨(Tr.mkReflection ⟨n, c • n, 1⟩ true false).apply x, c • n, by rw [height_smul, height_self hn, mul_one], ?_⟩
  exact (C41_reflection_is_mirror ⟨n, c • n, 1⟩ (by rw [len_eq]; exact hn) true false x).1

theorem lateral_mirrored {n : V3 ℝ} (hn : norm3 n = 1) {d : ℝ} {g g' : Gen ℝ} {K : ℤ} (h : Mirrored n (K * d) g g') (Z j : ℤ) :
    Lateral n d g' Z j = Lateral n d g Z (2 * K - j) := by
  ext w
  constructor
  · rintro ⟨q, hq, hj, rfl⟩
    obtain ⟨⟨q', Z'⟩, h1, h2, c, h3, h4⟩ := (h (q, Z)).mp hq
    simp only at h2 h4
    subst h2
    obtain ⟨e1, e2⟩ := mirror_height hn h4
    exact ⟨q', h1, by push_cast; linarith, e2⟩
  · rintro ⟨q, hq, hj, rfl⟩
    obtain ⟨y, c, h3, h4⟩ := mirror_exists (x := q) hn (K * d)
    obtain ⟨e1, e2⟩ := mirror_height hn h4
    refine ⟨y, (h (y, Z)).mpr ⟨(q, Z), hq, rfl, c, h3, h4⟩, ?_, e2.symm⟩
    rw [e1, h3, hj]; push_cast; ring

theorem layers_mirrored {n : V3 ℝ} (hn : norm3 n = 1) {d : ℝ} {g g' : Gen ℝ} {K : ℤ} (h : Mirrored n (K * d) g g') {Z : ℤ} (hl : Layers n d g Z) :
    Layers n d g' Z := by
  intro q hq
  obtain ⟨⟨q', Z'⟩, h1, h2, c, h3, h4⟩ := (h (q, Z)).mp hq
  simp only at h2 h4
  subst h2
  obtain ⟨j, hj⟩ := hl q' h1
  refine ⟨2 * K - j, ?_⟩
  rw [(mirror_height hn h4).1, h3, hj]; push_cast; ring

/-! ## The fcc lattice -/

/-- Crystal coordinates of face-centred cubic sites. -/
def InFcc (f : V3 ℝ) : Prop := ∃ i j k : ℤ, 2 * f.x = i ∧ 2 * f.y = j ∧ 2 * f.z = k ∧ 2 ∣ i + j + k

theorem fcc_crystal {g : Gen ℝ} {x : Voxel ℝ} {s : Struct ℝ} {Z : ℤ} (hx : g.voxel = some x) (hs : g.struct = some s) (hZ : FccSites s Z) {o : V3 ℤ}
    (ho : x.origin = cart x.sbases 0 ⟨(o.x : ℝ), (o.y : ℝ), (o.z : ℝ)⟩) (q : V3 ℝ) :
    (q, Z) ∈ CrystalOf g ↔ ∃ f, InFcc f ∧ q = x.sbases.mulVec f := by
  have hsite : ∀ n f, siteAt x.sbases x.origin n f = x.sbases.mulVec ⟨(o.x : ℝ) + n.x + f.x, (o.y : ℝ) + n.y + f.y, (o.z : ℝ) + n.z + f.z⟩ := by
    intro n f
    rw [siteAt_eq, ho, cart_eq, add_zero, ← M3.mulVec_add]
    rw [← M3.mulVec_add]; congr 1; ext <;> simp [Gen.castV] <;> ring
  constructor
  · rintro ⟨v', s', e1, e2, n, ⟨f, Z'⟩, hf, he⟩
    rw [hx] at e1; cases e1
    rw [hs] at e2; cases e2
    injection he with he1 he2
    simp only at he1 he2
    subst he2
    rw [he1, hsite]
    refine ⟨_, ?_, rfl⟩
    rcases (hZ f).mp hf with rfl | rfl | rfl | rfl
    · exact ⟨2 * (o.x + n.x), 2 * (o.y + n.y), 2 * (o.z + n.z), by push_cast; ring, by push_cast; ring, by push_cast; ring, by omega⟩
    · exact ⟨2 * (o.x + n.x) + 1, 2 * (o.y + n.y) + 1, 2 * (o.z + n.z), by push_cast; ring, by push_cast; ring, by push_cast; ring, by omega⟩
    · exact ⟨2 * (o.x + n.x) + 1, 2 * (o.y + n.y), 2 * (o.z + n.z) + 1, by push_cast; ring, by push_cast; ring, by push_cast; ring, by omega⟩
    · exact ⟨2 * (o.x + n.x), 2 * (o.y + n.y) + 1, 2 * (o.z + n.z) + 1, by push_cast; ring, by push_cast; ring, by push_cast; ring, by omega⟩
  · rintro ⟨f, ⟨i, j, k, hi, hj, hk, hp⟩, rfl⟩
    have key : ∀ (e : V3 ℝ) (n : V3 ℤ), (e, Z) ∈ s.sites → f = ⟨(n.x : ℝ) + e.x, (n.y : ℝ) + e.y, (n.z : ℝ) + e.z⟩ →
        (x.sbases.mulVec f, Z) ∈ CrystalOf g := by
      intro e n he hf
      refine ⟨x, s, hx, hs, ⟨n.x - o.x, n.y - o.y, n.z - o.z⟩, (e, Z), he, ?_⟩
      rw [hsite, hf]
      congr 2
      ext <;> simp
    have par : ∀ t : ℤ, ∃ m : ℤ, t = 2 * m ∨ t = 2 * m + 1 := fun t => ⟨t / 2, by omega⟩
    obtain ⟨a, ha⟩ := par i
    obtain ⟨b, hb⟩ := par j
    obtain ⟨c, hc⟩ := par k
    rcases ha with rfl | rfl <;> rcases hb with rfl | rfl <;> rcases hc with rfl | rfl
    · exact key ⟨0, 0, 0⟩ ⟨a, b, c⟩ ((hZ _).mpr (.inl rfl)) (by push_cast at hi hj hk; ext <;> simp <;> linarith)
    · omega
    · omega
    · exact key ⟨0, 1 / 2, 1 / 2⟩ ⟨a, b, c⟩ ((hZ _).mpr (.inr (.inr (.inr rfl)))) (by push_cast at hi hj hk; ext <;> simp <;> linarith)
    · omega
    · exact key ⟨1 / 2, 0, 1 / 2⟩ ⟨a, b, c⟩ ((hZ _).mpr (.inr (.inr (.inl rfl)))) (by push_cast at hi hj hk; ext <;> simp <;> linarith)
    · exact key ⟨1 / 2, 1 / 2, 0⟩ ⟨a, b, c⟩ ((hZ _).mpr (.inr (.inl rfl))) (by push_cast at hi hj hk; ext <;> simp <;> linarith)
    · omega

/-- One of the eight planes {111}. -/
def Is111 (h : V3 ℤ) : Prop := (h.x = 1 ∨ h.x = -1) ∧ (h.y = 1 ∨ h.y = -1) ∧ (h.z = 1 ∨ h.z = -1)

theorem is111_sq {h : V3 ℤ} (H : Is111 h) : (h.x : ℝ) * h.x = 1 ∧ (h.y : ℝ) * h.y = 1 ∧ (h.z : ℝ) * h.z = 1 := by
  obtain ⟨h1 | h1, h2 | h2, h3 | h3⟩ := H <;> rw [h1, h2, h3] <;> norm_num

theorem is111_sign {h : V3 ℤ} (H : Is111 h) : h.x.sign = h.x ∧ h.y.sign = h.y ∧ h.z.sign = h.z := by
  obtain ⟨h1 | h1, h2 | h2, h3 | h3⟩ := H <;> rw [h1, h2, h3] <;> decide

/-- Lateral positions of the layer with number `j` of the fcc crystal. -/
def fccLayer (B : M3 ℝ) (h : V3 ℤ) (j : ℤ) : Set (V3 ℝ) := {w | ∃ f, InFcc f ∧ miller h f = j ∧ w = B.mulVec (f - ((j : ℝ) / 3) • millerV h)}

/-- Displacement of a stacking fault in crystal coordinates. -/
def shockley (h : V3 ℤ) : V3 ℝ := ⟨h.x / 3, h.y / 3, -2 * h.z / 3⟩

theorem inFcc_add {f e : V3 ℝ} (h1 : InFcc f) (h2 : InFcc e) : InFcc (f + e) := by
  obtain ⟨i, j, k, a, b, c, d⟩ := h1
  obtain ⟨i', j', k', a', b', c', d'⟩ := h2
  exact ⟨i + i', j + j', k + k', by simp; linarith, by simp; linarith, by simp; linarith, by omega⟩

theorem miller_add (h : V3 ℤ) (f e : V3 ℝ) : miller h (f + e) = miller h f + miller h e := by
  unfold miller; simp; ring

/-- Shifting the layer number by the number of a site. -/
theorem fccLayer_shift {B : M3 ℝ} {h : V3 ℤ} {e : V3 ℝ} {m : ℤ} (h1 : InFcc e) (h1' : InFcc (-e)) (h2 : miller h e = m) (j : ℤ) :
    fccLayer B h (j + m) = {w | ∃ u ∈ fccLayer B h j, w = u + B.mulVec (e - ((m : ℝ) / 3) • millerV h)} := by
  ext w
  constructor
  · rintro ⟨f, f1, f2, rfl⟩
    refine ⟨_, ⟨f + -e, inFcc_add f1 h1', ?_, rfl⟩, ?_⟩
    · have : miller h (-e) = -(m : ℝ) := by rw [← h2]; unfold miller; simp; ring
      rw [miller_add, f2, this]; push_cast; ring
    · rw [← M3.mulVec_add]; congr 1; ext <;> simp <;> ring
  · rintro ⟨u, ⟨f, f1, f2, rfl⟩, rfl⟩
    refine ⟨f + e, inFcc_add f1 h1, by rw [miller_add, f2, h2]; push_cast; ring, ?_⟩
    rw [← M3.mulVec_add]; congr 1; ext <;> simp <;> ring

theorem fccLayer_three (B : M3 ℝ) {h : V3 ℤ} (H : Is111 h) (j : ℤ) : fccLayer B h (j + 3) = fccLayer B h j := by
  obtain ⟨q1, q2, q3⟩ := is111_sq H
  have hodd : 2 ∣ 2 * h.x + 2 * h.y + 2 * h.z := ⟨h.x + h.y + h.z, by ring⟩
  rw [fccLayer_shift (e := millerV h) (m := 3) ⟨2 * h.x, 2 * h.y, 2 * h.z, by simp [millerV], by simp [millerV], by simp [millerV], hodd⟩
    ⟨-(2 * h.x), -(2 * h.y), -(2 * h.z), by simp [millerV], by simp [millerV], by simp [millerV], by omega⟩
    (by simp only [miller, millerV]; push_cast; linarith)]
  have : B.mulVec (millerV h - (((3 : ℤ) : ℝ) / 3) • millerV h) = 0 := by
    rw [show millerV h - (((3 : ℤ) : ℝ) / 3) • millerV h = 0 by ext <;> simp]
    ext <;> simp [M3.mulVec]
  rw [this]; ext w; simp

theorem fccLayer_three_mul (B : M3 ℝ) {h : V3 ℤ} (H : Is111 h) (j m : ℤ) : fccLayer B h (j + 3 * m) = fccLayer B h j := by
  induction m using Int.induction_on with
  | zero => rw [mul_zero, add_zero]
  | succ i ih => rw [← ih, ← fccLayer_three B H (j + 3 * i)]; congr 1; ring
  | pred i ih => rw [← ih, ← fccLayer_three B H (j + 3 * (-i - 1))]; congr 1; ring

/-- A stacking fault moves layer j on layer j + 2. -/
theorem fccLayer_fault (B : M3 ℝ) {h : V3 ℤ} (H : Is111 h) (j : ℤ) :
    {w | ∃ u ∈ fccLayer B h j, w = u + B.mulVec (shockley h)} = fccLayer B h (j + 2) := by
  obtain ⟨q1, q2, q3⟩ := is111_sq H
  rw [fccLayer_shift (e := ⟨h.x, h.y, 0⟩) (m := 2) ⟨2 * h.x, 2 * h.y, 0, by simp, by simp, by simp, by omega⟩
    ⟨-(2 * h.x), -(2 * h.y), 0, by simp, by simp, by simp, by omega⟩ (by simp only [miller]; push_cast; linarith)]
  have : (⟨h.x, h.y, 0⟩ : V3 ℝ) - (((2 : ℤ) : ℝ) / 3) • millerV h = shockley h := by
    unfold shockley millerV; ext <;> simp <;> ring
  rw [this]

theorem fccLayer_fault_neg (B : M3 ℝ) {h : V3 ℤ} (H : Is111 h) (j : ℤ) :
    {w | ∃ u ∈ fccLayer B h j, w = u + -B.mulVec (shockley h)} = fccLayer B h (j - 2) := by
  have := fccLayer_fault B H (j - 2)
  rw [sub_add_cancel] at this
  ext w
  constructor
  · rintro ⟨u, hu, rfl⟩
    rw [← this] at hu
    obtain ⟨z, hz, rfl⟩ := hu
    simpa using hz
  · intro hw
    refine ⟨w + B.mulVec (shockley h), ?_, by simp⟩
    rw [← this]
    exact ⟨w, hw, rfl⟩

theorem mulVec_inj {B : M3 ℝ} (hd : B.det ≠ 0) {u v : V3 ℝ} (h : B.mulVec u = B.mulVec v) : u = v := by
  have h1 := (M3.solve_iff B (B.mulVec u) u hd).mpr rfl
  have h2 := (M3.solve_iff B (B.mulVec u) v hd).mpr h.symm
  rw [h1] at h2
  exact Except.ok.inj h2

theorem fccLayer_nonempty (B : M3 ℝ) {h : V3 ℤ} (H : Is111 h) (j : ℤ) : (fccLayer B h j).Nonempty := by
  obtain ⟨q1, q2, q3⟩ := is111_sq H
  refine ⟨_, ⟨(j : ℝ) * h.x / 2, (j : ℝ) * h.y / 2, 0⟩, ⟨j * h.x, j * h.y, 0, by push_cast; ring, by push_cast; ring, by simp, ?_⟩, ?_, rfl⟩
  · obtain ⟨h1 | h1, h2 | h2, -⟩ := H <;> rw [h1, h2] <;> omega
  · simp only [miller]; push_cast
    linear_combination (j : ℝ) / 2 * q1 + (j : ℝ) / 2 * q2

theorem fccLayer_eq_iff {B : M3 ℝ} (hd : B.det ≠ 0) {h : V3 ℤ} (H : Is111 h) (i j : ℤ) : fccLayer B h i = fccLayer B h j ↔ 3 ∣ i - j := by
  constructor
  · intro e
    obtain ⟨w, hw⟩ := fccLayer_nonempty B H i
    have hw' := hw
    rw [e] at hw'
    obtain ⟨f, ⟨a, b, c, fa, fb, fc, -⟩, -, rfl⟩ := hw
    obtain ⟨f', ⟨a', b', c', fa', fb', fc', -⟩, -, e'⟩ := hw'
    have e1 := congrArg V3.x (mulVec_inj hd e')
    simp only [V3.sub_x, V3.smul_x, millerV] at e1
    have : (3 * (a - a') : ℝ) = 2 * (i - j) * h.x := by linarith
    have : 3 * (a - a') = 2 * (i - j) * h.x := by exact_mod_cast this
    obtain ⟨h1 | h1, -⟩ := H <;> rw [h1] at this <;> omega
  · rintro ⟨m, hm⟩
    rw [show i = j + 3 * m by omega, fccLayer_three_mul B H]

/-- The layers of the given crystal. -/
theorem fcc_lateral {g : Gen ℝ} {x : Voxel ℝ} {s : Struct ℝ} {Z : ℤ} (hx : g.voxel = some x) (hs : g.struct = some s) (hZ : FccSites s Z) {o : V3 ℤ}
    (ho : x.origin = cart x.sbases 0 ⟨(o.x : ℝ), (o.y : ℝ), (o.z : ℝ)⟩) {a : ℝ} (hB : CubicCell a x.sbases) {h : V3 ℤ} (H : Is111 h) {r : V3 ℝ}
    (hr : r = (a ^ 2)⁻¹ • x.sbases.mulVec (millerV h)) (h0 : 0 < len r) :
    Layers ((len r)⁻¹ • r) (len r)⁻¹ g Z ∧ ∀ j, Lateral ((len r)⁻¹ • r) (len r)⁻¹ g Z j = fccLayer x.sbases h j := by
  obtain ⟨q1, q2, q3⟩ := is111_sq H
  have ha := hB.1
  have hrec : IsReciprocal x.sbases h r := hr ▸ cubic_reciprocal hB h
  have hh : ∀ f, height ((len r)⁻¹ • r) (x.sbases.mulVec f) = miller h f / len r := height_miller hrec h0
  have hlen : len r ^ 2 = 3 / a ^ 2 := by
    rw [hr, cubic_len hB, div_pow, norm3_sq]
    congr 1
    simp only [V3.normSq, V3.dot, millerV]; linarith
  have hlat : ∀ f, x.sbases.mulVec f - height ((len r)⁻¹ • r) (x.sbases.mulVec f) • ((len r)⁻¹ • r) =
      x.sbases.mulVec (f - (miller h f / 3) • millerV h) := by
    intro f
    rw [hh, smul_smul, ← div_eq_mul_inv, div_div, ← pow_two, hlen]
    conv_lhs => rw [hr]
    rw [smul_smul, M3.mulVec_sub, M3.mulVec_smul]
    congr 2
    field_simp
  have hint : ∀ f, InFcc f → ∃ j : ℤ, miller h f = j := by
    rintro f ⟨i, j, k, e1, e2, e3, e4⟩
    obtain ⟨m, hm⟩ : 2 ∣ h.x * i + h.y * j + h.z * k := by
      obtain ⟨h1 | h1, h2 | h2, h3 | h3⟩ := H <;> rw [h1, h2, h3] <;> omega
    refine ⟨m, ?_⟩
    have : (h.x * i + h.y * j + h.z * k : ℝ) = 2 * m := by exact_mod_cast hm
    simp only [miller]; rw [← e1, ← e2, ← e3] at this; linarith
  constructor
  · intro q hq
    obtain ⟨f, hf, rfl⟩ := (fcc_crystal hx hs hZ ho q).mp hq
    obtain ⟨j, hj⟩ := hint f hf
    exact ⟨j, by rw [hh, hj, div_eq_mul_inv]⟩
  · intro j
    ext w
    constructor
    · rintro ⟨q, hq, hj, rfl⟩
      obtain ⟨f, hf, rfl⟩ := (fcc_crystal hx hs hZ ho q).mp hq
      rw [hh, div_eq_mul_inv] at hj
      have hj' := mul_right_cancel₀ (inv_ne_zero h0.ne') hj
      exact ⟨f, hf, hj', by rw [hlat, hj']⟩
    · rintro ⟨f, hf, hj, rfl⟩
      exact ⟨_, (fcc_crystal hx hs hZ ho _).mpr ⟨f, hf, rfl⟩, by rw [hh, hj, div_eq_mul_inv], by rw [hlat, hj]⟩

theorem reflMatrix_perp {n w : V3 ℝ} (hn : norm3 n = 1) (hw : height n w = 0) : (Tr.reflMatrix n).mulVec w = w := by
  have h1 : n.dot n = 1 := norm3_eq_one.mp hn
  unfold height at hw
  unfold Tr.reflMatrix
  rw [h1]
  ext <;> simp only [Tr.outer, M3.mulVec, M3.sub_def, M3.smul_def, M3.one_def]
  · linear_combination -2 * n.x * hw
  · linear_combination -2 * n.y * hw
  · linear_combination -2 * n.z * hw

/-! ## C89 -/

/-- **C89.** Layers of the fcc prefabs.  For an unstrained fcc crystal (cubic cell in any orientation, species `Z` on the face-centred
sites, origin on a lattice point) and a plane {111}: whenever `build_object` returns, the planes of the defects are atomic layers of
the crystals on both sides, all grains have the stacking ABCABC, and
* at a twin, the layer of the plane is common to both grains and the layers below it repeat those above it in reverse order
  (…ABCBA…);
* at a stacking fault, the lower grain continues with one layer left out: its layer at the plane sits where the second layer above
  the plane sits, so that no two adjacent layers are on top of each other.
Missing: other origins, for which it is false (`C89_any_origin`, `C89_origin_refuted`). -/
theorem C89_fcc_stacking_partial (env : Env) (p : Fcc) (g : Gen ℝ) (v : Vol) (x : Voxel ℝ) (s : Struct ℝ) (a : ℝ) (Z : ℤ) (hg : p.gen = some g)
    (hv : p.vol = some (.vol v)) (hx : g.voxel = some x) (hst : g.struct = some s) (hn : g.strain = none) (hs : ColumnScale x.scale)
    (hB : CubicCell a x.sbases) (hL : CubicCell a s.latticeMatrix) (ha : machEps * a < 1) (hZ : FccSites s Z) (h111 : Is111 p.plane) (o : V3 ℤ)
    (ho : x.origin = cart x.sbases 0 ⟨(o.x : ℝ), (o.y : ℝ), (o.z : ℝ)⟩)
    (hi : Intact env v) (hN : 0 ≤ p.N) (hm : 0 ≤ p.minSep) (split : ℕ → ℕ) (fuel : ℕ) (rand : ℕ → ℝ) (t : VTree) (tw sf : Bool)
    (h : p.build env split fuel rand = some (.ok (t, tw, sf))) :
    ∃ (n : V3 ℝ) (d : ℝ) (K : ℕ → ℤ) (ws : ℕ → Vol) (gs : ℕ → Gen ℝ), 0 < d ∧
      n = (len (cart x.sbases 0 (millerV p.plane)))⁻¹ • cart x.sbases 0 (millerV p.plane) ∧
      t = .multi ((List.range (p.N.toNat + 1)).map fun k => .vol (ws k)) 0 none ∧
      (∀ i j, i < j → j < p.N.toNat → K j + p.minSep ≤ K i) ∧ gs 0 = g ∧
      (∀ k, k ≤ p.N.toNat → (ws k).gen = some (.crystal (gs k)) ∧ Layers n d (gs k) Z ∧ CubicStack (Lateral n d (gs k) Z) ∧
        ∀ q, Owns env ws (p.N.toNat + 1) k q ↔ Inside env (.vol v) q ∧ InLayer n (fun k => K k * d) (1 / 10 ^ 5) p.N.toNat k q) ∧
      (∀ k, k < p.N.toNat → ¬ rand k < p.ratio → ∀ i, Lateral n d (gs (k + 1)) Z (K k - i) = Lateral n d (gs k) Z (K k + i)) ∧
      (∀ k, k < p.N.toNat → rand k < p.ratio → ∀ i, Lateral n d (gs (k + 1)) Z (K k - i) = Lateral n d (gs k) Z (K k + 2 - i)) := by
  have ha0 := hB.1
  have hn3 : 1 ≤ norm3 (millerV p.plane) := by
    obtain ⟨q1, q2, q3⟩ := is111_sq h111
    rw [← one_le_sq_iff₀ (norm3_nonneg _), norm3_sq]
    simp only [V3.normSq, V3.dot, millerV]; linarith
  have H := regular_cubic hx hst hn hB hL (h := p.plane) (lt_of_lt_of_le ha hn3)
  have hunit : (len (cart x.sbases 0 (millerV p.plane)))⁻¹ • cart x.sbases 0 (millerV p.plane) =
      (len ((a ^ 2)⁻¹ • x.sbases.mulVec (millerV p.plane)))⁻¹ • ((a ^ 2)⁻¹ • x.sbases.mulVec (millerV p.plane)) := by
    rw [cart_eq, add_zero, len_eq, len_eq, norm3_smul, abs_of_pos (by positivity), smul_smul]
    congr 1
    field_simp
  rw [hunit]
  obtain ⟨r, hr⟩ : ∃ r, r = (a ^ 2)⁻¹ • x.sbases.mulVec (millerV p.plane) := ⟨_, rfl⟩
  rw [← hr] at H ⊢
  have h0 : 0 < len r := machEps_pos.trans H.length
  obtain ⟨n0, b, se, sp, ep, s', d, L, xs, st, -, -, -, hsp, hep, hs', hd, -, hspl, hasm, rfl, rfl, rfl⟩ := fcc_build_inv hg hv hx hN h
  obtain ⟨sp', ep', Ss, Se, c1, -, c3, c4, c5, -, -, -⟩ := ladder_spec H (sphereSpan n0 v.algs se).1 (sphereSpan n0 v.algs se).2
  rw [hsp] at c1; cases c1
  rw [hst] at hs'; cases hs'
  rw [hd] at c3; cases c3
  rw [c4] at hasm
  have hnu : norm3 ((len r)⁻¹ • r) = 1 := by rw [← c4]; exact (snapPlane_unit hsp).1
  obtain ⟨X, ws, gs, B, e1, e2, e3, e4, e5, e6, e7, e8, -, -⟩ := fcc_grains_of hx hs hi hN hm hnu (inv_pos.mpr h0) hspl hasm
  have hK : ∀ k, height ((len r)⁻¹ • r) sp.point + X k * (len r)⁻¹ = ((Ss + X k : ℤ) : ℝ) * (len r)⁻¹ := by
    intro k; rw [c5]; push_cast; ring
  obtain ⟨l1, l2⟩ := fcc_lateral hx hst hZ ho hB h111 hr h0
  have hB0 : B 0 = x.sbases := by
    obtain ⟨-, ⟨y, y1, y2⟩, -⟩ := e5 0 (Nat.zero_le _)
    rw [e6, hx] at y1
    cases y1
    exact y2.symm
  have hperp : height ((len r)⁻¹ • r) (x.sbases.mulVec (shockley p.plane)) = 0 := by
    obtain ⟨q1, q2, q3⟩ := is111_sq h111
    rw [height_miller H.recip h0, div_eq_zero_iff]
    left
    simp only [miller, shockley]; linear_combination 1 / 3 * q1 + 1 / 3 * q2 - 2 / 3 * q3
  generalize hngen : (len r)⁻¹ • r = n at *
  -- twins
  have htwin : ∀ k, k < p.N.toNat → ¬ rand k < p.ratio → ∀ j, Lateral n (len r)⁻¹ (gs (k + 1)) Z j = Lateral n (len r)⁻¹ (gs k) Z (2 * (Ss + X k) - j) := by
    intro k hk hr' j
    have := (e7 k hk hr').1
    rw [hK] at this
    exact lateral_mirrored hnu this Z j
  -- the state of each grain
  have hst : ∀ k, k ≤ p.N.toNat → ∃ c : ℤ, Layers n (len r)⁻¹ (gs k) Z ∧
      (∀ j, Lateral n (len r)⁻¹ (gs k) Z j = fccLayer x.sbases p.plane ((-1) ^ twinsBefore p rand k * j + c)) ∧
      (B k).mulVec (shockley p.plane) = x.sbases.mulVec (shockley p.plane) := by
    intro k
    induction k with
    | zero =>
      intro _
      rw [e6, hB0]
      exact ⟨0, l1, fun j => by rw [l2]; congr 1; unfold twinsBefore; simp, rfl⟩
    | succ k ih =>
      intro hk
      obtain ⟨c, i1, i2, i3⟩ := ih (by omega)
      rw [twinsBefore_succ]
      by_cases hr' : rand k < p.ratio
      · rw [if_pos hr', add_zero]
        obtain ⟨f1, f2⟩ := e8 k (by omega) hr'
        obtain ⟨g1, g2, g3⟩ := is111_sign h111
        rw [g1, g2, g3, show (⟨(p.plane.x : ℝ) / 3, (p.plane.y : ℝ) / 3, -2 * (p.plane.z : ℝ) / 3⟩ : V3 ℝ) = shockley p.plane from rfl, cart_eq, add_zero,
          i3] at f1
        have hb : height n (((-1) ^ twinsBefore p rand k : ℝ) • x.sbases.mulVec (shockley p.plane)) = ((0 : ℤ) : ℝ) * (len r)⁻¹ := by
          rw [height_smul, hperp]; simp
        refine ⟨c + 2 * (-1) ^ twinsBefore p rand k, layers_displaced f1 Z 0 hb i1, fun j => ?_, by rw [f2]; exact i3⟩
        rw [lateral_displaced f1 Z 0 hb, sub_zero, i2, hb]
        rcases neg_one_pow_eq_or ℤ (twinsBefore p rand k) with hsg | hsg
        · have hsR : ((-1) ^ twinsBefore p rand k : ℝ) = 1 := by exact_mod_cast congrArg (Int.cast (R := ℝ)) hsg
          rw [hsg, hsR]
          simp only [one_smul, Int.cast_zero, zero_mul, zero_smul, sub_zero]
          rw [fccLayer_fault x.sbases h111]
          congr 1; ring
        · have hsR : ((-1) ^ twinsBefore p rand k : ℝ) = -1 := by exact_mod_cast congrArg (Int.cast (R := ℝ)) hsg
          rw [hsg, hsR]
          simp only [neg_smul, one_smul, Int.cast_zero, zero_mul, zero_smul, sub_zero]
          rw [fccLayer_fault_neg x.sbases h111]
          congr 1; ring
      · rw [if_neg hr']
        obtain ⟨f1, f2⟩ := e7 k (by omega) hr'
        rw [hK] at f1
        refine ⟨c + 2 * (Ss + X k) * (-1) ^ twinsBefore p rand k, layers_mirrored hnu f1 i1, fun j => ?_, ?_⟩
        · rw [htwin k (by omega) hr', i2]
          congr 1; rw [pow_succ]; ring
        · rw [f2, M3.mulVec_mul, i3]
          exact reflMatrix_perp hnu hperp
  refine ⟨n, (len r)⁻¹, fun k => Ss + X k, ws, gs, inv_pos.mpr h0, rfl, e4, ?_, e6, ?_, ?_, ?_⟩
  · intro i j hij hj
    have := e2 i j hij hj
    dsimp only; omega
  · intro k hk
    obtain ⟨f1, -, f2⟩ := e5 k hk
    obtain ⟨c, i1, i2, -⟩ := hst k hk
    refine ⟨f1, i1, fun j => ?_, fun q => ?_⟩
    · have hd := H.det
      rw [i2, i2, i2, i2]
      refine ⟨fccLayer_nonempty _ h111 _, ?_, ?_, ?_⟩
      · rw [Ne, fccLayer_eq_iff hd h111]
        rcases neg_one_pow_eq_or ℤ (twinsBefore p rand k) with hsg | hsg <;> rw [hsg] <;> omega
      · rw [Ne, fccLayer_eq_iff hd h111]
        rcases neg_one_pow_eq_or ℤ (twinsBefore p rand k) with hsg | hsg <;> rw [hsg] <;> omega
      · rw [fccLayer_eq_iff hd h111]
        rcases neg_one_pow_eq_or ℤ (twinsBefore p rand k) with hsg | hsg <;> rw [hsg] <;> omega
    · rw [f2]
      simp only [hK]
  · intro k hk hr' i
    dsimp only
    rw [htwin k hk hr']
    congr 1; ring
  · intro k hk hr' i
    dsimp only
    obtain ⟨c, i1, i2, i3⟩ := hst k (by omega)
    obtain ⟨f1, f2⟩ := e8 k hk hr'
    obtain ⟨g1, g2, g3⟩ := is111_sign h111
    rw [g1, g2, g3, show (⟨(p.plane.x : ℝ) / 3, (p.plane.y : ℝ) / 3, -2 * (p.plane.z : ℝ) / 3⟩ : V3 ℝ) = shockley p.plane from rfl, cart_eq, add_zero,
      i3] at f1
    have hb : height n (((-1) ^ twinsBefore p rand k : ℝ) • x.sbases.mulVec (shockley p.plane)) = ((0 : ℤ) : ℝ) * (len r)⁻¹ := by
      rw [height_smul, hperp]; simp
    rw [lateral_displaced f1 Z 0 hb, sub_zero, i2, i2, hb]
    rcases neg_one_pow_eq_or ℤ (twinsBefore p rand k) with hsg | hsg
    · have hsR : ((-1) ^ twinsBefore p rand k : ℝ) = 1 := by exact_mod_cast congrArg (Int.cast (R := ℝ)) hsg
      rw [hsg, hsR]
      simp only [one_smul, Int.cast_zero, zero_mul, zero_smul, sub_zero]
      rw [fccLayer_fault x.sbases h111]
      congr 1; ring
    · have hsR : ((-1) ^ twinsBefore p rand k : ℝ) = -1 := by exact_mod_cast congrArg (Int.cast (R := ℝ)) hsg
      rw [hsg, hsR]
      simp only [neg_smul, one_smul, Int.cast_zero, zero_mul, zero_smul, sub_zero]
      rw [fccLayer_fault_neg x.sbases h111]
      congr 1; ring

/-- An fcc crystal with unit cell 1. -/
def fccGen : Gen ℝ := ⟨some ⟨1, [(⟨0, 0, 0⟩, 79), (⟨1 / 2, 1 / 2, 0⟩, 79), (⟨1 / 2, 0, 1 / 2⟩, 79), (⟨0, 1 / 2, 1 / 2⟩, 79)]⟩,
  some ⟨1, .scalar 1, 0⟩, none, none⟩

/-- Concrete case of C89: two defects on the planes (111) of an fcc ball of radius 10; the run exists for every sequence of
random choices between twin and fault. -/
example (env : Env) : ∃ split fuel, ∀ rand, ∃ t tw sf,
    (⟨some fccGen, some (.vol (ball 0 10)), 1 / 2, 2, 3, ⟨1, 1, 1⟩⟩ : Fcc).build env split fuel rand = some (.ok (t, tw, sf)) ∧
    ∃ (n : V3 ℝ) (d : ℝ) (K : ℕ → ℤ) (gs : ℕ → Gen ℝ), (∀ k, k ≤ 2 → CubicStack (Lateral n d (gs k) 79)) ∧ K 1 + 3 ≤ K 0 ∧
      (¬ rand 0 < 1 / 2 → ∀ i, Lateral n d (gs 1) 79 (K 0 - i) = Lateral n d (gs 0) 79 (K 0 + i)) := by
  have hB : CubicCell 1 (⟨1, .scalar 1, 0⟩ : Voxel ℝ).sbases := by
    rw [unit_sbases]
    exact ⟨one_pos, by ext <;> simp [M3.mul_def, M3.transpose, M3.one_def, M3.smul_def],
      by ext <;> simp [M3.mul_def, M3.transpose, M3.one_def, M3.smul_def]⟩
  have hB' : CubicCell 1 (1 : M3 ℝ) := by rw [← unit_sbases 0]; exact hB
  have hl : 1 ≤ len (millerV ⟨1, 1, 1⟩) := by
    simp only [len, millerV]; rw [Real.one_le_sqrt]; norm_num
  have hnz : nonzeros ⟨1, 1, 1⟩ = 3 := by simp [nonzeros]
  have hi := ball_intact env 0 10
  have h2 : (0 : ℤ) ≤ 2 := by norm_num
  obtain ⟨-, split, fuel, h⟩ := C90_cubic_partial env ⟨some fccGen, some (.vol (ball 0 10)), 1 / 2, 2, 3, ⟨1, 1, 1⟩⟩ fccGen (ball 0 10) _ _ 1 1
    rfl rfl rfl rfl rfl one_pos rfl hB hB' (by rw [mul_one]; exact lt_of_lt_of_le machEps_lt_one hl) hi h2 (by rw [hnz]) (-10) 10
    (ball_range env 0 (by norm_num) _) (by rw [hnz]; push_cast; nlinarith)
  refine ⟨split, fuel, fun rand => ?_⟩
  obtain ⟨t, tw, sf, ht, -⟩ := h rand
  refine ⟨t, tw, sf, ht, ?_⟩
  obtain ⟨n, d, K, ws, gs, -, -, -, k1, -, k2, k3, -⟩ := C89_fcc_stacking_partial env _ fccGen (ball 0 10) _ _ 1 79 rfl rfl rfl rfl rfl trivial hB hB'
    (by rw [mul_one]; exact machEps_lt_one) (by intro f; simp [V3.ext_iff]) (by refine ⟨.inl rfl, .inl rfl, .inl rfl⟩) ⟨0, 0, 0⟩
    (by rw [unit_sbases, cart_eq, add_zero, M3.mulVec_one]; ext <;> simp) hi h2 (by norm_num) _ _ _ _ _ _ ht
  exact ⟨n, d, K, gs, fun k hk => (k2 k hk).2.2.1, k1 0 1 (by norm_num) (by show 1 < (2 : ℤ).toNat; norm_num),
    k3 0 (by show 0 < (2 : ℤ).toNat; norm_num)⟩

end Prefab

end
end CZ
