import Verif.Props.PrefabBasal

/-!
# Property C89: stacking of the fcc prefabs for every origin and sublattice
-/

namespace CZ
open Spec

noncomputable section
open Classical

namespace Prefab

theorem fccFrom_crystal {g : Gen ℝ} {x : Voxel ℝ} {s : Struct ℝ} {Z : ℤ} {a : V3 ℝ} (hx : g.voxel = some x) (hs : g.struct = some s) (hZ : FccSitesAt s Z a)
    {o : V3 ℝ} (ho : x.origin = x.sbases.mulVec o) (q : V3 ℝ) :
    (q, Z) ∈ CrystalOf g ↔ ∃ f, InFcc f ∧ q = x.sbases.mulVec (f + (o + a)) := by
  have hsite : ∀ n f, siteAt x.sbases x.origin n f = x.sbases.mulVec ⟨o.x + n.x + f.x, o.y + n.y + f.y, o.z + n.z + f.z⟩ := by
    intro n f
    rw [siteAt_eq, ho, ← M3.mulVec_add]
    rw [← M3.mulVec_add]; congr 1; ext <;> simp [Gen.castV] <;> ring
  constructor
  · rintro ⟨v', s', e1, e2, n, ⟨f, Z'⟩, hf, he⟩
    rw [hx] at e1; cases e1
    rw [hs] at e2; cases e2
    injection he with he1 he2
    simp only at he1 he2
    subst he2
    rw [he1, hsite]
    obtain ⟨i, j, l, rfl, hp⟩ := hZ.1 f hf
    refine ⟨⟨(n.x : ℝ) + i / 2, n.y + j / 2, n.z + l / 2⟩, ⟨2 * n.x + i, 2 * n.y + j, 2 * n.z + l, by push_cast; ring, by push_cast; ring, by push_cast; ring,
      by omega⟩, ?_⟩
    congr 1; ext <;> simp <;> ring
  · rintro ⟨f, ⟨i, j, k, hi, hj, hk, hp⟩, rfl⟩
    obtain ⟨i', j', l', h⟩ := hZ.2 i j k hp
    refine ⟨x, s, hx, hs, ⟨-i', -j', -l'⟩, _, h, ?_⟩
    rw [hsite]
    congr 2
    ext <;> simp <;> linarith

/-- The layers of the crystal are those of the crystal with a site at the coordinate origin, moved as a whole. -/
theorem fccFrom_lateral {g : Gen ℝ} {x : Voxel ℝ} {s : Struct ℝ} {Z : ℤ} {a : V3 ℝ} (hx : g.voxel = some x) (hs : g.struct = some s) (hZ : FccSitesAt s Z a)
    {o : V3 ℝ} (ho : x.origin = x.sbases.mulVec o) {A : ℝ} (hB : CubicCell A x.sbases) {h : V3 ℤ} (H : Is111 h) {r : V3 ℝ}
    (hr : r = (A ^ 2)⁻¹ • x.sbases.mulVec (millerV h)) (h0 : 0 < len r) :
    ∃ w0 : V3 ℝ, LayersFrom ((len r)⁻¹ • r) (height ((len r)⁻¹ • r) (x.sbases.mulVec (o + a))) (len r)⁻¹ g Z ∧
      ∀ j, LateralFrom ((len r)⁻¹ • r) (height ((len r)⁻¹ • r) (x.sbases.mulVec (o + a))) (len r)⁻¹ g Z j = {w | ∃ u ∈ fccLayer x.sbases h j, w = u + w0} := by
  obtain ⟨q1, q2, q3⟩ := is111_sq H
  have ha := hB.1
  have hrec : IsReciprocal x.sbases h r := hr ▸ cubic_reciprocal hB h
  have hh : ∀ f, height ((len r)⁻¹ • r) (x.sbases.mulVec f) = miller h f / len r := height_miller hrec h0
  have hlen : len r ^ 2 = 3 / A ^ 2 := by
    rw [hr, cubic_len hB, div_pow, norm3_sq]
    congr 1
    simp only [V3.normSq, V3.dot, millerV]; linarith
  have hlat : ∀ f, x.sbases.mulVec f - height ((len r)⁻¹ • r) (x.sbases.mulVec f) • ((len r)⁻¹ • r) =
      x.sbases.mulVec (f - (miller h f / 3) • millerV h) := by
    intro f
    rw [hh, smul_smul, ← div_eq_mul_inv, div_div, ← pow_two, hlen]
    conv_lhs => rw [hr]
    rw [smul_smul, M3.mulVec_sub, M3.mulVec_smul]
    congr 2
    field_simp
  have hint : ∀ f, InFcc f → ∃ j : ℤ, miller h f = j := by
    rintro f ⟨i, j, k, e1, e2, e3, e4⟩
    obtain ⟨m, hm⟩ : 2 ∣ h.x * i + h.y * j + h.z * k := by
      obtain ⟨h1 | h1, h2 | h2, h3 | h3⟩ := H <;> rw [h1, h2, h3] <;> omega
    refine ⟨m, ?_⟩
    have : (h.x * i + h.y * j + h.z * k : ℝ) = 2 * m := by exact_mod_cast hm
    simp only [miller]; rw [← e1, ← e2, ← e3] at this; linarith
  have hsplit : ∀ f, x.sbases.mulVec (f + (o + a) - (miller h (f + (o + a)) / 3) • millerV h) =
      x.sbases.mulVec (f - (miller h f / 3) • millerV h) + x.sbases.mulVec (o + a - (miller h (o + a) / 3) • millerV h) := by
    intro f
    rw [← M3.mulVec_add, miller_add]; congr 1; ext <;> simp only [V3.sub_x, V3.sub_y, V3.sub_z, V3.add_x, V3.add_y, V3.add_z, V3.smul_x, V3.smul_y, V3.smul_z] <;> ring
  refine ⟨x.sbases.mulVec (o + a - (miller h (o + a) / 3) • millerV h), ?_, ?_⟩
  · intro q hq
    obtain ⟨f, hf, rfl⟩ := (fccFrom_crystal hx hs hZ ho q).mp hq
    obtain ⟨j, hj⟩ := hint f hf
    exact ⟨j, by rw [hh, hh, miller_add, hj]; ring⟩
  · intro j
    ext w
    constructor
    · rintro ⟨q, hq, hj, rfl⟩
      obtain ⟨f, hf, rfl⟩ := (fccFrom_crystal hx hs hZ ho q).mp hq
      rw [hh, hh, miller_add] at hj
      have hj' : miller h f * (len r)⁻¹ = j * (len r)⁻¹ := by
        rw [add_div, div_eq_mul_inv] at hj
        linarith
      have hj' := mul_right_cancel₀ (inv_ne_zero h0.ne') hj'
      refine ⟨_, ⟨f, hf, hj', rfl⟩, ?_⟩
      rw [hlat, hsplit, hj']
    · rintro ⟨u, ⟨f, hf, hj, rfl⟩, rfl⟩
      refine ⟨_, (fccFrom_crystal hx hs hZ ho _).mpr ⟨f, hf, rfl⟩, by rw [hh, hh, miller_add, hj]; ring, by rw [hlat, hsplit, hj]⟩

theorem lateralFrom_mirrored {n : V3 ℝ} (hn : norm3 n = 1) {c d : ℝ} {g g' : Gen ℝ} {K : ℤ} (h : Mirrored n (K * d) g g') (Z j : ℤ) :
    LateralFrom n (-c) d g' Z j = LateralFrom n c d g Z (2 * K - j) := by
  ext w
  constructor
  · rintro ⟨q, hq, hj, rfl⟩
    obtain ⟨⟨q', Z'⟩, h1, h2, p, h3, h4⟩ := (h (q, Z)).mp hq
    simp only at h2 h4
    subst h2
    obtain ⟨e1, e2⟩ := mirror_height hn h4
    exact ⟨q', h1, by push_cast; linarith, e2⟩
  · rintro ⟨q, hq, hj, rfl⟩
    obtain ⟨y, p, h3, h4⟩ := mirror_exists (x := q) hn (K * d)
    obtain ⟨e1, e2⟩ := mirror_height hn h4
    refine ⟨y, (h (y, Z)).mpr ⟨(q, Z), hq, rfl, p, h3, h4⟩, ?_, e2.symm⟩
    rw [e1, h3, hj]; push_cast; ring

theorem layersFrom_mirrored {n : V3 ℝ} (hn : norm3 n = 1) {c d : ℝ} {g g' : Gen ℝ} {K : ℤ} (h : Mirrored n (K * d) g g') {Z : ℤ}
    (hl : LayersFrom n c d g Z) : LayersFrom n (-c) d g' Z := by
  intro q hq
  obtain ⟨⟨q', Z'⟩, h1, h2, p, h3, h4⟩ := (h (q, Z)).mp hq
  simp only at h2 h4
  subst h2
  obtain ⟨j, hj⟩ := hl q' h1
  refine ⟨2 * K - j, ?_⟩
  rw [(mirror_height hn h4).1, h3, hj]; push_cast; ring

/-- Layers moved as a whole. -/
def movedLayer (B : M3 ℝ) (h : V3 ℤ) (w0 : V3 ℝ) (j : ℤ) : Set (V3 ℝ) := {w | ∃ u ∈ fccLayer B h j, w = u + w0}

theorem movedLayer_eq_iff {B : M3 ℝ} (hd : B.det ≠ 0) {h : V3 ℤ} (H : Is111 h) (w0 : V3 ℝ) (i j : ℤ) :
    movedLayer B h w0 i = movedLayer B h w0 j ↔ 3 ∣ i - j := by
  rw [← fccLayer_eq_iff hd H]
  constructor
  · intro e
    ext w
    have h1 : ∀ k, w ∈ fccLayer B h k ↔ w + w0 ∈ movedLayer B h w0 k := by
      intro k
      constructor
      · exact fun hw => ⟨w, hw, rfl⟩
      · rintro ⟨u, hu, he⟩
        have : w = u := by
          have := congrArg (· - w0) he
          simpa using this
        rwa [this]
    rw [h1, h1, e]
  · intro e
    unfold movedLayer
    rw [e]

theorem movedLayer_shift {B : M3 ℝ} {h : V3 ℤ} (w0 b : V3 ℝ) {i j : ℤ} (e : {w | ∃ u ∈ fccLayer B h i, w = u + b} = fccLayer B h j) :
    {w | ∃ u ∈ movedLayer B h w0 i, w = u + b} = movedLayer B h w0 j := by
  unfold movedLayer
  rw [← e]
  ext w
  constructor
  · rintro ⟨_, ⟨u, hu, rfl⟩, rfl⟩
    exact ⟨u + b, ⟨u, hu, rfl⟩, by ext <;> simp <;> ring⟩
  · rintro ⟨_, ⟨u, hu, rfl⟩, rfl⟩
    exact ⟨u + w0, ⟨u, hu, rfl⟩, by ext <;> simp <;> ring⟩

set_option maxHeartbeats 1000000 in
/-- **C89 (every origin and sublattice).** For an unstrained cubic crystal in any orientation, wherever its origin lies, and a plane {111}: whenever
`build_object` returns, every species on face-centred sites is stacked ABCABC in all grains, and
* at a stacking fault, the lower grain continues with one layer left out;
* at a twin, the layers are mirrored in a plane at a multiple of the spacing *counted from the coordinate origin*: layers at heights `c + j d` come
  to heights `-c + (2K - j) d`.
For a species with layers at multiples of `d` that is the twin of `C89_fcc_stacking_partial`; otherwise see `C89_origin_refuted`. -/
theorem C89_any_origin (env : Env) (p : Fcc) (g : Gen ℝ) (v : Vol) (x : Voxel ℝ) (s : Struct ℝ) (A : ℝ) (hg : p.gen = some g)
    (hv : p.vol = some (.vol v)) (hx : g.voxel = some x) (hst : g.struct = some s) (hn : g.strain = none) (hs : ColumnScale x.scale)
    (hB : CubicCell A x.sbases) (hL : CubicCell A s.latticeMatrix) (ha : machEps * A < 1) (h111 : Is111 p.plane)
    (hi : Intact env v) (hN : 0 ≤ p.N) (hm : 0 ≤ p.minSep) (split : ℕ → ℕ) (fuel : ℕ) (rand : ℕ → ℝ) (t : VTree) (tw sf : Bool)
    (h : p.build env split fuel rand = some (.ok (t, tw, sf))) :
    ∃ (n : V3 ℝ) (d : ℝ) (K : ℕ → ℤ) (ws : ℕ → Vol) (gs : ℕ → Gen ℝ), 0 < d ∧ d * len (cart x.sbases 0 (millerV p.plane)) = A ^ 2 ∧
      n = (len (cart x.sbases 0 (millerV p.plane)))⁻¹ • cart x.sbases 0 (millerV p.plane) ∧
      t = .multi ((List.range (p.N.toNat + 1)).map fun k => .vol (ws k)) 0 none ∧
      (∀ i j, i < j → j < p.N.toNat → K j + p.minSep ≤ K i) ∧ gs 0 = g ∧
      (∀ k, k ≤ p.N.toNat → (ws k).gen = some (.crystal (gs k)) ∧
        ∀ q, Owns env ws (p.N.toNat + 1) k q ↔ Inside env (.vol v) q ∧ InLayer n (fun k => K k * d) (1 / 10 ^ 5) p.N.toNat k q) ∧
      ∀ Z a, FccSitesAt s Z a → ∃ cs : ℕ → ℝ, cs 0 = height n (cart x.sbases x.origin a) ∧
        (∀ k, k ≤ p.N.toNat → LayersFrom n (cs k) d (gs k) Z ∧ CubicStack (LateralFrom n (cs k) d (gs k) Z)) ∧
        (∀ k, k < p.N.toNat → ¬ rand k < p.ratio → cs (k + 1) = -cs k ∧
          ∀ i, LateralFrom n (cs (k + 1)) d (gs (k + 1)) Z (K k - i) = LateralFrom n (cs k) d (gs k) Z (K k + i)) ∧
        ∀ k, k < p.N.toNat → rand k < p.ratio → cs (k + 1) = cs k ∧
          ∀ i, LateralFrom n (cs (k + 1)) d (gs (k + 1)) Z i = LateralFrom n (cs k) d (gs k) Z (i + 2) := by
  have ha0 := hB.1
  have hn3 : 1 ≤ norm3 (millerV p.plane) := by
    obtain ⟨q1, q2, q3⟩ := is111_sq h111
    rw [← one_le_sq_iff₀ (norm3_nonneg _), norm3_sq]
    simp only [V3.normSq, V3.dot, millerV]; linarith
  have H := regular_cubic hx hst hn hB hL (h := p.plane) (lt_of_lt_of_le ha hn3)
  have hunit : (len (cart x.sbases 0 (millerV p.plane)))⁻¹ • cart x.sbases 0 (millerV p.plane) =
      (len ((A ^ 2)⁻¹ • x.sbases.mulVec (millerV p.plane)))⁻¹ • ((A ^ 2)⁻¹ • x.sbases.mulVec (millerV p.plane)) := by
    rw [cart_eq, add_zero, len_eq, len_eq, norm3_smul, abs_of_pos (by positivity), smul_smul]
    congr 1
    field_simp
  rw [hunit]
  have hlenA : len ((A ^ 2)⁻¹ • x.sbases.mulVec (millerV p.plane)) = (A ^ 2)⁻¹ * len (cart x.sbases 0 (millerV p.plane)) := by
    rw [cart_eq, add_zero, len_eq, len_eq, norm3_smul, abs_of_pos (by positivity)]
  obtain ⟨r, hr⟩ : ∃ r, r = (A ^ 2)⁻¹ • x.sbases.mulVec (millerV p.plane) := ⟨_, rfl⟩
  rw [← hr] at H hlenA ⊢
  have h0 : 0 < len r := machEps_pos.trans H.length
  obtain ⟨n0, b, se, sp, ep, s', d, L, xs, st, -, -, -, hsp, hep, hs', hd, -, hspl, hasm, rfl, rfl, rfl⟩ := fcc_build_inv hg hv hx hN h
  obtain ⟨sp', ep', Ss, Se, c1, -, c3, c4, c5, -, -, -⟩ := ladder_spec H (sphereSpan n0 v.algs se).1 (sphereSpan n0 v.algs se).2
  rw [hsp] at c1; cases c1
  rw [hst] at hs'; cases hs'
  rw [hd] at c3; cases c3
  rw [c4] at hasm
  have hnu : norm3 ((len r)⁻¹ • r) = 1 := by rw [← c4]; exact (snapPlane_unit hsp).1
  obtain ⟨X, ws, gs, B, e1, e2, e3, e4, e5, e6, e7, e8, -, -⟩ := fcc_grains_of hx hs hi hN hm hnu (inv_pos.mpr h0) hspl hasm
  have hK : ∀ k, height ((len r)⁻¹ • r) sp.point + X k * (len r)⁻¹ = ((Ss + X k : ℤ) : ℝ) * (len r)⁻¹ := by
    intro k; rw [c5]; push_cast; ring
  have hB0 : B 0 = x.sbases := by
    obtain ⟨-, ⟨y, y1, y2⟩, -⟩ := e5 0 (Nat.zero_le _)
    rw [e6, hx] at y1
    cases y1
    exact y2.symm
  have hperp : height ((len r)⁻¹ • r) (x.sbases.mulVec (shockley p.plane)) = 0 := by
    obtain ⟨q1, q2, q3⟩ := is111_sq h111
    rw [height_miller H.recip h0, div_eq_zero_iff]
    left
    simp only [miller, shockley]; linear_combination 1 / 3 * q1 + 1 / 3 * q2 - 2 / 3 * q3
  refine ⟨(len r)⁻¹ • r, (len r)⁻¹, fun k => Ss + X k, ws, gs, inv_pos.mpr h0, ?_, rfl, e4, ?_, e6, ?_, ?_⟩
  · have h1 : A ^ 2 * len r = len (cart x.sbases 0 (millerV p.plane)) := by
      rw [hlenA]; field_simp
    rw [← h1]
    have := h0.ne'
    field_simp
  · intro i j hij hj
    have := e2 i j hij hj
    dsimp only; omega
  · intro k hk
    obtain ⟨f1, -, f2⟩ := e5 k hk
    refine ⟨f1, fun q => ?_⟩
    rw [f2]
    simp only [hK]
  intro Z a hZ
  obtain ⟨o, ho⟩ := frac_exists H.det x.origin
  obtain ⟨w0, l1, l2⟩ := fccFrom_lateral hx hst hZ ho hB h111 hr h0
  have hc : x.sbases.mulVec (o + a) = cart x.sbases x.origin a := by
    rw [cart_eq, M3.mulVec_add, ← ho, add_comm]
  rw [hc] at l1 l2
  generalize (len r)⁻¹ • r = n at *
  generalize hce : height n (cart x.sbases x.origin a) = c at *
  have hd := H.det
  have hsign : ∀ k, ((-1) ^ twinsBefore p rand k = (1 : ℤ) ∧ ((-1) ^ twinsBefore p rand k : ℝ) = 1) ∨
      ((-1) ^ twinsBefore p rand k = (-1 : ℤ) ∧ ((-1) ^ twinsBefore p rand k : ℝ) = -1) := by
    intro k
    rcases neg_one_pow_eq_or ℤ (twinsBefore p rand k) with hsg | hsg
    · exact .inl ⟨hsg, by exact_mod_cast congrArg (Int.cast (R := ℝ)) hsg⟩
    · exact .inr ⟨hsg, by exact_mod_cast congrArg (Int.cast (R := ℝ)) hsg⟩
  have hcs : ∀ k, (¬ rand k < p.ratio → (-1 : ℝ) ^ twinsBefore p rand (k + 1) * c = -((-1) ^ twinsBefore p rand k * c)) ∧
      (rand k < p.ratio → (-1 : ℝ) ^ twinsBefore p rand (k + 1) * c = (-1) ^ twinsBefore p rand k * c) := by
    intro k
    constructor
    · intro hr'; rw [twinsBefore_succ, if_neg hr', pow_succ]; ring
    · intro hr'; rw [twinsBefore_succ, if_pos hr', add_zero]
  have htwin : ∀ k, k < p.N.toNat → ¬ rand k < p.ratio → ∀ j, LateralFrom n ((-1) ^ twinsBefore p rand (k + 1) * c) (len r)⁻¹ (gs (k + 1)) Z j =
      LateralFrom n ((-1) ^ twinsBefore p rand k * c) (len r)⁻¹ (gs k) Z (2 * (Ss + X k) - j) := by
    intro k hk hr' j
    have := (e7 k hk hr').1
    rw [hK] at this
    rw [(hcs k).1 hr']
    exact lateralFrom_mirrored hnu this Z j
  have hst : ∀ k, k ≤ p.N.toNat → ∃ m : ℤ, LayersFrom n ((-1) ^ twinsBefore p rand k * c) (len r)⁻¹ (gs k) Z ∧
      (∀ j, LateralFrom n ((-1) ^ twinsBefore p rand k * c) (len r)⁻¹ (gs k) Z j = movedLayer x.sbases p.plane w0 ((-1) ^ twinsBefore p rand k * j + m)) ∧
      (B k).mulVec (shockley p.plane) = x.sbases.mulVec (shockley p.plane) ∧
      (k < p.N.toNat → rand k < p.ratio → ∀ j, LateralFrom n ((-1) ^ twinsBefore p rand (k + 1) * c) (len r)⁻¹ (gs (k + 1)) Z j =
        movedLayer x.sbases p.plane w0 ((-1) ^ twinsBefore p rand k * (j + 2) + m)) := by
    have hfault : ∀ k m, k < p.N.toNat → rand k < p.ratio → 
        (∀ j, LateralFrom n ((-1) ^ twinsBefore p rand k * c) (len r)⁻¹ (gs k) Z j = movedLayer x.sbases p.plane w0 ((-1) ^ twinsBefore p rand k * j + m)) →
        (B k).mulVec (shockley p.plane) = x.sbases.mulVec (shockley p.plane) →
        (LayersFrom n ((-1) ^ twinsBefore p rand k * c) (len r)⁻¹ (gs k) Z → LayersFrom n ((-1) ^ twinsBefore p rand (k + 1) * c) (len r)⁻¹ (gs (k + 1)) Z) ∧
        ∀ j, LateralFrom n ((-1) ^ twinsBefore p rand (k + 1) * c) (len r)⁻¹ (gs (k + 1)) Z j =
          movedLayer x.sbases p.plane w0 ((-1) ^ twinsBefore p rand k * (j + 2) + m) := by
      intro k m hk hr' i2 i3
      obtain ⟨f1, f2⟩ := e8 k hk hr'
      obtain ⟨g1, g2, g3⟩ := is111_sign h111
      rw [g1, g2, g3, show (⟨(p.plane.x : ℝ) / 3, (p.plane.y : ℝ) / 3, -2 * (p.plane.z : ℝ) / 3⟩ : V3 ℝ) = shockley p.plane from rfl, cart_eq, add_zero,
        i3] at f1
      have hb : height n (((-1) ^ twinsBefore p rand k : ℝ) • x.sbases.mulVec (shockley p.plane)) = ((0 : ℤ) : ℝ) * (len r)⁻¹ := by
        rw [height_smul, hperp]; simp
      rw [(hcs k).2 hr']
      refine ⟨fun i1 => layersFrom_displaced f1 Z 0 hb i1, fun j => ?_⟩
      rw [lateralFrom_displaced f1 Z 0 hb, sub_zero, i2, hb]
      rcases hsign k with ⟨hsg, hsR⟩ | ⟨hsg, hsR⟩
      · rw [hsg, hsR]
        simp only [one_smul, Int.cast_zero, zero_mul, zero_smul, sub_zero]
        rw [movedLayer_shift w0 _ (fccLayer_fault x.sbases h111 _)]
        congr 1; ring
      · rw [hsg, hsR]
        simp only [neg_smul, one_smul, Int.cast_zero, zero_mul, zero_smul, sub_zero]
        rw [movedLayer_shift w0 _ (fccLayer_fault_neg x.sbases h111 _)]
        congr 1; ring
    have key : ∀ k, k ≤ p.N.toNat → ∃ m : ℤ, LayersFrom n ((-1) ^ twinsBefore p rand k * c) (len r)⁻¹ (gs k) Z ∧
      (∀ j, LateralFrom n ((-1) ^ twinsBefore p rand k * c) (len r)⁻¹ (gs k) Z j = movedLayer x.sbases p.plane w0 ((-1) ^ twinsBefore p rand k * j + m)) ∧
      (B k).mulVec (shockley p.plane) = x.sbases.mulVec (shockley p.plane) := by
      intro k
      induction k with
      | zero =>
        intro _
        rw [e6, hB0]
        have h00 : twinsBefore p rand 0 = 0 := by unfold twinsBefore; simp
        rw [h00]
        simp only [pow_zero, one_mul]
        exact ⟨0, l1, fun j => by rw [l2, add_zero]; rfl, trivial⟩
      | succ k ih =>
        intro hk
        obtain ⟨m, i1, i2, i3⟩ := ih (by omega)
        by_cases hr' : rand k < p.ratio
        · obtain ⟨f1, f2⟩ := hfault k m (by omega) hr' i2 i3
          refine ⟨m + 2 * (-1) ^ twinsBefore p rand k, f1 i1, fun j => ?_, by rw [(e8 k (by omega) hr').2]; exact i3⟩
          rw [f2, twinsBefore_succ, if_pos hr', add_zero]
          congr 1; ring
        · obtain ⟨f1, f2⟩ := e7 k (by omega) hr'
          rw [hK] at f1
          refine ⟨m + 2 * (Ss + X k) * (-1) ^ twinsBefore p rand k, ?_, fun j => ?_, ?_⟩
          · rw [(hcs k).1 hr']; exact layersFrom_mirrored hnu f1 i1
          · rw [htwin k (by omega) hr', i2, twinsBefore_succ, if_neg hr']
            congr 1; rw [pow_succ]; ring
          · rw [f2, M3.mulVec_mul, i3]
            exact reflMatrix_perp hnu hperp
    intro k hk
    obtain ⟨m, i1, i2, i3⟩ := key k hk
    exact ⟨m, i1, i2, i3, fun hk' hr' => (hfault k m hk' hr' i2 i3).2⟩
  refine ⟨fun k => (-1) ^ twinsBefore p rand k * c, ?_, ?_, ?_, ?_⟩
  · have h00 : twinsBefore p rand 0 = 0 := by unfold twinsBefore; simp
    simp [h00]
  · intro k hk
    obtain ⟨m, i1, i2, -⟩ := hst k hk
    refine ⟨i1, fun j => ?_⟩
    simp only
    rw [i2, i2, i2, i2]
    refine ⟨?_, ?_, ?_, ?_⟩
    · obtain ⟨u, hu⟩ := fccLayer_nonempty x.sbases h111 ((-1) ^ twinsBefore p rand k * j + m)
      exact ⟨_, u, hu, rfl⟩
    · rw [Ne, movedLayer_eq_iff hd h111]
      rcases hsign k with ⟨hsg, -⟩ | ⟨hsg, -⟩ <;> rw [hsg] <;> omega
    · rw [Ne, movedLayer_eq_iff hd h111]
      rcases hsign k with ⟨hsg, -⟩ | ⟨hsg, -⟩ <;> rw [hsg] <;> omega
    · rw [movedLayer_eq_iff hd h111]
      rcases hsign k with ⟨hsg, -⟩ | ⟨hsg, -⟩ <;> rw [hsg] <;> omega
  · intro k hk hr'
    refine ⟨(hcs k).1 hr', fun i => ?_⟩
    dsimp only
    rw [htwin k hk hr']
    congr 1; ring
  · intro k hk hr'
    refine ⟨(hcs k).2 hr', fun i => ?_⟩
    dsimp only
    obtain ⟨m, -, i2, -, i4⟩ := hst k hk.le
    rw [i4 hk hr', i2]

/-- The crystal `fccGen` moved by a twelfth of the body diagonal. -/
def movedFcc : Gen ℝ := ⟨some ⟨1, [(⟨0, 0, 0⟩, 79), (⟨1 / 2, 1 / 2, 0⟩, 79), (⟨1 / 2, 0, 1 / 2⟩, 79), (⟨0, 1 / 2, 1 / 2⟩, 79)]⟩,
  some ⟨1, .scalar 1, ⟨1 / 12, 1 / 12, 1 / 12⟩⟩, none, none⟩

theorem fccGen_sitesAt : FccSitesAt ⟨1, [(⟨0, 0, 0⟩, 79), (⟨1 / 2, 1 / 2, 0⟩, 79), (⟨1 / 2, 0, 1 / 2⟩, 79), (⟨0, 1 / 2, 1 / 2⟩, 79)]⟩ 79 0 := by
  constructor
  · intro f hf
    simp only [List.mem_cons, Prod.mk.injEq, and_true, List.not_mem_nil, or_false] at hf
    rcases hf with rfl | rfl | rfl | rfl
    · exact ⟨0, 0, 0, by ext <;> simp, by omega⟩
    · exact ⟨1, 1, 0, by ext <;> simp, by omega⟩
    · exact ⟨1, 0, 1, by ext <;> simp, by omega⟩
    · exact ⟨0, 1, 1, by ext <;> simp, by omega⟩
  · intro i j l hp
    have key : ∀ e : ℤ, ∃ k b : ℤ, (b = 0 ∨ b = 1) ∧ e = 2 * k + b := fun e => ⟨e / 2, e % 2, by omega, by omega⟩
    obtain ⟨i', a, ha, rfl⟩ := key i
    obtain ⟨j', b, hb, rfl⟩ := key j
    obtain ⟨l', c, hc, rfl⟩ := key l
    refine ⟨-i', -j', -l', ?_⟩
    have e : ∀ k b : ℤ, (0 : ℝ) + ((2 * k + b : ℤ) : ℝ) / 2 + ((-k : ℤ) : ℝ) = b / 2 := by intro k b; push_cast; ring
    simp only [V3.zero_x, V3.zero_y, V3.zero_z, e]
    rcases ha with rfl | rfl <;> rcases hb with rfl | rfl <;> rcases hc with rfl | rfl <;> first | omega | simp

/-- **C89 (refuted for other origins).** An fcc ball of radius 10, cell 1, with the origin of the lattice moved by a twelfth of the body diagonal, and one
twin: no atom of either grain is on the plane of the twin, and the atoms a quarter of the spacing above it have their images straight below them, half a
spacing away (every atom of an fcc crystal is `√6/2` spacings from its nearest neighbours). -/
theorem C89_origin_refuted (env : Env) : ∃ split fuel t tw sf,
    (⟨some movedFcc, some (.vol (ball 0 10)), 0, 1, 3, ⟨1, 1, 1⟩⟩ : Fcc).build env split fuel (fun _ => 0) = some (.ok (t, tw, sf)) ∧
    ∃ (n : V3 ℝ) (d : ℝ) (K : ℤ) (ws : ℕ → Vol) (g' : Gen ℝ), 0 < d ∧ 3 * d ^ 2 = 1 ∧ n = d • ⟨1, 1, 1⟩ ∧ (-10 < K * d ∧ K * d < 10) ∧ t = .multi [.vol (ws 0), .vol (ws 1)] 0 none ∧
      (ws 0).gen = some (.crystal movedFcc) ∧ (ws 1).gen = some (.crystal g') ∧
      (∀ q, Owns env ws 2 0 q ↔ Inside env (.vol (ball 0 10)) q ∧ K * d + 1 / 10 ^ 5 ≤ height n q) ∧
      (∀ q, Owns env ws 2 1 q ↔ Inside env (.vol (ball 0 10)) q ∧ height n q < K * d + 1 / 10 ^ 5) ∧
      (∀ q, (q, 79) ∈ CrystalOf movedFcc ∨ (q, 79) ∈ CrystalOf g' → height n q ≠ K * d) ∧
      (∀ q, (q, 79) ∈ CrystalOf movedFcc → height n q = K * d + d / 4 → (q - (d / 2) • n, 79) ∈ CrystalOf g') ∧
      ∃ q, (q, 79) ∈ CrystalOf movedFcc ∧ height n q = K * d + d / 4 := by
  have hB : CubicCell 1 (⟨1, .scalar 1, ⟨1 / 12, 1 / 12, 1 / 12⟩⟩ : Voxel ℝ).sbases := by
    rw [unit_sbases]
    exact ⟨one_pos, by ext <;> simp [M3.mul_def, M3.transpose, M3.one_def, M3.smul_def],
      by ext <;> simp [M3.mul_def, M3.transpose, M3.one_def, M3.smul_def]⟩
  have hB' : CubicCell 1 (1 : M3 ℝ) := by rw [← unit_sbases ⟨1 / 12, 1 / 12, 1 / 12⟩]; exact hB
  have hl : 1 ≤ len (millerV ⟨1, 1, 1⟩) := by
    simp only [len, millerV]; rw [Real.one_le_sqrt]; norm_num
  have hl3 : len (millerV ⟨1, 1, 1⟩) ^ 2 = 3 := by
    rw [len_eq, norm3_sq]; simp [V3.normSq, V3.dot, millerV]; norm_num
  have hnz : nonzeros ⟨1, 1, 1⟩ = 3 := by simp [nonzeros]
  have hi := ball_intact env 0 10
  have h1 : (0 : ℤ) ≤ 1 := by norm_num
  obtain ⟨-, split, fuel, h⟩ := C90_cubic_partial env ⟨some movedFcc, some (.vol (ball 0 10)), 0, 1, 3, ⟨1, 1, 1⟩⟩ movedFcc (ball 0 10) _ _ 1 1
    rfl rfl rfl rfl rfl one_pos rfl hB hB' (by rw [mul_one]; exact lt_of_lt_of_le machEps_lt_one hl) hi h1 (by rw [hnz]) (-10) 10
    (ball_range env 0 (by norm_num) _) (by rw [hnz]; push_cast; nlinarith)
  obtain ⟨t, tw, sf, ht, cut, ws', u1, u2, u3⟩ := h (fun _ => 0)
  refine ⟨split, fuel, t, tw, sf, ht, ?_⟩
  obtain ⟨n, d, K, ws, gs, k1, k2, k3, k4, -, k6, k7, k8⟩ := C89_any_origin env _ movedFcc (ball 0 10) _ _ 1 rfl rfl rfl rfl rfl trivial hB hB'
    (by rw [mul_one]; exact machEps_lt_one) (by refine ⟨.inl rfl, .inl rfl, .inl rfl⟩) hi h1 (by norm_num) _ _ _ _ _ _ ht
  rw [← k3] at u2
  simp only [show (1 : ℤ).toNat = 1 from rfl] at k4 k7 k8 u1 u2 u3
  rw [unit_sbases, cart_eq, add_zero, M3.mulVec_one] at k2 k3
  rw [one_pow] at k2
  obtain ⟨cs, c0, c1, c2, -⟩ := k8 79 0 fccGen_sitesAt
  rw [unit_sbases, cart_eq, M3.mulVec_one, zero_add] at c0
  have hn : norm3 n = 1 := by rw [k3, len_eq]; exact norm3_unit (by rw [← len_eq]; linarith)
  have hc : cs 0 = d / 4 := by
    have hd : d = (len (millerV ⟨1, 1, 1⟩))⁻¹ := eq_inv_of_mul_eq_one_left k2
    rw [c0, k3, hd]
    simp [height, millerV]
    ring
  obtain ⟨c3, c4⟩ := c2 0 (by norm_num) (by norm_num)
  obtain ⟨o1, o2⟩ := k7 0 (by norm_num)
  obtain ⟨o3, o4⟩ := k7 1 le_rfl
  rw [k6] at o1 c4
  have hK : cut 0 = K 0 * d := by
    have hws : ∀ k, k ≤ 1 → ws k = ws' k := by
      intro k hk
      have e := k4.symm.trans u1
      simp only [VTree.multi.injEq, and_true] at e
      have := congrArg (fun l => l[k]?) e
      simpa only [List.getElem?_map, List.getElem?_range (show k < 1 + 1 by omega), Option.map_some, Option.some.injEq, VTree.vol.injEq] using this
    have hown : ∀ q, Owns env ws' 2 1 q ↔ Owns env ws 2 1 q := by
      intro q
      have h0 := hws 0 (by norm_num)
      have h1 := hws 1 le_rfl
      unfold Owns
      rw [h1]
      refine and_congr_right fun _ => forall_congr' fun j => ?_
      refine imp_congr_right fun hj => ?_
      obtain rfl | rfl : j = 0 ∨ j = 1 := by omega
      · rw [h0]
      · rw [h1]
    have key : ∀ z : ℝ, |z| < 10 + 1 / 10 ^ 5 → (z < cut 0 + 1 / 10 ^ 5 ↔ z < K 0 * d + 1 / 10 ^ 5) := by
      intro z hz
      have hin : Inside env (.vol (ball 0 10)) (z • n) := by
        refine .vol _ _ (by intro t ht; cases ht) fun b hb => ?_
        simp only [ball, List.mem_singleton] at hb
        subst hb
        show Sphere.interior _ _ = true
        rw [Sphere.interior_iff, ← norm3_sq, sub_zero, norm3_smul, hn, mul_one]
        exact pow_lt_pow_left₀ hz (abs_nonneg _) (by norm_num)
      have hh : height n (z • n) = z := by
        have := norm3_eq_one.mp hn
        simp only [V3.normSq, V3.dot] at this
        simp only [height, V3.smul_x, V3.smul_y, V3.smul_z]
        linear_combination z * this
      have := (u2 1 le_rfl (z • n)).symm.trans ((hown _).trans (o4 (z • n)))
      simpa [InLayer, hin, hh] using this
    obtain ⟨b1, b2⟩ := u3 0 (by norm_num)
    rcases lt_trichotomy (cut 0) (K 0 * d) with hlt | he | hlt
    · have := (key (cut 0 + 1 / 10 ^ 5) (by rw [abs_lt]; constructor <;> norm_num at * <;> linarith)).mpr (by linarith)
      exact absurd this (lt_irrefl _)
    · exact he
    · rcases le_total (K 0 * d) (-10) with hle | hle
      · have := (key (-10 + 1 / 10 ^ 5) (by rw [abs_lt]; constructor <;> norm_num)).mp (by linarith)
        linarith
      · have := (key (K 0 * d + 1 / 10 ^ 5) (by rw [abs_lt]; constructor <;> norm_num at * <;> linarith)).mp (by linarith)
        exact absurd this (lt_irrefl _)
  have hdl : d = (len (millerV ⟨1, 1, 1⟩))⁻¹ := eq_inv_of_mul_eq_one_left k2
  refine ⟨n, d, K 0, ws, gs 1, k1, ?_, ?_, hK ▸ u3 0 (by norm_num), by rw [k4]; rfl, o1, o3, ?_, ?_, ?_, ?_, ?_⟩
  · rw [hdl, inv_pow, hl3]; norm_num
  · rw [k3, hdl]; simp [millerV]
  · intro q
    rw [o2]
    simp [InLayer]
  · intro q
    rw [o4]
    simp [InLayer]
  · have hk : ∀ (j : ℤ) (e : ℝ), e = d / 4 ∨ e = -(d / 4) → e + j * d ≠ K 0 * d := by
      intro j e he h
      have h' : 4 * (K 0 - j) * d = d ∨ 4 * (K 0 - j) * d = -d := by rcases he with rfl | rfl <;> [left; right] <;> linarith
      have : 4 * (K 0 - j) = 1 ∨ 4 * (K 0 - j) = -1 := by
        rcases h' with h' | h'
        · left
          have : (4 * (K 0 - j) : ℝ) = 1 := mul_right_cancel₀ k1.ne' (by rw [h', one_mul])
          exact_mod_cast this
        · right
          have : (4 * (K 0 - j) : ℝ) = -1 := mul_right_cancel₀ k1.ne' (by rw [h']; ring)
          exact_mod_cast this
      omega
    rintro q (hq | hq)
    · rw [← k6] at hq
      obtain ⟨j, hj⟩ := (c1 0 (by norm_num)).1 q hq
      rw [hj]
      exact hk j _ (.inl hc)
    · obtain ⟨j, hj⟩ := (c1 1 le_rfl).1 q hq
      rw [hj]
      exact hk j _ (.inr (by rw [c3, hc]))
  · intro q hq hh
    have hm : q - height n q • n ∈ LateralFrom n (cs 0) d movedFcc 79 (K 0 + 0) := ⟨q, hq, by rw [hh, hc]; push_cast; ring, rfl⟩
    rw [← c4] at hm
    obtain ⟨q', hq', e1, e2⟩ := hm
    rw [c3, hc] at e1
    have : q - (d / 2) • n = q' := by
      rw [hh, e1] at e2
      have := congrArg (· + (-(d / 4) + ((K 0 - 0 : ℤ) : ℝ) * d) • n) e2
      simp only [sub_add_cancel] at this
      rw [← this]
      ext <;> simp <;> ring
    rw [this]
    exact hq'
  · obtain ⟨⟨w, q, hq, hh, -⟩, -⟩ := (c1 0 (by norm_num)).2 (K 0)
    rw [k6] at hq
    exact ⟨q, hq, by rw [hh, hc]; ring⟩

/-- Concrete case of `C89_any_origin`: the crystal of the refutation, with random choices between twin and fault. -/
example (env : Env) (split : ℕ → ℕ) (fuel : ℕ) (rand : ℕ → ℝ) (t : VTree) (tw sf : Bool)
    (ht : (⟨some movedFcc, some (.vol (ball 0 10)), 1 / 2, 2, 3, ⟨1, 1, 1⟩⟩ : Fcc).build env split fuel rand = some (.ok (t, tw, sf))) :
    ∃ (n : V3 ℝ) (d : ℝ) (cs : ℕ → ℝ) (gs : ℕ → Gen ℝ), ∀ k, k ≤ 2 → CubicStack (LateralFrom n (cs k) d (gs k) 79) := by
  have hB : CubicCell 1 (⟨1, .scalar 1, ⟨1 / 12, 1 / 12, 1 / 12⟩⟩ : Voxel ℝ).sbases := by
    rw [unit_sbases]
    exact ⟨one_pos, by ext <;> simp [M3.mul_def, M3.transpose, M3.one_def, M3.smul_def],
      by ext <;> simp [M3.mul_def, M3.transpose, M3.one_def, M3.smul_def]⟩
  have hB' : CubicCell 1 (1 : M3 ℝ) := by rw [← unit_sbases ⟨1 / 12, 1 / 12, 1 / 12⟩]; exact hB
  obtain ⟨n, d, K, ws, gs, -, -, -, -, -, -, -, k8⟩ := C89_any_origin env _ movedFcc (ball 0 10) _ _ 1 rfl rfl rfl rfl rfl trivial hB hB'
    (by rw [mul_one]; exact machEps_lt_one) (by refine ⟨.inl rfl, .inl rfl, .inl rfl⟩) (ball_intact env 0 10) (by norm_num : (0 : ℤ) ≤ 2) (by norm_num) _ _ _ _ _ _ ht
  obtain ⟨cs, -, c1, -⟩ := k8 79 0 fccGen_sitesAt
  exact ⟨n, d, cs, gs, fun k hk => (c1 k hk).2⟩

end Prefab

end
end CZ
