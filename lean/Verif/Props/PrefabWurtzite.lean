import Verif.Props.PrefabStacking

/-!
# Properties C70, C90, C93, C94 for the wurtzite prefab
-/

namespace CZ
open Spec

noncomputable section
open Classical

namespace Prefab

/-! ## One defect -/

/-- The point of a snapped plane. -/
theorem snapPlane_point {g : Gen ℝ} {x : Voxel ℝ} (hv : g.voxel = some x) (hs : g.strain = none) (hd : x.sbases.det ≠ 0) {f : V3 ℝ} {h : V3 ℤ} {mode : String}
    {p : Plane} (hp : snapPlane (x.sbases.mulVec f) g h mode = .ok p) :
    p.point = x.sbases.mulVec ⟨snapCoord mode h.x f.x, snapCoord mode h.y f.y, snapCoord mode h.z f.z⟩ := by
  unfold snapPlane at hp
  have hsolve : x.sbases.solve (x.sbases.mulVec f) = .ok f := by rw [M3.solve_iff _ _ _ hd]
  simp only [hv, hs, hsolve, bind, Except.bind] at hp
  split at hp
  · cases hp
  exact (make_inv hp).2.1

/-- Planes do not depend on the origin of the generator. -/
theorem snapPlane_congr {g g' : Gen ℝ} {x y : Voxel ℝ} (hv : g.voxel = some x) (hs : g.strain = none) (hv' : g'.voxel = some y) (hs' : g'.strain = none)
    (he : y.sbases = x.sbases) (q : V3 ℝ) (h : V3 ℤ) (mode : String) : snapPlane q g' h mode = snapPlane q g h mode := by
  unfold snapPlane
  simp only [hv, hs, hv', hs', he, Voxel.reciprocalBases]

theorem wurtziteDefect_inv {bz : V3 ℝ} {pl : Plane} {g : Gen ℝ} {sg : ℤ} {e : Tr ℝ × ℤ × Bool} (h : wurtziteDefect bz (.ok pl) g sg = .ok e) :
    ∃ (y : Voxel ℝ) (p1 p2 : Plane), g.voxel = some y ∧ snapPlane pl.point g ⟨0, 0, 1⟩ "nearest" = .ok p1 ∧ snapPlane pl.point g ⟨0, 0, 2⟩ "nearest" = .ok p2 ∧
      ∃ b : ℕ, (b = 1 ∨ b = 2) ∧ (b = 2 ↔ allclose p1.point p2.point) ∧
      e = (.translation (((sg : ℝ) • y.sbases).mulVec ⟨(b : ℝ) / 3, -(b : ℝ) / 3, 0⟩ + bz) true false, sg * -1, false) := by
  unfold wurtziteDefect at h
  simp only [bind, Except.bind] at h
  split at h
  · cases h
  rename_i p1 hp1
  split at h
  · cases h
  rename_i p2 hp2
  cases hy : g.voxel with
  | none => simp only [hy] at h; cases h
  | some y =>
    simp only [hy] at h
    refine ⟨y, p1, p2, rfl, hp1, hp2, ?_⟩
    by_cases hc : allclose p1.point p2.point
    · refine ⟨2, .inr rfl, by simp [hc], ?_⟩
      rw [if_pos hc] at h
      cases h
      push_cast
      rw [show (⟨(2 : ℝ) / 3 * 1, (2 : ℝ) / 3 * -1, (2 : ℝ) / 3 * 0⟩ : V3 ℝ) = ⟨2 / 3, -2 / 3, 0⟩ by ext <;> norm_num]
    · refine ⟨1, .inl rfl, by simp [hc], ?_⟩
      rw [if_neg hc] at h
      cases h
      push_cast
      rw [show (⟨(1 : ℝ) / 3 * 1, (1 : ℝ) / 3 * -1, (1 : ℝ) / 3 * 0⟩ : V3 ℝ) = ⟨1 / 3, -1 / 3, 0⟩ by ext <;> norm_num]

/-- The loop of the wurtzite prefab: cells and displacements. -/
theorem wurtzite_loop {g : Gen ℝ} {x : Voxel ℝ} (hx : g.voxel = some x) (hs : ColumnScale x.scale) {N : ℕ} {gs : ℕ → Gen ℝ} {ss : ℕ → ℤ} {ts : ℕ → Tr ℝ}
    {bs : ℕ → Bool} {pl : ℕ → Plane} (h0 : gs 0 = g) (s0 : ss 0 = 1)
    (hstep : ∀ k, k < N → wurtziteDefect (((1 / 2 : ℝ) • x.sbases).mulVec ⟨0, 0, -1⟩) (.ok (pl k)) (gs k) (ss k) = .ok (ts k, ss (k + 1), bs k) ∧
      (gs k).fromGenerator [ts k] = .ok (gs (k + 1))) :
    (∀ k, k ≤ N → (∃ y, (gs k).voxel = some y ∧ y.scale = x.scale ∧ y.sbases = x.sbases) ∧ (gs k).strain = g.strain ∧ (gs k).struct = g.struct) ∧
    ∀ k, k < N → ∃ b : ℕ, (b = 1 ∨ b = 2) ∧
      (∃ p1 p2, snapPlane (pl k).point (gs k) ⟨0, 0, 1⟩ "nearest" = .ok p1 ∧ snapPlane (pl k).point (gs k) ⟨0, 0, 2⟩ "nearest" = .ok p2 ∧
        (b = 2 ↔ allclose p1.point p2.point)) ∧
      Displaced (((-1) ^ k : ℝ) • cart x.sbases 0 ⟨(b : ℝ) / 3, -(b : ℝ) / 3, 0⟩ + cart x.sbases 0 ⟨0, 0, -1 / 2⟩) (gs k) (gs (k + 1)) := by
  have hcell : ∀ k, k ≤ N → (∃ y, (gs k).voxel = some y ∧ y.scale = x.scale ∧ y.sbases = x.sbases) ∧ ss k = (-1) ^ k ∧ (gs k).strain = g.strain ∧
      (gs k).struct = g.struct := by
    intro k
    induction k with
    | zero => intro _; rw [h0]; exact ⟨⟨x, hx, rfl, rfl⟩, by rw [s0]; rfl, rfl, rfl⟩
    | succ k ih =>
      intro hk
      obtain ⟨⟨y, y1, y2, y3⟩, y4, y5, y6⟩ := ih (by omega)
      obtain ⟨d1, d2⟩ := hstep k (by omega)
      obtain ⟨y', p1, p2, e1, -, -, b, -, -, e2⟩ := wurtziteDefect_inv d1
      injection e2 with e2 e3
      injection e3 with e3 _
      rw [e2] at d2
      obtain ⟨⟨v', z1, z2, z3, -⟩, -⟩ := displaced_of y1 (y2 ▸ hs) d2
      have hst := crystal_image y1 (y2 ▸ hs) d2 rfl 1 (fun B => (M3_one_mul B).symm) (fun x y => by rw [M3.mulVec_one]; simp only [Tr.apply]; ext <;> simp)
      refine ⟨⟨v', z1, z2.trans y2, z3.trans y3⟩, by rw [e3, y4, pow_succ], hst.2.2.1.trans y5, hst.2.1.trans y6⟩
  refine ⟨fun k hk => ⟨(hcell k hk).1, (hcell k hk).2.2⟩, fun k hk => ?_⟩
  obtain ⟨⟨y, y1, y2, y3⟩, y4, -⟩ := hcell k (by omega)
  obtain ⟨d1, d2⟩ := hstep k hk
  obtain ⟨y', p1, p2, e1, q1, q2, b, hb, hc, e2⟩ := wurtziteDefect_inv d1
  rw [y1] at e1
  cases e1
  injection e2 with e2 _
  rw [e2] at d2
  refine ⟨b, hb, ⟨p1, p2, q1, q2, hc⟩, ?_⟩
  have hdis := (displaced_of y1 (y2 ▸ hs) d2).2.2
  rw [y3, y4] at hdis
  convert hdis using 1
  rw [cart_eq, add_zero, cart_eq, add_zero]
  push_cast
  ext <;> simp [M3.mulVec, M3.smul_def] <;> ring

/-! ## C70 -/

/-- **C70 (wurtzite).** Whenever `build_object` of wurtziteStackingFault returns, the result is a MultiVolume of N + 1 grains in layers cut by N parallel planes
at descending heights; all grains have the cell of the given generator, and the crystal of grain k+1 is that of grain k displaced by
half a cell along -c and by ± b/3 of [1,-1,0], with b = 1 or 2 and alternating signs. -/
theorem C70_wurtzite_grains (env : Env) (p : Wurtzite) (g : Gen ℝ) (v : Vol) (x : Voxel ℝ) (hg : p.gen = some g) (hv : p.vol = some (.vol v))
    (hx : g.voxel = some x) (hs : ColumnScale x.scale) (hi : Intact env v) (hN : 0 ≤ p.N) (hm : 0 ≤ p.minSep)
    (split : ℕ → ℕ) (fuel : ℕ) (t : VTree) (h : p.build env split fuel = some (.ok t)) :
    ∃ (n : V3 ℝ) (c : ℕ → ℝ) (ws : ℕ → Vol) (gs : ℕ → Gen ℝ), len n = 1 ∧
      (∀ i j, i < j → j < p.N.toNat → c j ≤ c i) ∧
      t = .multi ((List.range (p.N.toNat + 1)).map fun k => .vol (ws k)) 0 none ∧
      (∀ k, k ≤ p.N.toNat → (ws k).gen = some (.crystal (gs k)) ∧ (∃ y, (gs k).voxel = some y ∧ y.sbases = x.sbases) ∧
        ∀ q, Owns env ws (p.N.toNat + 1) k q ↔ Inside env (.vol v) q ∧ InLayer n c (1 / 10 ^ 5) p.N.toNat k q) ∧
      gs 0 = g ∧
      ∀ k, k < p.N.toNat → ∃ b : ℕ, (b = 1 ∨ b = 2) ∧
        Displaced (((-1) ^ k : ℝ) • cart x.sbases 0 ⟨(b : ℝ) / 3, -(b : ℝ) / 3, 0⟩ + cart x.sbases 0 ⟨0, 0, -1 / 2⟩) (gs k) (gs (k + 1)) := by
  obtain ⟨R, n0, b, se, sp, ep, s, d, L, xs, st, -, -, -, -, hsp, -, -, hd, -, hspl, ha, rfl⟩ := wurtzite_build_inv hg hv hx hN h
  have h1 := (snapPlane_unit hsp).1
  obtain ⟨gs, ss, ts, bs, ws, X, k1, k2, k3, k4, k5, k6, k7, k8, k9, k10, k11, -, -, -⟩ := assemble_layers hi hN hm h1 hspl ha
  have hd0 := dHkl_pos hd
  have hmono : ∀ i j, i < j → j < p.N.toNat → height sp.normal sp.point + X j * d ≤ height sp.normal sp.point + X i * d := by
    intro i j hij hj
    have := k7 i j hij hj
    have : (X j : ℝ) ≤ X i := by exact_mod_cast (by omega : X j ≤ X i)
    nlinarith
  obtain ⟨w1, w2⟩ := wurtzite_loop hx hs (pl := fun k => rung sp.normal sp.point d (X k)) k3 k4 k11
  refine ⟨sp.normal, fun k => height sp.normal sp.point + X k * d, ws, gs, by rw [len_eq]; exact h1, hmono, by rw [k5], ?_, k3, ?_⟩
  · intro k hk
    obtain ⟨⟨y, y1, -, y3⟩, -⟩ := w1 k hk
    exact ⟨(k8 k hk).2, ⟨y, y1, y3⟩, fun q => owns_iff (fun k hk => (k8 k hk).1) k9 k10 hmono k hk q⟩
  · intro k hk
    obtain ⟨b, hb, -, hb'⟩ := w2 k hk
    exact ⟨b, hb, hb'⟩

/-! ## C90 -/

/-- What the wurtzite prefab needs of a generator. -/
def SameCell (x : Voxel ℝ) (g : Gen ℝ) : Prop := g.strain = none ∧ ∃ y, g.voxel = some y ∧ y.bases = x.bases ∧ y.scale = x.scale

theorem sbases_congr {x y : Voxel ℝ} (h1 : y.bases = x.bases) (h2 : y.scale = x.scale) : y.sbases = x.sbases := by
  unfold Voxel.sbases; rw [h1, h2]

theorem half_reciprocal {B : M3 ℝ} {r : V3 ℝ} (h : IsReciprocal B ⟨0, 0, 2⟩ r) : IsReciprocal B ⟨0, 0, 1⟩ ((1 / 2 : ℝ) • r) := by
  intro f
  have := h f
  simp only [miller, V3.smul_x, V3.smul_y, V3.smul_z] at this ⊢
  push_cast at this ⊢
  linarith

theorem wurtziteDefect_ok {x : Voxel ℝ} (hd : x.sbases.det ≠ 0) (hd' : x.bases.det ≠ 0) {r : V3 ℝ} (hr : IsReciprocal x.sbases ⟨0, 0, 2⟩ r)
    (hl : 2 * machEps < norm3 r) (bz : V3 ℝ) (pl : Plane) {g : Gen ℝ} (sg : ℤ) (hg : SameCell x g) :
    ∃ e g', wurtziteDefect bz (.ok pl) g sg = .ok e ∧ g.fromGenerator [e.1] = .ok g' ∧ SameCell x g' := by
  obtain ⟨hn, y, hy, y1, y2⟩ := hg
  have ys := sbases_congr y1 y2
  have hm := machEps_pos
  obtain ⟨f, hf⟩ := frac_exists hd pl.point
  have hd1 : y.sbases.det ≠ 0 := by rw [ys]; exact hd
  obtain ⟨p2, s2, -⟩ := snap_spec hy hn hd1 (by rw [ys]; exact hr) (by linarith) "nearest" (.inl rfl) f
  obtain ⟨p1, s1, -⟩ := snap_spec hy hn hd1 (h := ⟨0, 0, 1⟩) (by rw [ys]; exact half_reciprocal hr) (by
    rw [norm3_smul, abs_of_pos (by norm_num)]; linarith) "nearest" (.inl rfl) f
  rw [cart_eq, add_zero, ys, ← hf] at s1 s2
  unfold wurtziteDefect
  simp only [bind, Except.bind, s1, s2, hy]
  obtain ⟨g', h1, ⟨y', z1, z2, z3⟩, h3, -⟩ := gen_step hy (.translation (((sg : ℝ) • y.sbases).mulVec
    ⟨(if allclose p1.point p2.point then 2 else 1) / 3 * 1, (if allclose p1.point p2.point then 2 else 1) / 3 * -1,
      (if allclose p1.point p2.point then 2 else 1) / 3 * 0⟩ + bz) true false) (by show y.bases.det ≠ 0; rw [y1]; exact hd')
  exact ⟨_, g', rfl, h1, h3.trans hn, y', z1, z3.trans y1, z2.trans y2⟩

theorem inv_unique {B R Q : M3 ℝ} (hR : B.inv = .ok R) (hQ : Q * B = 1) : R = Q := by
  obtain ⟨-, h2⟩ := M3.inv_mul _ _ hR
  calc R = 1 * R := (M3_one_mul _).symm
    _ = Q * B * R := by rw [hQ]
    _ = Q * (B * R) := by ext <;> simp only [M3.mul_def] <;> ring
    _ = Q := by rw [h2]; ext <;> simp [M3.mul_def, M3.one_def]

/-- Runs of the wurtzite prefab, for any direction of the search. -/
theorem wurtzite_returns {env : Env} {p : Wurtzite} {g : Gen ℝ} {v : Vol} {x : Voxel ℝ} {s : Struct ℝ} {r : V3 ℝ} (hg : p.gen = some g)
    (hv : p.vol = some (.vol v)) (H : Regular g x s ⟨0, 0, 2⟩ r) (hl : 2 * machEps < len r) (hs : ColumnScale x.scale) (hi : Intact env v) (hN : 0 ≤ p.N)
    (hm : 0 ≤ p.minSep) {R : M3 ℝ} (hR : x.sbases.inv = .ok R) {n0 : V3 ℝ} (hn0 : unitOrNan (R.mulVec ⟨0, 0, 2⟩) = .ok n0) {b : BBox} {se : V3 ℝ × V3 ℝ}
    (hb : v.boundingBox env = .ok b) (hse : boxSpan n0 b = .ok se) {lo hi' : ℝ} (r1 : height ((len r)⁻¹ • r) (sphereSpan n0 v.algs se).1 = lo)
    (r2 : height ((len r)⁻¹ • r) (sphereSpan n0 v.algs se).2 = hi') (room : ((p.N + 1) * p.minSep + 1 : ℤ) ≤ len r * |hi' - lo|) :
    (∀ split fuel e, p.build env split fuel ≠ some (.error e)) ∧ ∃ split fuel t, p.build env split fuel = some (.ok t) := by
  have h0 : 0 < len r := machEps_pos.trans H.length
  have e2 : norm3 ((len r)⁻¹ • r) = 1 := by rw [len_eq] at h0 ⊢; exact norm3_unit h0.ne'
  obtain ⟨q0, Ss, Se, k1, k2, k3, k4⟩ := candidates_regular H hb hse
  rw [r1] at k3
  rw [r2] at k4
  have hnz : nonzeros ⟨0, 0, 2⟩ = 1 := by simp [nonzeros]
  rw [hnz] at k3 k4
  have hroom : (p.N + 1) * p.minSep < ((|Se - Ss|).toNat + 1 : ℕ) := by
    rcases le_total lo hi' with hle | hle
    · rw [abs_of_nonneg (sub_nonneg.mpr hle)] at room
      refine room_spec (z := 1) k3 k4 ?_
      push_cast at room ⊢; linarith
    · rw [abs_of_nonpos (sub_nonpos.mpr hle)] at room
      rw [abs_sub_comm]
      refine room_spec (z := 1) k4 k3 ?_
      push_cast at room ⊢; linarith
  rw [len_eq] at hl
  have hasm : ∀ xs : List ℤ, Splitting p.N p.minSep ((|Se - Ss|).toNat + 1 : ℕ) xs → ∃ st, assemble env g v p.N
      ((List.range ((|Se - Ss|).toNat + 1)).map (rung ((len r)⁻¹ • r) q0 (len r)⁻¹)) xs.reverse
      (fun _ => wurtziteDefect (((1 / 2 : ℝ) • x.sbases).mulVec ⟨0, 0, -1⟩)) = .ok st :=
    fun xs hx => assemble_ok (SameCell x) hi hm e2 hx ⟨H.strain, x, H.voxel, rfl, rfl⟩ fun i g sg j hP =>
      wurtziteDefect_ok H.det (bases_det_ne hs H.det) H.recip hl _ _ sg hP
  have hbuild : ∀ split fuel, p.build env split fuel =
      match Splits.getNSplits p.N p.minSep ((|Se - Ss|).toNat + 1 : ℕ) split fuel with
      | none => none
      | some (.error e) => some (.error e)
      | some (.ok splits) => some ((assemble env g v p.N ((List.range ((|Se - Ss|).toNat + 1)).map (rung ((len r)⁻¹ • r) q0 (len r)⁻¹)) splits.reverse
              (fun _ => wurtziteDefect (((1 / 2 : ℝ) • x.sbases).mulVec ⟨0, 0, -1⟩))).map fun st => .multi st.vols 0 none) := by
    intro split fuel
    unfold Wurtzite.build
    simp only [hg, H.voxel, Voxel.reciprocalBases, hR, show millerV ⟨0, 0, 2⟩ = ⟨0, 0, 2⟩ by simp [millerV], hn0, hv, k1,
      List.length_map, List.length_range]
    rfl
  constructor
  · intro split fuel e
    rw [hbuild]
    cases hsp : Splits.getNSplits p.N p.minSep ((|Se - Ss|).toNat + 1 : ℕ) split fuel with
    | none => simp
    | some res =>
      cases res with
      | error e' => exact absurd hsp (splits_never_raise hN hm (.inr hroom) split fuel e')
      | ok xs =>
        obtain ⟨st, hst⟩ := hasm xs (splits_spec hN hsp)
        simp only [hst]
        exact fun hh => by cases hh
  · obtain ⟨split, fuel, xs, hsp⟩ := splits_exist hN hm (.inr hroom)
    obtain ⟨st, hst⟩ := hasm xs (splits_spec hN hsp)
    refine ⟨split, fuel, .multi st.vols 0 none, ?_⟩
    rw [hbuild, hsp]
    simp only [hst]
    rfl

/-- **C90 (wurtzite, partial).** The same for wurtziteStackingFault when `reciprocal_bases @ (0,0,2)` points along the normal of the planes (as for a
crystal that has not been rotated) and the cell is not of astronomic length. -/
theorem C90_wurtzite_returns_partial (env : Env) (p : Wurtzite) (g : Gen ℝ) (v : Vol) (x : Voxel ℝ) (s : Struct ℝ) (r : V3 ℝ) (hg : p.gen = some g)
    (hv : p.vol = some (.vol v)) (H : Regular g x s ⟨0, 0, 2⟩ r) (hl : 2 * machEps < len r) (hs : ColumnScale x.scale) (hi : Intact env v) (hN : 0 ≤ p.N)
    (hm : 0 ≤ p.minSep) (hdir : ∃ (R : M3 ℝ) (c : ℝ), R * x.sbases = 1 ∧ 0 < c ∧ cart R 0 ⟨0, 0, 2⟩ = c • r) (lo hi' : ℝ)
    (hr : SearchRange env v ((len r)⁻¹ • r) lo hi') (room : ((p.N + 1) * p.minSep + 1 : ℤ) ≤ len r * (hi' - lo)) :
    (∀ split fuel e, p.build env split fuel ≠ some (.error e)) ∧ ∃ split fuel t, p.build env split fuel = some (.ok t) := by
  have h0 : 0 < len r := machEps_pos.trans H.length
  obtain ⟨Q, c, hQ, hc, he⟩ := hdir
  obtain ⟨R, hR⟩ : ∃ R, x.sbases.inv = .ok R := ⟨_, if_neg H.det⟩
  obtain rfl := inv_unique hR hQ
  rw [cart_eq, add_zero] at he
  obtain ⟨e1, e2⟩ := unit_dir h0 hc he
  obtain ⟨hle, ⟨b, se, hb, hse⟩, hr⟩ := range_spec e2 hr
  obtain ⟨r1, r2⟩ := hr b se hb hse
  exact wurtzite_returns hg hv H hl hs hi hN hm hR e1 hb hse r1 r2 (by rwa [abs_of_nonneg (sub_nonneg.mpr hle)])

/-! ## C93 -/

/-- **C93, finding.** `norm_vec = reciprocal_bases @ (0,0,2)` uses the inverse cell matrix without transposing it.  When this points against the
normal of the planes (as after a rotation of the crystal by 90° about x or y), the search runs from the top of the ball upwards, and in every
result the last grain owns the whole ball: no fault is inside it. -/
theorem C93_reversed (env : Env) (p : Wurtzite) (g : Gen ℝ) (v : Vol) (x : Voxel ℝ) (s : Struct ℝ) (r : V3 ℝ) (hg : p.gen = some g)
    (hv : p.vol = some (.vol v)) (H : Regular g x s ⟨0, 0, 2⟩ r) (hi : Intact env v) (hN : 0 ≤ p.N) (hm : 1 ≤ p.minSep)
    (hdir : ∃ (R : M3 ℝ) (c : ℝ), R * x.sbases = 1 ∧ 0 < c ∧ cart R 0 ⟨0, 0, 2⟩ = -(c • r)) (rad tol : ℝ) (hrad : 0 < rad) (htol : 0 ≤ tol) (htol' : tol ≤ 1 / 10 ^ 5)
    (ha : v.algs = [.sphere ⟨rad, 0, tol⟩]) (split : ℕ → ℕ) (fuel : ℕ) (t : VTree) (h : p.build env split fuel = some (.ok t)) :
    ∃ ws : ℕ → Vol, t = .multi ((List.range (p.N.toNat + 1)).map fun k => .vol (ws k)) 0 none ∧
      ∀ k, k < p.N.toNat → ∀ q, ¬ Owns env ws (p.N.toNat + 1) k q := by
  have h0 : 0 < len r := machEps_pos.trans H.length
  obtain ⟨R', n0, st, hR, hn0, rfl, R⟩ := wurtzite_run hg hv H.voxel hN h
  obtain ⟨Q, c, hQ, hc, he⟩ := hdir
  obtain rfl := inv_unique hR hQ
  rw [cart_eq, add_zero] at he
  have hlen' : len (-r) = len r := by simp [len]
  obtain ⟨e1, -⟩ := unit_dir (r := -r) (w := R'.mulVec ⟨0, 0, 2⟩) (by rw [hlen']; exact h0) hc (by rw [he]; ext <;> simp)
  have e2 : norm3 ((len r)⁻¹ • r) = 1 := by rw [len_eq] at h0 ⊢; exact norm3_unit h0.ne'
  rw [hlen', show (len r)⁻¹ • -r = -((len r)⁻¹ • r) by ext <;> simp] at e1
  rw [show millerV ⟨0, 0, 2⟩ = ⟨0, 0, 2⟩ by simp [millerV], e1] at hn0
  cases hn0
  obtain ⟨b, se, Ss, Se, q0, K, X, gs, ss, ts, bs, ws, a1, a2, a3, a4, a5, a6, a7, a8, -⟩ := run_spec H hi hN (by omega) R
  refine ⟨ws, a7, fun k hk q ho => ?_⟩
  obtain ⟨hin, -, hl⟩ := ((a8 k hk.le).2 q).mp ho
  have hl := hl hk
  have hsp : (sphereSpan (-((len r)⁻¹ • r)) v.algs se).1 = rad • ((len r)⁻¹ • r) := by
    unfold sphereSpan; rw [ha]; ext <;> simp
  rw [hsp, height_smul, height_self e2, mul_one, show nonzeros ⟨0, 0, 2⟩ = 1 by simp [nonzeros], abs_lt] at a3
  have hK : (Ss : ℝ) + 1 ≤ K k := by exact_mod_cast (by have := (a5 k hk).1; omega : Ss + 1 ≤ K k)
  have hup : rad < K k / len r := by
    rw [lt_div_iff₀ h0]; push_cast at a3; linarith
  cases hin with
  | vol _ _ hh hal =>
    have := hal (.sphere ⟨rad, 0, tol⟩) (by rw [ha]; exact List.mem_cons_self)
    change decide ((q - 0).normSq < (rad + tol) ^ 2) = true at this
    rw [decide_eq_true_iff, sub_zero] at this
    have hn : ((len r)⁻¹ • r).normSq = 1 := norm3_eq_one.mp e2
    generalize (len r)⁻¹ • r = n at *
    have cs : (height n q) ^ 2 ≤ q.normSq := by
      have e : q.normSq = n.normSq * q.normSq := by rw [hn, one_mul]
      rw [e]
      simp only [height, V3.normSq, V3.dot]
      nlinarith [sq_nonneg (n.x * q.y - n.y * q.x), sq_nonneg (n.x * q.z - n.z * q.x), sq_nonneg (n.y * q.z - n.z * q.y)]
    have := abs_lt_of_sq_lt_sq (lt_of_le_of_lt cs this) (by linarith)
    rw [abs_lt] at this
    linarith

/-- A crystal with wurtzite-like layers, turned by 90° about y: the third cell vector is along x. -/
def turnedCell : M3 ℝ := ⟨0, 0, 1, 0, 1, 0, -1, 0, 0⟩

def turnedGen : Gen ℝ := ⟨some ⟨turnedCell.transpose, [(0, 30)]⟩, some ⟨turnedCell, .scalar 1, 0⟩, none, none⟩

/-- wurtziteStackingFault of two faults in a ball of radius 10. -/
def turnedWurtzite : Wurtzite := ⟨some turnedGen, some (.vol (ball 0 10)), 2, 3⟩

theorem turned_sbases : (⟨turnedCell, .scalar 1, 0⟩ : Voxel ℝ).sbases = turnedCell := by
  unfold Voxel.sbases; simp [M3.smul_def]

theorem len_2x : len (⟨2, 0, 0⟩ : V3 ℝ) = 2 := by
  simp only [len]; rw [show (2 : ℝ) ^ 2 + 0 ^ 2 + 0 ^ 2 = 2 ^ 2 by norm_num]; exact Real.sqrt_sq (by norm_num)

theorem turned_regular : Regular turnedGen ⟨turnedCell, .scalar 1, 0⟩ ⟨turnedCell.transpose, [(0, 30)]⟩ ⟨0, 0, 2⟩ ⟨2, 0, 0⟩ where
  voxel := rfl
  struct := rfl
  strain := rfl
  det := by rw [turned_sbases]; norm_num [turnedCell, M3.det]
  lattice := by norm_num [turnedCell, M3.det, M3.transpose]
  recip := by
    rw [turned_sbases]; intro f; rw [cart_eq, add_zero]; simp [miller, turnedCell, M3.mulVec]; ring
  length := by rw [len_2x]; linarith [machEps_lt_one]
  spacing := ⟨⟨2, 0, 0⟩, by
    intro f
    show _ = _
    rw [show (⟨turnedCell.transpose, [(0, 30)]⟩ : Struct ℝ).latticeMatrix.transpose = turnedCell from rfl, cart_eq, add_zero]
    simp [miller, turnedCell, M3.mulVec]; ring, rfl⟩

/-- **C93, finding (instance).** A crystal turned by 90° about y, two faults in a ball of radius 10 around the origin: `build_object` can return,
and in every result the last grain owns everything. -/
theorem C93_refuted (env : Env) :
    (∃ split fuel t, turnedWurtzite.build env split fuel = some (.ok t)) ∧
    ∀ split fuel t, turnedWurtzite.build env split fuel = some (.ok t) →
      ∃ ws : ℕ → Vol, t = .multi ((List.range 3).map fun k => .vol (ws k)) 0 none ∧ ∀ k, k < 2 → ∀ q, ¬ Owns env ws 3 k q := by
  have H := turned_regular
  have hi := ball_intact env 0 10
  have hQ : turnedCell.transpose * (⟨turnedCell, .scalar 1, 0⟩ : Voxel ℝ).sbases = 1 := by
    rw [turned_sbases]; ext <;> simp [turnedCell, M3.transpose, M3.mul_def, M3.one_def]
  have hc : cart turnedCell.transpose 0 ⟨0, 0, 2⟩ = -((1 : ℝ) • (⟨2, 0, 0⟩ : V3 ℝ)) := by
    rw [cart_eq, add_zero]; ext <;> simp [turnedCell, M3.transpose, M3.mulVec]
  constructor
  · obtain ⟨R, hR⟩ : ∃ R, (⟨turnedCell, .scalar 1, 0⟩ : Voxel ℝ).sbases.inv = .ok R := ⟨_, if_neg H.det⟩
    obtain rfl := inv_unique hR hQ
    have hn0 : unitOrNan (turnedCell.transpose.mulVec ⟨0, 0, 2⟩) = .ok ⟨-1, 0, 0⟩ := by
      rw [cart_eq, add_zero] at hc
      have h1 : len (⟨-2, 0, 0⟩ : V3 ℝ) = 2 := by rw [← len_2x]; simp [len]
      have := (unit_dir (r := ⟨-2, 0, 0⟩) (w := turnedCell.transpose.mulVec ⟨0, 0, 2⟩) (by rw [h1]; norm_num) one_pos (by
        rw [hc]; ext <;> simp)).1
      rw [this, h1]
      congr 1
      ext <;> simp
    have hu : norm3 (⟨-1, 0, 0⟩ : V3 ℝ) = 1 := by rw [norm3_eq_one]; simp [V3.normSq, V3.dot]
    obtain ⟨-, ⟨b, se, hb, hse⟩, -⟩ := range_spec hu (ball_range env 0 (r := 10) (by norm_num) ⟨-1, 0, 0⟩)
    have hsp : sphereSpan ⟨-1, 0, 0⟩ (ball 0 10).algs se = (⟨10, 0, 0⟩, ⟨-10, 0, 0⟩) := by
      unfold sphereSpan ball; ext <;> simp
    refine (wurtzite_returns (p := turnedWurtzite) (lo := 10) (hi' := -10) rfl rfl H (by rw [len_2x]; linarith [machEps_lt_one]) trivial hi
      (by show (0 : ℤ) ≤ 2; norm_num) (by show (0 : ℤ) ≤ 3; norm_num) hR hn0 hb hse ?_ ?_ ?_).2
    · rw [hsp, len_2x]; simp [height]
    · rw [hsp, len_2x]; simp [height]
    · rw [len_2x]
      show (((2 + 1) * 3 + 1 : ℤ) : ℝ) ≤ _
      norm_num
  · intro split fuel t h
    exact C93_reversed env turnedWurtzite _ _ _ _ _ rfl rfl H hi (by show (0 : ℤ) ≤ 2; norm_num) (by show (1 : ℤ) ≤ 3; norm_num)
      ⟨_, 1, hQ, one_pos, hc⟩ 10 (1 / 10 ^ 5) (by norm_num) (by norm_num) le_rfl rfl split fuel t h

end Prefab

end
end CZ
