import Verif.Props.PrefabPlanes

/-!
# Property C90 and concrete cases of C69, C70, C87, C88: when the builders return
-/

namespace CZ
open Spec

noncomputable section
open Classical

namespace Prefab

/-! ## Splits -/

theorem splits_never_raise {n m l : ℤ} (hn : 0 ≤ n) (hm : 0 ≤ m) (h : n = 0 ∨ (n + 1) * m < l) (rng : ℕ → ℕ) (fuel : ℕ) (e : PyErr) :
    Splits.getNSplits n m l rng fuel ≠ some (.error e) := by
  rcases hn.lt_or_eq with h1 | h1
  · have hl : (n + 1) * m < l := h.resolve_left (by omega)
    exact (Splits.C56_can_return n m l (by omega) hm (Splits.fits_of_lt (by omega) hm (by linarith))).1 rng fuel e
  · subst h1
    unfold Splits.getNSplits Splits.start
    rw [if_pos rfl]
    exact fun hh => by cases hh

theorem splits_exist {n m l : ℤ} (hn : 0 ≤ n) (hm : 0 ≤ m) (h : n = 0 ∨ (n + 1) * m < l) :
    ∃ split fuel xs, Splits.getNSplits n m l split fuel = some (.ok xs) := by
  rcases hn.lt_or_eq with h1 | h1
  · have hl : (n + 1) * m < l := h.resolve_left (by omega)
    have hc := (Splits.C56_can_return n m l (by omega) hm (Splits.fits_of_lt (by omega) hm (by linarith))).2
    obtain ⟨s, hs⟩ : ∃ s, Splits.integers 0 m (l - m) = .ok s := by
      unfold Splits.integers; rw [if_neg (by nlinarith [mul_nonneg hn hm])]; exact ⟨_, rfl⟩
    have hst : Splits.start n m l 0 = .ok (.inr ⟨[s], Splits.near m s (Splits.data m l)⟩) := by
      unfold Splits.start
      rw [if_neg (by omega), if_neg (by linarith), hs]
      rfl
    obtain ⟨rs, hrs⟩ := hc _ (.start 0 _ hst)
    obtain ⟨xs, hxs⟩ := hrs 1 (fun i => if i = 0 then 0 else rs.getD (i - 1) 0) (by
      intro i hi
      rw [if_neg (by omega), Nat.add_sub_cancel_left, List.getD_eq_getElem?_getD, List.getElem?_eq_getElem hi, Option.getD_some])
    refine ⟨fun i => if i = 0 then 0 else rs.getD (i - 1) 0, rs.length, xs, ?_⟩
    unfold Splits.getNSplits
    simp only [if_true, hst]
    exact hxs
  · subst h1
    exact ⟨fun _ => 0, 0, [], by unfold Splits.getNSplits Splits.start; rw [if_pos rfl]⟩

/-- With one split every plane of the range can be chosen. -/
theorem splits_one {m l s : ℤ} (h1 : m ≤ s) (h2 : s < l - m) : ∃ split, ∀ fuel, Splits.getNSplits 1 m l split fuel = some (.ok [s]) := by
  obtain ⟨r, hr⟩ := Splits.integers_surj h1 h2
  refine ⟨fun _ => r, fun fuel => ?_⟩
  unfold Splits.getNSplits Splits.start
  rw [if_neg (by norm_num), if_neg (by linarith), hr]
  simp only [bind, Except.bind, pure, Except.pure]
  unfold Splits.loop
  rw [if_neg (by simp)]
  rfl

/-! ## Assembling the grains -/

theorem gen_step {g : Gen ℝ} {y : Voxel ℝ} (hv : g.voxel = some y) (t : Tr ℝ) (hd : (t.bases y.bases).det ≠ 0) :
    ∃ g', g.fromGenerator [t] = .ok g' ∧ (∃ y', g'.voxel = some y' ∧ y'.scale = y.scale ∧ y'.bases = t.bases y.bases) ∧
      g'.strain = g.strain ∧ g'.struct = g.struct := by
  unfold Gen.fromGenerator Gen.transform
  simp only [hv, basesSet_of_det hd]
  refine ⟨_, rfl, ⟨_, rfl, ?_⟩, rfl, rfl⟩
  split_ifs <;> exact ⟨rfl, rfl⟩

theorem grains_ok {env : Env} {vol : Vol} {N : ℤ} {planes : List Plane} {splits : List ℤ}
    {defect : ℕ → Py Plane → Gen ℝ → ℤ → Py (Tr ℝ × ℤ × Bool)} (P : Gen ℝ → Prop) (M : ℕ) (hi : Intact env vol)
    (hch : ∀ i, i < M → ∃ p, chosen planes splits i = .ok p ∧ norm3 p.normal = 1)
    (hdef : ∀ i, i < M → ∀ g sg p, P g → chosen planes splits i = .ok p → norm3 p.normal = 1 →
      ∃ d g', defect i (.ok p) g sg = .ok d ∧ g.fromGenerator [d.1] = .ok g' ∧ P g') :
    ∀ (k i : ℕ) (st : State), i + k ≤ M → P st.gen → ∃ st', grains env vol N planes splits defect k i st = .ok st'
  | 0, _, st, _, _ => ⟨st, rfl⟩
  | k + 1, i, st, hk, hP => by
    obtain ⟨p, hp, hn⟩ := hch i (by omega)
    obtain ⟨d, g', h1, h2, h3⟩ := hdef i (by omega) st.gen st.sign p hP hp hn
    obtain ⟨w, hw⟩ := copy_ok g' hi
    unfold grains
    rw [hp]
    simp only [bind, Except.bind, h1]
    have : addGrain env vol N planes splits i d st = .ok ⟨g', d.2.1,
        st.vols ++ [.vol { w.addAlg (.plane ⟨p.normal, p.point, 1 / 10 ^ 5⟩) with priority := N - (i + 1) }], st.twin || d.2.2, st.fault || !d.2.2⟩ := by
      unfold addGrain
      simp only [bind, Except.bind, h2, hw, hp, one_smul, make_unit hn, pure, Except.pure]
    rw [this]
    exact grains_ok P M hi hch hdef k (i + 1) _ (by omega) h3

theorem assemble_ok {env : Env} {g : Gen ℝ} {vol : Vol} {N m : ℤ} {n q : V3 ℝ} {d : ℝ} {L : ℕ} {xs : List ℤ}
    {defect : ℕ → Py Plane → Gen ℝ → ℤ → Py (Tr ℝ × ℤ × Bool)} (P : Gen ℝ → Prop) (hi : Intact env vol) (hm : 0 ≤ m)
    (hn : norm3 n = 1) (hsp : Splitting N m L xs) (hg : P g)
    (hdef : ∀ i g sg j, P g → ∃ e g', defect i (.ok (rung n q d j)) g sg = .ok e ∧ g.fromGenerator [e.1] = .ok g' ∧ P g') :
    ∃ st, assemble env g vol N ((List.range L).map (rung n q d)) xs.reverse defect = .ok st := by
  obtain ⟨hlen, hrange, -⟩ := hsp
  have hch : ∀ i, i < N.toNat → ∃ j, chosen ((List.range L).map (rung n q d)) xs.reverse i = .ok (rung n q d j) := by
    intro i hi
    have hl : i < xs.reverse.length := by rw [List.length_reverse]; omega
    obtain ⟨r1, r2⟩ := hrange _ (List.mem_reverse.mp (List.getElem_mem hl))
    exact ⟨_, chosen_spec (List.getElem?_eq_getElem hl) (by omega) (by omega)⟩
  obtain ⟨w, hw⟩ := copy_ok g hi
  unfold assemble
  rw [show g.fromGenerator [] = .ok g from rfl]
  simp only [bind, Except.bind, hw]
  refine grains_ok P N.toNat hi (fun i hi => ?_) (fun i hi g sg p hP hp hn' => ?_) _ _ _ (by omega) hg
  · obtain ⟨j, hj⟩ := hch i hi
    exact ⟨_, hj, hn⟩
  · obtain ⟨j, hj⟩ := hch i hi
    rw [hj] at hp
    cases hp
    exact hdef i g sg j hP

/-- Generators the fcc prefabs can go on with. -/
def Solid (g : Gen ℝ) : Prop := ∃ y, g.voxel = some y ∧ y.bases.det ≠ 0

theorem reflMatrix_det {n : V3 ℝ} (hn : norm3 n = 1) : (Tr.reflMatrix n).det = -1 := by
  have h := (C41_reflection_is_mirror ⟨n, 0, 1⟩ (by rw [len_eq]; exact hn) true false 0).2.2.2.2 1
  rw [M3.det_one] at h
  rw [← h]
  show _ = (Tr.reflMatrix n * 1).det
  rw [M3.det_mul, M3.det_one, mul_one]

theorem fccDefect_ok {h : V3 ℤ} {ratio draw : ℝ} {pl : Plane} (hn : norm3 pl.normal = 1) {g : Gen ℝ} (sg : ℤ) (hg : Solid g) :
    ∃ e g', fccDefect h ratio draw (.ok pl) g sg = .ok e ∧ g.fromGenerator [e.1] = .ok g' ∧ Solid g' := by
  obtain ⟨y, hy, hd⟩ := hg
  unfold fccDefect
  split_ifs with hr
  · rw [hy]
    obtain ⟨g', h1, ⟨y', h2, -, h3⟩, -⟩ := gen_step hy (.translation (((sg : ℝ) • y.sbases).mulVec
        ⟨1 / 3 * 1 * (h.x.sign : ℝ), 1 / 3 * 1 * (h.y.sign : ℝ), 1 / 3 * (-2) * (h.z.sign : ℝ)⟩) true false) (by exact hd)
    exact ⟨_, g', rfl, h1, y', h2, by rw [h3]; exact hd⟩
  · have hdet : ((Tr.mkReflection pl true false).bases y.bases).det ≠ 0 := by
      show (Tr.reflMatrix pl.normal * y.bases).det ≠ 0
      rw [M3.det_mul, reflMatrix_det hn]
      simpa using hd
    obtain ⟨g', h1, ⟨y', h2, -, h3⟩, -⟩ := gen_step hy (Tr.mkReflection pl true false) hdet
    exact ⟨_, g', rfl, h1, y', h2, by rw [h3]; exact hdet⟩

/-- The candidates for a regular crystal. -/
theorem candidates_regular {env : Env} {g : Gen ℝ} {x : Voxel ℝ} {s : Struct ℝ} {h : V3 ℤ} {r : V3 ℝ} (H : Regular g x s h r) {v : Vol} {n0 : V3 ℝ}
    {b : BBox} {se : V3 ℝ × V3 ℝ} (hb : v.boundingBox env = .ok b) (hse : boxSpan n0 b = .ok se) :
    ∃ q0 Ss Se, candidates env g (some (.vol v)) n0 h = .ok (v, (List.range ((|(Se : ℤ) - Ss|).toNat + 1)).map (rung ((len r)⁻¹ • r) q0 (len r)⁻¹)) ∧
      height ((len r)⁻¹ • r) q0 = (Ss : ℤ) / len r ∧
      |(Ss : ℝ) - len r * height ((len r)⁻¹ • r) (sphereSpan n0 v.algs se).1| < nonzeros h ∧
      |(Se : ℝ) - len r * height ((len r)⁻¹ • r) (sphereSpan n0 v.algs se).2| < nonzeros h := by
  obtain ⟨sp, ep, Ss, Se, c1, c2, c3, c4, c5, c6, c7, c8⟩ := ladder_spec H (sphereSpan n0 v.algs se).1 (sphereSpan n0 v.algs se).2
  refine ⟨sp.point, Ss, Se, ?_, c5, c7, c8⟩
  obtain ⟨u1, u2⟩ := snapPlane_unit c1
  unfold candidates
  simp only [bind, Except.bind, hb, hse, c1, c2, H.struct, c3, c6, stack_spec u1, pure, Except.pure]
  congr 2
  rw [List.range_succ_eq_map, List.map_cons, List.map_map, c4]
  congr 1
  obtain ⟨a, b', c⟩ := sp
  simp only at u2 c4
  subst u2 c4
  unfold rung
  congr 1
  ext <;> simp

/-- There is room for the splits when the searched range is long enough. -/
theorem room_spec {lr lo hi' : ℝ} {Ss Se N m z : ℤ} (h1 : |(Ss : ℝ) - lr * lo| < z) (h2 : |(Se : ℝ) - lr * hi'| < z)
    (room : ((N + 1) * m + 2 * z - 1 : ℤ) ≤ lr * (hi' - lo)) : (N + 1) * m < ((|Se - Ss|).toNat + 1 : ℕ) := by
  rw [abs_lt] at h1 h2
  push_cast
  rw [Int.toNat_of_nonneg (abs_nonneg _)]
  have : ((N + 1) * m : ℝ) < |(Se : ℝ) - Ss| + 1 := by
    have := le_abs_self ((Se : ℝ) - Ss)
    push_cast at room
    linarith
  exact_mod_cast this

/-! ## C90 -/

/-- **C90 (fcc, partial).** For a regular crystal with [hkl] perpendicular to (hkl): if the searched range has room for
(N+1)·min_sep planes and five more (two for each index that is not zero, less one), `build_object` never raises, and some random stream makes it
return, whatever the kinds of the defects.  (That the random search for splits returns from every state is C56.) -/
theorem C90_fcc_returns_partial (env : Env) (p : Fcc) (g : Gen ℝ) (v : Vol) (x : Voxel ℝ) (s : Struct ℝ) (r : V3 ℝ) (hg : p.gen = some g)
    (hv : p.vol = some (.vol v)) (H : Regular g x s p.plane r) (hs : ColumnScale x.scale) (hi : Intact env v) (hN : 0 ≤ p.N) (hm : 0 ≤ p.minSep)
    (hdir : ∃ c : ℝ, 0 < c ∧ cart x.bases 0 ⟨(p.plane.x : ℝ), (p.plane.y : ℝ), (p.plane.z : ℝ)⟩ = c • r) (lo hi' : ℝ)
    (hr : SearchRange env v ((len r)⁻¹ • r) lo hi')
    (room : ((p.N + 1) * p.minSep + 2 * nonzeros p.plane - 1 : ℤ) ≤ len r * (hi' - lo)) :
    (∀ split fuel rand e, p.build env split fuel rand ≠ some (.error e)) ∧
      ∃ split fuel, ∀ rand, ∃ t tw sf, p.build env split fuel rand = some (.ok (t, tw, sf)) := by
  have h0 : 0 < len r := machEps_pos.trans H.length
  obtain ⟨c, hc, he⟩ := hdir
  rw [cart_eq, add_zero] at he
  obtain ⟨e1, e2⟩ := unit_dir h0 hc he
  obtain ⟨hle, ⟨b, se, hb, hse⟩, hr⟩ := range_spec e2 hr
  obtain ⟨r1, r2⟩ := hr b se hb hse
  obtain ⟨q0, Ss, Se, k1, k2, k3, k4⟩ := candidates_regular H hb hse
  rw [r1] at k3
  rw [r2] at k4
  have hroom := room_spec k3 k4 room
  have hasm : ∀ (rand : ℕ → ℝ) xs, Splitting p.N p.minSep ((|Se - Ss|).toNat + 1 : ℕ) xs → ∃ st, assemble env g v p.N
      ((List.range ((|Se - Ss|).toNat + 1)).map (rung ((len r)⁻¹ • r) q0 (len r)⁻¹)) xs.reverse (fun i => fccDefect p.plane p.ratio (rand i)) = .ok st :=
    fun rand xs hx => assemble_ok Solid hi hm e2 hx ⟨x, H.voxel, bases_det_ne hs H.det⟩ fun i g sg j hP => fccDefect_ok e2 sg hP
  have hbuild : ∀ split fuel rand, p.build env split fuel rand =
      match Splits.getNSplits p.N p.minSep ((|Se - Ss|).toNat + 1 : ℕ) split fuel with
      | none => none
      | some (.error e) => some (.error e)
      | some (.ok splits) => some ((assemble env g v p.N ((List.range ((|Se - Ss|).toNat + 1)).map (rung ((len r)⁻¹ • r) q0 (len r)⁻¹)) splits.reverse
              (fun i => fccDefect p.plane p.ratio (rand i))).map fun st => (.multi st.vols 0 none, st.twin, st.fault)) := by
    intro split fuel rand
    unfold Fcc.build
    simp only [hg, H.voxel, show millerV p.plane = ⟨(p.plane.x : ℝ), (p.plane.y : ℝ), (p.plane.z : ℝ)⟩ from rfl, e1, hv, k1,
      List.length_map, List.length_range]
    rfl
  constructor
  · intro split fuel rand e
    rw [hbuild]
    cases hsp : Splits.getNSplits p.N p.minSep ((|Se - Ss|).toNat + 1 : ℕ) split fuel with
    | none => simp
    | some res =>
      cases res with
      | error e' => exact absurd hsp (splits_never_raise hN hm (.inr hroom) split fuel e')
      | ok xs =>
        obtain ⟨st, hst⟩ := hasm rand xs (splits_spec hN hsp)
        simp only [hst]
        exact fun hh => by cases hh
  · obtain ⟨split, fuel, xs, hsp⟩ := splits_exist hN hm (.inr hroom)
    refine ⟨split, fuel, fun rand => ?_⟩
    obtain ⟨st, hst⟩ := hasm rand xs (splits_spec hN hsp)
    rw [hbuild, hsp]
    simp only [hst]
    exact ⟨_, _, _, rfl⟩

end Prefab

end
end CZ
