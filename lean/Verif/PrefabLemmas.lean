import Verif.Prefab
import Verif.Spec.Prefab
import Verif.Spec.Misc
import Verif.Props.Volume
import Verif.Props.Snap

/-!
# Lemmas about the prefabs
-/

namespace CZ
open Spec

noncomputable section
open Classical

namespace Prefab

theorem machEps_lt_one : machEps < 1 := by unfold machEps; norm_num

theorem make_unit {n : V3 ℝ} (hn : norm3 n = 1) (q : V3 ℝ) : Plane.make n q (1 / 10 ^ 5) = .ok ⟨n, q, 1 / 10 ^ 5⟩ := by
  unfold Plane.make Plane.normalSet tolSet
  rw [if_pos (by rw [hn]; exact machEps_lt_one), if_pos (by norm_num), hn, inv_one, one_smul]
  rfl

/-- The i-th of equally spaced planes. -/
def rung (n q : V3 ℝ) (d : ℝ) (i : ℕ) : Plane := ⟨n, q + ((i : ℝ) * d) • n, 1 / 10 ^ 5⟩

theorem stack_spec {n : V3 ℝ} (hn : norm3 n = 1) (d : ℝ) : ∀ (k : ℕ) (q : V3 ℝ),
    stack n d k q = .ok ((List.range k).map fun i => rung n q d (i + 1))
  | 0, _ => rfl
  | k + 1, q => by
    unfold stack
    rw [make_unit hn]
    simp only [bind, Except.bind, stack_spec hn d k (q + d • n), pure, Except.pure]
    rw [List.range_succ_eq_map, List.map_cons, List.map_map]
    congr 2
    · unfold rung; congr 1; ext <;> simp
    · apply List.map_congr_left
      intro i _
      simp only [Function.comp, rung]
      congr 1
      ext <;> simp <;> ring

theorem norm3_normalSet {n m : V3 ℝ} (h : Plane.normalSet n = .ok m) : norm3 m = 1 := by
  unfold Plane.normalSet at h
  split_ifs at h with h0
  cases h
  exact norm3_unit (machEps_pos.trans h0).ne'

theorem make_inv {n q : V3 ℝ} {t : ℝ} {p : Plane} (h : Plane.make n q t = .ok p) : norm3 p.normal = 1 ∧ p.point = q ∧ p.tol = t := by
  unfold Plane.make at h
  cases h1 : Plane.normalSet n with
  | error e => rw [h1] at h; cases h
  | ok m =>
    rw [h1] at h
    unfold tolSet at h
    simp only [bind, Except.bind] at h
    split_ifs at h
    cases h
    exact ⟨norm3_normalSet h1, rfl, rfl⟩

theorem snapPlane_unit {x : V3 ℝ} {g : Gen ℝ} {h : V3 ℤ} {mode : String} {p : Plane} (hp : snapPlane x g h mode = .ok p) :
    norm3 p.normal = 1 ∧ p.tol = 1 / 10 ^ 5 := by
  unfold snapPlane at hp
  repeat' split at hp
  all_goals try (cases hp; done)
  all_goals
    simp only [bind, Except.bind] at hp
    repeat' split at hp
    all_goals try (cases hp; done)
    all_goals exact ⟨(make_inv hp).1, (make_inv hp).2.2⟩

theorem dHkl_pos {s : Struct ℝ} {h : V3 ℤ} {d : ℝ} (hd : dHkl s h = .ok d) : 0 < d := by
  unfold dHkl at hd
  simp only [bind, Except.bind] at hd
  split at hd
  · cases hd
  · split_ifs at hd with h0
    cases hd
    exact inv_pos.mpr (lt_of_le_of_ne (norm3_nonneg _) (Ne.symm h0))

/-- The candidate planes are a ladder of equally spaced parallel planes. -/
theorem candidates_spec {env : Env} {g : Gen ℝ} {vol : Option VTree} {n : V3 ℝ} {h : V3 ℤ} {v : Vol} {planes : List Plane}
    (hc : candidates env g vol n h = .ok (v, planes)) :
    vol = some (.vol v) ∧ ∃ (b : BBox) (se : V3 ℝ × V3 ℝ) (sp ep : Plane) (s : Struct ℝ) (d : ℝ), v.boundingBox env = .ok b ∧
      boxSpan n b = .ok se ∧
      snapPlane (sphereSpan n v.algs se).1 g h "floor" = .ok sp ∧ snapPlane (sphereSpan n v.algs se).2 g h "ceil" = .ok ep ∧
      g.struct = some s ∧ dHkl s h = .ok d ∧
      planes = (List.range ((npRound (ep.distFrom sp.point / d)).toNat + 1)).map (rung sp.normal sp.point d) := by
  unfold candidates at hc
  split at hc
  · cases hc
  · cases hc
  · rename_i w
    simp only [bind, Except.bind] at hc
    split at hc
    · cases hc
    rename_i b hb
    split at hc
    · cases hc
    rename_i se hse
    split at hc
    · cases hc
    rename_i sp hsp
    split at hc
    · cases hc
    rename_i ep hep
    split at hc
    · cases hc
    rename_i s hs
    split at hc
    · cases hc
    rename_i d hd
    obtain ⟨h1, h2⟩ := snapPlane_unit hsp
    rw [stack_spec h1] at hc
    cases hc
    refine ⟨rfl, b, se, sp, ep, s, d, hb, hse, hsp, hep, hs, hd, ?_⟩
    rw [List.range_succ_eq_map, List.map_cons, List.map_map]
    congr 1
    obtain ⟨a, b', c⟩ := sp
    simp only at h2
    subst h2
    unfold rung
    congr 1
    ext <;> simp

/-- One pass of the loop. -/
structure Step (env : Env) (vol : Vol) (N : ℤ) (planes : List Plane) (splits : List ℤ)
    (defect : ℕ → Py Plane → Gen ℝ → ℤ → Py (Tr ℝ × ℤ × Bool)) (i : ℕ) (g : Gen ℝ) (s : ℤ) (g' : Gen ℝ) (s' : ℤ) (t : Tr ℝ) (b : Bool) (w : Vol) : Prop where
  defect : defect i (chosen planes splits i) g s = .ok (t, s', b)
  gen : g.fromGenerator [t] = .ok g'
  vol : ∃ w0 p q, vol.fromVolume env (some (some (.crystal g'))) [] = .ok w0 ∧ chosen planes splits i = .ok p ∧
    Plane.make ((1 : ℝ) • p.normal) p.point (1 / 10 ^ 5) = .ok q ∧ w = { w0.addAlg (.plane q) with priority := N - (i + 1) }

theorem addGrain_spec {env : Env} {vol : Vol} {N : ℤ} {planes : List Plane} {splits : List ℤ} {i : ℕ} {d : Tr ℝ × ℤ × Bool} {st st' : State}
    (h : addGrain env vol N planes splits i d st = .ok st') :
    st'.sign = d.2.1 ∧ st'.twin = (st.twin || d.2.2) ∧ st'.fault = (st.fault || !d.2.2) ∧ st.gen.fromGenerator [d.1] = .ok st'.gen ∧
      ∃ w w0 p q, vol.fromVolume env (some (some (.crystal st'.gen))) [] = .ok w0 ∧ chosen planes splits i = .ok p ∧
        Plane.make ((1 : ℝ) • p.normal) p.point (1 / 10 ^ 5) = .ok q ∧ w = { w0.addAlg (.plane q) with priority := N - (i + 1) } ∧
        st'.vols = st.vols ++ [.vol w] := by
  unfold addGrain at h
  cases h1 : st.gen.fromGenerator [d.1] with
  | error e => rw [h1] at h; cases h
  | ok g =>
    rw [h1] at h
    simp only [bind, Except.bind] at h
    cases h2 : vol.fromVolume env (some (some (.crystal g))) [] with
    | error e => rw [h2] at h; cases h
    | ok w0 =>
      rw [h2] at h
      cases h3 : chosen planes splits i with
      | error e => rw [h3] at h; cases h
      | ok p =>
        rw [h3] at h
        cases h4 : Plane.make ((1 : ℝ) • p.normal) p.point (1 / 10 ^ 5) with
        | error e => simp only [h4] at h; cases h
        | ok q =>
          simp only [h4] at h
          cases h
          exact ⟨rfl, rfl, rfl, rfl, _, w0, p, q, h2, rfl, h4, rfl, rfl⟩

theorem grains_spec {env : Env} {vol : Vol} {N : ℤ} {planes : List Plane} {splits : List ℤ}
    {defect : ℕ → Py Plane → Gen ℝ → ℤ → Py (Tr ℝ × ℤ × Bool)} : ∀ (k i : ℕ) (st st' : State),
    grains env vol N planes splits defect k i st = .ok st' → ∃ (gs : ℕ → Gen ℝ) (ss : ℕ → ℤ) (ts : ℕ → Tr ℝ) (bs : ℕ → Bool) (ws : ℕ → Vol),
      (st'.twin = true ↔ st.twin = true ∨ ∃ j, j < k ∧ bs j = true) ∧ (st'.fault = true ↔ st.fault = true ∨ ∃ j, j < k ∧ bs j = false) ∧
      gs 0 = st.gen ∧ ss 0 = st.sign ∧ st'.vols = st.vols ++ (List.range k).map (fun j => .vol (ws j)) ∧
      ∀ j, j < k → Step env vol N planes splits defect (i + j) (gs j) (ss j) (gs (j + 1)) (ss (j + 1)) (ts j) (bs j) (ws j)
  | 0, i, st, st', h => by
    cases h
    exact ⟨fun _ => st.gen, fun _ => st.sign, fun _ => .multi [], fun _ => true, fun _ => vol, by simp, by simp, rfl, rfl, by simp, fun j hj => absurd hj (by omega)⟩
  | k + 1, i, st, st', h => by
    unfold grains at h
    simp only [bind, Except.bind] at h
    split at h
    · cases h
    rename_i d hd
    split at h
    · cases h
    rename_i st1 h1
    obtain ⟨e1, et, ef, e2, w, w0, p, q, e3, e4, e5, e6, e7⟩ := addGrain_spec h1
    obtain ⟨gs, ss, ts, bs, ws, ft, ff, f1, f2, f3, f4⟩ := grains_spec k (i + 1) st1 st' h
    refine ⟨fun | 0 => st.gen | j + 1 => gs j, fun | 0 => st.sign | j + 1 => ss j, fun | 0 => d.1 | j + 1 => ts j,
      fun | 0 => d.2.2 | j + 1 => bs j, fun | 0 => w | j + 1 => ws j, ?_, ?_, rfl, rfl, ?_, ?_⟩
    · rw [ft, et, Bool.or_eq_true, or_assoc]
      refine or_congr_right ⟨?_, ?_⟩
      · rintro (hb | ⟨j, hj, hb⟩)
        · exact ⟨0, by omega, hb⟩
        · exact ⟨j + 1, by omega, hb⟩
      · rintro ⟨j, hj, hb⟩
        cases j with
        | zero => exact .inl hb
        | succ j => exact .inr ⟨j, by omega, hb⟩
    · rw [ff, ef, Bool.or_eq_true, or_assoc, Bool.not_eq_true']
      refine or_congr_right ⟨?_, ?_⟩
      · rintro (hb | ⟨j, hj, hb⟩)
        · exact ⟨0, by omega, hb⟩
        · exact ⟨j + 1, by omega, hb⟩
      · rintro ⟨j, hj, hb⟩
        cases j with
        | zero => exact .inl hb
        | succ j => exact .inr ⟨j, by omega, hb⟩
    · rw [f3, e7, List.range_succ_eq_map, List.map_cons, List.map_map, List.append_assoc]
      rfl
    · intro j hj
      cases j with
      | zero =>
        show Step env vol N planes splits defect (i + 0) st.gen st.sign (gs 0) (ss 0) d.1 d.2.2 w
        rw [f1, f2, e1]
        exact ⟨hd, e2, w0, p, q, e3, e4, e5, e6⟩
      | succ j =>
        have := f4 j (by omega)
        rw [show i + (j + 1) = i + 1 + j by omega]
        exact this

theorem assemble_spec {env : Env} {g : Gen ℝ} {vol : Vol} {N : ℤ} {planes : List Plane} {splits : List ℤ}
    {defect : ℕ → Py Plane → Gen ℝ → ℤ → Py (Tr ℝ × ℤ × Bool)} {st : State} (h : assemble env g vol N planes splits defect = .ok st) :
    ∃ (gs : ℕ → Gen ℝ) (ss : ℕ → ℤ) (ts : ℕ → Tr ℝ) (bs : ℕ → Bool) (ws : ℕ → Vol) (w0 : Vol),
      (st.twin = true ↔ ∃ j, j < N.toNat ∧ bs j = true) ∧ (st.fault = true ↔ ∃ j, j < N.toNat ∧ bs j = false) ∧ gs 0 = g ∧ ss 0 = 1 ∧
      vol.fromVolume env (some (some (.crystal g))) [] = .ok w0 ∧ ws 0 = { w0 with priority := N } ∧
      st.vols = (List.range (N.toNat + 1)).map (fun j => .vol (ws j)) ∧
      ∀ j, j < N.toNat → Step env vol N planes splits defect j (gs j) (ss j) (gs (j + 1)) (ss (j + 1)) (ts j) (bs j) (ws (j + 1)) := by
  unfold assemble at h
  rw [show g.fromGenerator [] = .ok g from rfl] at h
  simp only [bind, Except.bind] at h
  split at h
  · cases h
  rename_i w0 hw
  obtain ⟨gs, ss, ts, bs, ws, ft, ff, f1, f2, f3, f4⟩ := grains_spec _ _ _ _ h
  refine ⟨gs, ss, ts, bs, fun | 0 => { w0 with priority := N } | j + 1 => ws j, w0, by simpa using ft, by simpa using ff, f1, f2, hw, rfl, ?_, fun j hj => ?_⟩
  · rw [f3, List.range_succ_eq_map, List.map_cons, List.map_map]
    rfl
  · have := f4 j hj
    rwa [Nat.zero_add] at this

/-- A copy with another generator. -/
theorem copy_spec {env : Env} {v w : Vol} {g : Gen ℝ} (hi : Intact env v) (h : v.fromVolume env (some (some (.crystal g))) [] = .ok w) :
    (∀ p, Inside env (.vol w) p ↔ Inside env (.vol v) p) ∧ w.gen = some (.crystal g) ∧ w.algs = v.algs ∧ w.points = v.points := by
  obtain ⟨ht, ⟨hp, htr⟩ | ⟨ps, hp, htr, h3, ho⟩⟩ := hi
  · unfold Vol.fromVolume at h
    simp only [hp, make_surfaces, bind, Except.bind, pure, Except.pure, Option.getD_some, Vol.addGenerator, Vol.transformAll] at h
    cases h
    refine ⟨fun p => ?_, rfl, rfl, hp.symm⟩
    rw [← Vol.interior_iff, ← Vol.interior_iff]; simp [Vol.interior, htr]
  · unfold Vol.fromVolume at h
    simp only [hp, make_points env ps h3 ho, bind, Except.bind, pure, Except.pure, Option.getD_some, Vol.addGenerator, Vol.transformAll] at h
    cases h
    refine ⟨fun p => ?_, rfl, rfl, hp.symm⟩
    rw [← Vol.interior_iff, ← Vol.interior_iff]; simp [Vol.interior, htr, ht]

theorem copy_ok {env : Env} {v : Vol} (g : Gen ℝ) (hi : Intact env v) : ∃ w, v.fromVolume env (some (some (.crystal g))) [] = .ok w := by
  obtain ⟨ht, ⟨hp, htr⟩ | ⟨ps, hp, htr, h3, ho⟩⟩ := hi
  · unfold Vol.fromVolume
    simp only [hp, make_surfaces, bind, Except.bind, pure, Except.pure, Option.getD_some, Vol.addGenerator, Vol.transformAll]
    exact ⟨_, rfl⟩
  · unfold Vol.fromVolume
    simp only [hp, make_points env ps h3 ho, bind, Except.bind, pure, Except.pure, Option.getD_some, Vol.addGenerator, Vol.transformAll]
    exact ⟨_, rfl⟩

theorem inside_addAlg {env : Env} {w : Vol} {a : Alg} {pr : ℤ} {p : V3 ℝ} :
    Inside env (.vol { w.addAlg a with priority := pr }) p ↔ Inside env (.vol w) p ∧ a.interior p = true := by
  rw [← Vol.interior_iff, ← Vol.interior_iff]
  simp only [Vol.interior, Vol.addAlg, List.all_append, List.all_cons, List.all_nil, Bool.and_true, Bool.and_eq_true]
  tauto

theorem inside_priority {env : Env} {w : Vol} {pr : ℤ} {p : V3 ℝ} :
    Inside env (.vol { w with priority := pr }) p ↔ Inside env (.vol w) p := by
  rw [← Vol.interior_iff, ← Vol.interior_iff]
  rfl

/-- Being below a plane of the ladder. -/
theorem rung_interior {n q : V3 ℝ} (hn : norm3 n = 1) (d : ℝ) (i : ℕ) (p : V3 ℝ) :
    (Alg.plane (rung n q d i)).interior p = true ↔ height n p < (height n q + i * d) + 1 / 10 ^ 5 := by
  have h1 : n.dot n = 1 := by
    have := norm3_sq n
    rw [hn] at this
    rw [show n.dot n = n.normSq from rfl, ← this]; norm_num
  have e : (q + ((i : ℝ) * d) • n).dot n = height n q + i * d := by
    have : (q + ((i : ℝ) * d) • n).dot n = q.dot n + (i * d) * n.dot n := by
      simp only [V3.dot, V3.add_x, V3.add_y, V3.add_z, V3.smul_x, V3.smul_y, V3.smul_z]; ring
    rw [this, h1]; unfold height V3.dot; ring
  have e2 : p.dot n = height n p := by unfold height V3.dot; ring
  simp only [Alg.interior, Plane.interior, Plane.sdist, rung, decide_eq_true_eq, e, e2]
  constructor <;> intro h <;> linarith

/-- Ownership among nested half spaces. -/
theorem owns_iff {env : Env} {v : Vol} {ws : ℕ → Vol} {N : ℕ} {n : V3 ℝ} {c : ℕ → ℝ} {tol : ℝ}
    (hpr : ∀ k, k ≤ N → (ws k).priority = (N : ℤ) - k) (h0 : ∀ p, Inside env (.vol (ws 0)) p ↔ Inside env (.vol v) p)
    (hs : ∀ k, k < N → ∀ p, Inside env (.vol (ws (k + 1))) p ↔ Inside env (.vol v) p ∧ height n p < c k + tol)
    (hc : ∀ i j, i < j → j < N → c j ≤ c i) (k : ℕ) (hk : k ≤ N) (p : V3 ℝ) :
    Owns env ws (N + 1) k p ↔ Inside env (.vol v) p ∧ InLayer n c tol N k p := by
  have hin : ∀ k, k ≤ N → ∀ p, Inside env (.vol (ws k)) p → Inside env (.vol v) p := by
    intro k hk p hp
    cases k with
    | zero => exact (h0 p).mp hp
    | succ k => exact ((hs k (by omega) p).mp hp).1
  constructor
  · rintro ⟨h1, h2⟩
    have hv := hin k hk p h1
    refine ⟨hv, ?_, ?_⟩
    · intro i hi
      subst hi
      exact ((hs i (by omega) p).mp h1).2
    · intro hkN
      by_contra hlt
      refine h2 (k + 1) (by omega) (by omega) ?_ ((hs k hkN p).mpr ⟨hv, not_le.mp hlt⟩)
      rw [hpr (k + 1) (by omega), hpr k hk]; push_cast; omega
  · rintro ⟨hv, h1, h2⟩
    refine ⟨?_, ?_⟩
    · cases k with
      | zero => exact (h0 p).mpr hv
      | succ k => exact (hs k (by omega) p).mpr ⟨hv, h1 k rfl⟩
    · intro j hj hne hprio hj'
      rw [hpr j (by omega), hpr k hk] at hprio
      have hkj : k < j := by omega
      obtain ⟨j, rfl⟩ : ∃ j', j = j' + 1 := ⟨j - 1, by omega⟩
      have a := ((hs j (by omega) p).mp hj').2
      have b := h2 (by omega)
      rcases Nat.lt_or_ge k j with hlt | hge
      · have := hc k j hlt (by omega); linarith
      · have : k = j := by omega
        subst this; linarith

theorem inLayer_exists {n : V3 ℝ} {c : ℕ → ℝ} {tol : ℝ} {N : ℕ} (p : V3 ℝ) : ∃ k, k ≤ N ∧ InLayer n c tol N k p := by
  by_cases h : ∃ k, k < N ∧ height n p < c k + tol
  · -- the last plane above the point
    obtain ⟨m, hm, hmax⟩ : ∃ m, (m < N ∧ height n p < c m + tol) ∧ ∀ j, m < j → j < N → ¬ height n p < c j + tol := by
      obtain ⟨k, hk⟩ := h
      let S := (Finset.range N).filter fun k => height n p < c k + tol
      have hne : S.Nonempty := ⟨k, by simp [S, hk.1, hk.2]⟩
      refine ⟨S.max' hne, ?_, ?_⟩
      · have := S.max'_mem hne
        simpa [S] using this
      · intro j hj hjN hlt
        have := S.le_max' j (by simp [S, hjN, hlt])
        omega
    refine ⟨m + 1, by omega, ?_, ?_⟩
    · intro i hi
      have : i = m := by omega
      subst this; exact hm.2
    · intro hlt
      exact not_lt.mp (hmax (m + 1) (by omega) hlt)
  · refine ⟨0, by omega, fun i hi => absurd hi (by omega), fun hN => ?_⟩
    by_contra hlt
    exact h ⟨0, hN, not_le.mp hlt⟩

theorem inLayer_unique {n : V3 ℝ} {c : ℕ → ℝ} {tol : ℝ} {N : ℕ} (hc : ∀ i j, i < j → j < N → c j ≤ c i) {p : V3 ℝ} {k k' : ℕ}
    (hk : k ≤ N) (hk' : k' ≤ N) (h : InLayer n c tol N k p) (h' : InLayer n c tol N k' p) : k = k' := by
  have key : ∀ {k k' : ℕ}, k < k' → k' ≤ N → InLayer n c tol N k p → InLayer n c tol N k' p → False := by
    intro k k' hlt hk' h h'
    obtain ⟨j, rfl⟩ : ∃ j, k' = j + 1 := ⟨k' - 1, by omega⟩
    have a := h'.1 j rfl
    have b := h.2 (by omega)
    rcases Nat.lt_or_ge k j with hlt' | hge
    · have := hc k j hlt' (by omega); linarith
    · have : k = j := by omega
      subst this; linarith
  rcases Nat.lt_trichotomy k k' with h1 | h1 | h1
  · exact (key h1 hk' h h').elim
  · exact h1
  · exact (key h1 hk h' h).elim

theorem chosen_spec {n q : V3 ℝ} {d : ℝ} {L : ℕ} {splits : List ℤ} {i : ℕ} {x : ℤ} (hx : splits[i]? = some x) (h0 : 0 ≤ x) (hL : x < L) :
    chosen ((List.range L).map (rung n q d)) splits i = .ok (rung n q d x.toNat) := by
  unfold chosen Surf.npTake normIdx pyGet
  simp only [hx, bind, Except.bind, List.length_map, List.length_range, if_pos h0, if_pos hL]
  rw [List.getElem?_map, List.getElem?_range (by omega)]
  rfl

/-- What the builders return: grains separated by planes of the ladder. -/
theorem assemble_layers {env : Env} {g : Gen ℝ} {vol : Vol} {N m : ℤ} {n q : V3 ℝ} {d : ℝ} {L : ℕ} {xs : List ℤ}
    {defect : ℕ → Py Plane → Gen ℝ → ℤ → Py (Tr ℝ × ℤ × Bool)} {st : State} (hi : Intact env vol) (hN : 0 ≤ N) (hm : 0 ≤ m) (hn : norm3 n = 1)
    (hsp : Splitting N m L xs)
    (h : assemble env g vol N ((List.range L).map (rung n q d)) xs.reverse defect = .ok st) :
    ∃ (gs : ℕ → Gen ℝ) (ss : ℕ → ℤ) (ts : ℕ → Tr ℝ) (bs : ℕ → Bool) (ws : ℕ → Vol) (x : ℕ → ℕ),
      (st.twin = true ↔ ∃ j, j < N.toNat ∧ bs j = true) ∧ (st.fault = true ↔ ∃ j, j < N.toNat ∧ bs j = false) ∧ gs 0 = g ∧ ss 0 = 1 ∧
      st.vols = (List.range (N.toNat + 1)).map (fun j => .vol (ws j)) ∧
      (∀ i, i < N.toNat → m ≤ x i ∧ (x i : ℤ) < L - m) ∧
      (∀ i j, i < j → j < N.toNat → x j + m ≤ x i) ∧
      (∀ k, k ≤ N.toNat → (ws k).priority = (N.toNat : ℤ) - k ∧ (ws k).gen = some (.crystal (gs k))) ∧
      (∀ p, Inside env (.vol (ws 0)) p ↔ Inside env (.vol vol) p) ∧
      (∀ k, k < N.toNat → ∀ p, Inside env (.vol (ws (k + 1))) p ↔
        Inside env (.vol vol) p ∧ height n p < (height n q + x k * d) + 1 / 10 ^ 5) ∧
      (∀ k, k < N.toNat → defect k (.ok (rung n q d (x k))) (gs k) (ss k) = .ok (ts k, ss (k + 1), bs k) ∧
        (gs k).fromGenerator [ts k] = .ok (gs (k + 1))) ∧
      (∀ k, k < N.toNat → (ws (k + 1)).algs = vol.algs ++ [.plane (rung n q d (x k))] ∧ (ws (k + 1)).points = vol.points) ∧
      (ws 0).algs = vol.algs ∧ (ws 0).points = vol.points := by
  obtain ⟨gs, ss, ts, bs, ws, w0, ht, hf, h1, h2, h3, h4, h5, h6⟩ := assemble_spec h
  obtain ⟨hlen, hrange, hpair⟩ := hsp
  obtain ⟨c1, c2, c3, c4⟩ := copy_spec hi h3
  have hl : xs.reverse.length = N.toNat := by rw [List.length_reverse]; omega
  have hget : ∀ i (hi : i < N.toNat), xs.reverse[i]? = some (xs.reverse[i]'(by omega)) := fun i hi => List.getElem?_eq_getElem _
  let x : ℕ → ℕ := fun i => (xs.reverse.getD i 0).toNat
  have hx : ∀ i (hi : i < N.toNat), xs.reverse[i]? = some (x i : ℤ) ∧ m ≤ x i ∧ (x i : ℤ) < L - m := by
    intro i hi
    have hmem : xs.reverse[i]'(by omega) ∈ xs := List.mem_reverse.mp (List.getElem_mem _)
    obtain ⟨r1, r2⟩ := hrange _ hmem
    have e : (x i : ℤ) = xs.reverse[i]'(by omega) := by
      simp only [x, List.getD_eq_getElem?_getD, hget i hi, Option.getD_some]
      omega
    rw [hget i hi, e]
    exact ⟨rfl, r1, r2⟩
  have hch : ∀ i, i < N.toNat → chosen ((List.range L).map (rung n q d)) xs.reverse i = .ok (rung n q d (x i)) := by
    intro i hi
    obtain ⟨e1, e2, e3⟩ := hx i hi
    have := chosen_spec (n := n) (q := q) (d := d) e1 (by omega) (by omega : (x i : ℤ) < L)
    simpa using this
  have hstep : ∀ k, k < N.toNat → ∃ w', vol.fromVolume env (some (some (.crystal (gs (k + 1))))) [] = .ok w' ∧
      ws (k + 1) = { w'.addAlg (.plane (rung n q d (x k))) with priority := N - (k + 1) } := by
    intro k hk
    obtain ⟨-, -, w', p, r, s1, s2, s3, s4⟩ := h6 k hk
    rw [hch k hk] at s2
    cases s2
    rw [one_smul, show (rung n q d (x k)).normal = n from rfl, make_unit hn] at s3
    cases s3
    exact ⟨w', s1, s4⟩
  refine ⟨gs, ss, ts, bs, ws, x, ht, hf, h1, h2, h5, fun i hi => (hx i hi).2, ?_, ?_, ?_, ?_, ?_, ?_, ?_, ?_⟩
  · intro i j hij hj
    have hp : xs.reverse.Pairwise fun a b => b ≤ a ∧ m ≤ a - b := List.pairwise_reverse.mpr hpair
    have := List.pairwise_iff_getElem.mp hp i j (by omega) (by omega) hij
    have ei := (hx i (by omega)).1
    have ej := (hx j hj).1
    rw [hget i (by omega)] at ei
    rw [hget j hj] at ej
    rw [Option.some.inj ei, Option.some.inj ej] at this
    omega
  · intro k hk
    cases k with
    | zero => rw [h4, h1]; exact ⟨by simp; omega, c2⟩
    | succ k =>
      obtain ⟨w', s1, s2⟩ := hstep k (by omega)
      rw [s2]
      exact ⟨by show N - ((k : ℤ) + 1) = _; push_cast; omega, (copy_spec hi s1).2.1⟩
  · intro p; rw [h4, inside_priority]; exact c1 p
  · intro k hk p
    obtain ⟨w', s1, s2⟩ := hstep k hk
    rw [s2, inside_addAlg, (copy_spec hi s1).1, rung_interior hn]
  · intro k hk
    obtain ⟨d1, d2, -⟩ := h6 k hk
    rw [hch k hk] at d1
    exact ⟨d1, d2⟩
  · intro k hk
    obtain ⟨w', s1, s2⟩ := hstep k hk
    rw [s2]
    exact ⟨by show w'.algs ++ _ = _; rw [(copy_spec hi s1).2.2.1], (copy_spec hi s1).2.2.2⟩
  · rw [h4]; exact c3
  · rw [h4]; exact c4

end Prefab

end
end CZ
