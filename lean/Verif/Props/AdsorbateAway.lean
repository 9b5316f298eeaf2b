import Verif.Props.AdsorbateNormal

/-!
# Property C113: the normal points away from the neighbours
-/

namespace CZ
open Spec Ads Surf

theorem after_half_space (pts : List (V3 ℝ)) (decay : ℝ) (hd : 0 ≤ decay) (u : V3 ℝ) (hu : ∀ x ∈ pts, 0 ≤ x.dot u ∧ w0.dot u < x.dot u)
    (l : List (Fin pts.length)) : l = [] ∨ (after pts decay l).1.dot u < 0 := by
  induction l using List.reverseRecOn with
  | nil => exact .inl rfl
  | append_singleton l i ih =>
    right
    have e : after pts decay (l ++ [i]) = upd decay (after pts decay l) (pts.get i) := by
      unfold after; rw [List.foldl_append]; rfl
    rw [e]
    obtain ⟨h1, h2⟩ := hu _ (List.get_mem pts i)
    have key : ((after pts decay l).1 - decay ^ (after pts decay l).2 • pts.get i).dot u < 0 := by
      rw [dot_sub_left, dot_smul_left]
      rcases ih with rfl | ih
      · simp only [after, List.foldl_nil, pow_zero, one_mul]
        linarith
      · have : 0 ≤ decay ^ (after pts decay l).2 * (pts.get i).dot u := mul_nonneg (pow_nonneg hd _) h1
        linarith
    unfold upd
    simp only
    rw [dot_smul_left]
    have hne : norm3 ((after pts decay l).1 - decay ^ (after pts decay l).2 • pts.get i) ≠ 0 := by
      intro h0
      rw [norm3_eq_zero] at h0
      rw [h0] at key
      simp [V3.dot] at key
    exact mul_neg_of_pos_of_neg (inv_pos.mpr (lt_of_le_of_ne (norm3_nonneg _) (Ne.symm hne))) key

/-- **C113 (find_approximate_normal).** If all points lie on one side of a plane through the origin and beyond the initial vector, the result is
the initial vector (no draw asked for an update) or points to the other side.  The claim holds for every such plane, so the result
lies in the cone opposite to the points. -/
theorem C113_half_space (pts : List (V3 ℝ)) (decay tol margin : ℝ) (hd : 0 ≤ decay) (seq : ℕ → ℕ) (maxSteps fuel : ℕ) (w : V3 ℝ)
    (h : findNormal pts decay tol margin seq maxSteps fuel = some (.ok w)) (u : V3 ℝ)
    (hu : ∀ x ∈ pts, 0 ≤ x.dot u ∧ w0.dot u < x.dot u) : w = w0 ∨ w.dot u < 0 := by
  obtain ⟨l, -, rfl⟩ := findNormal_mem _ _ _ _ _ _ _ _ h
  rcases after_half_space pts decay hd u hu l with rfl | h
  · exact .inl rfl
  · exact .inr h

theorem marginLoop_mem (nn : List (V3 ℝ)) (seqs : ℕ → ℕ → ℕ) (fuel : ℕ) :
    ∀ k j best w, marginLoop nn seqs fuel k j best = some (.ok (some w)) →
      ∃ m seq, findNormal nn (95 / 100) (1 / 10 ^ 4) m seq 1000 1000 = some (.ok w) := by
  induction fuel with
  | zero => intro k j best w h; cases h
  | succ fuel ih =>
    intro k j best w h
    rw [marginLoop] at h
    split at h
    · cases h
    · split at h
      · exact ih _ _ _ _ h
      · cases h
    · cases h
    · rename_i u hf
      split at h
      · cases h
      · split at h
        · exact ih _ _ _ _ h
        · split at h
          · exact ih _ _ _ _ h
          · obtain rfl := Option.some.inj (Except.ok.inj (Option.some.inj h))
            exact ⟨_, _, hf⟩

/-- The form of the scaled directions. -/
theorem directions_form (atoms : List (V3 ℝ)) (target : ℕ) (nn : List ℕ) (tp : V3 ℝ) (ht : atoms[target]? = some tp)
    (ds : List (V3 ℝ)) (h : directions atoms target nn = .ok (some ds)) :
    ∃ m, 0 < m ∧ (∃ j ∈ nn, ∃ q, atoms[j]? = some q ∧ m = norm3 (q - tp)) ∧
      ∀ x ∈ ds, ∃ j ∈ nn, ∃ q, atoms[j]? = some q ∧ m ≤ norm3 (q - tp) ∧ x = (m / norm3 (q - tp) ^ 2) • (q - tp) := by
  unfold directions at h
  cases h1 : nn.mapM (pyGet atoms) with
  | error e => rw [h1] at h; cases h
  | ok ps =>
    rw [h1] at h
    change (pyGet atoms target >>= _) = _ at h
    have h2 : pyGet atoms target = .ok tp := by unfold pyGet; rw [ht]
    rw [h2] at h
    change (match ps.map (fun p => norm3 (p - tp)) with
      | [] => _
      | d :: ds => _) = _ at h
    have hps : ∀ p ∈ ps, ∃ j ∈ nn, atoms[j]? = some p := by
      intro p hp
      obtain ⟨j, hj, he⟩ := (mapM_mem _ _ _ h1).2 p hp
      exact ⟨j, hj, pyGet_some _ _ _ he⟩
    cases ps with
    | nil => cases h
    | cons p ps =>
      rw [List.map_cons] at h
      simp only at h
      have hm := npMin_mem (norm3 (p - tp)) (ps.map fun p => norm3 (p - tp))
      have hle : ∀ q ∈ p :: ps, npMin (norm3 (p - tp)) (ps.map fun p => norm3 (p - tp)) ≤ norm3 (q - tp) := by
        intro q hq
        apply npMin_le
        rw [← List.map_cons (f := fun p => norm3 (p - tp))]
        exact List.mem_map_of_mem hq
      generalize npMin (norm3 (p - tp)) (ps.map fun p => norm3 (p - tp)) = m at h hm hle
      split at h
      · cases h
      · rename_i hm0
        obtain rfl := Option.some.inj (Except.ok.inj h)
        rw [← List.map_cons (f := fun p => norm3 (p - tp))] at hm
        obtain ⟨q0, hq0, rfl⟩ := List.mem_map.mp hm
        have hmpos : 0 < norm3 (q0 - tp) := lt_of_le_of_ne (norm3_nonneg _) (Ne.symm hm0)
        obtain ⟨j', hj', e2⟩ := hps q0 hq0
        refine ⟨_, hmpos, ⟨j', hj', q0, e2, rfl⟩, ?_⟩
        intro x hx
        obtain ⟨q, hq, rfl⟩ := List.mem_map.mp hx
        obtain ⟨j, hj, e1⟩ := hps q hq
        have hqpos : 0 < norm3 (q - tp) := lt_of_lt_of_le hmpos (hle q hq)
        refine ⟨j, hj, q, e1, hle q hq, ?_⟩
        congr 1
        field_simp

/-- **C113 (add_adsorbate).** Whatever is drawn: if all neighbours of the target lie on one side of a plane through it, seen from the target
under an angle whose sine is more than 2e-10 times the ratio of the distances of any two neighbours, the normal along which the
molecule is attached points strictly to the other side (for atoms at different positions and draws that visit every neighbour). -/
theorem C113_away (del : List (V3 ℝ) → List Tet) (mol : Mol ℝ) (idx : MolVal ℝ) (bond : ℝ) (vol : Vol) (hdis : vol.atoms.Nodup)
    (molVector : V3 ℝ) (molRotation r : ℝ) (fs : List Filter) (sampling : Bool) (nShells : ℕ) (surfaceOnly : Bool) (rnd : Rand) (fuel : ℕ)
    (res : Placed) (hv : ∀ k, VisitsAll res.neighbors.length 1000 fun i => rnd.seqs k i % res.neighbors.length)
    (h : addAdsorbate del mol idx bond vol molVector molRotation r fs sampling nShells surfaceOnly rnd fuel = some (.ok res))
    (tp u : V3 ℝ) (ht : vol.atoms[res.target]? = some tp) (hu1 : len u = 1) (s : ℝ)
    (hu : ∀ j ∈ res.neighbors, ∀ q, vol.atoms[j]? = some q → s * Spec.dist q tp ≤ (q - tp).dot u)
    (hs : ∀ j ∈ res.neighbors, ∀ q, vol.atoms[j]? = some q → ∀ k ∈ res.neighbors, ∀ q', vol.atoms[k]? = some q' →
      2 / 10 ^ 10 * Spec.dist q tp < s * Spec.dist q' tp) : res.normal.dot u < 0 := by
  obtain ⟨surf, sh, cs, dirs, tp', a1, a2, a3, a4, a5, a6, a7, a8, a9⟩ := addAdsorbate_steps _ _ _ _ _ _ _ _ _ _ _ _ _ _ _ h
  obtain ⟨ds, rfl, hne, hlen⟩ := directions_some vol.atoms hdis res.target res.neighbors (nearestNeighbors_ne _ _ _ _ _ a4) dirs a5
  have hn : norm3 res.normal = 1 := marginLoop_unit ds hne rnd.seqs (by rw [hlen]; exact hv) fuel 0 0 0 _ a6
  obtain ⟨m, seq, hf⟩ := marginLoop_mem ds rnd.seqs fuel 0 0 0 _ a6
  obtain ⟨d, hd, ⟨k, hk, q', hq', rfl⟩, hform⟩ := directions_form vol.atoms res.target res.neighbors tp ht ds a5
  have hw0 : w0.dot u ≤ 2 / 10 ^ 10 := by
    have h1 : u.x ^ 2 + u.y ^ 2 + u.z ^ 2 = 1 := by
      rw [len_eq, norm3_eq_one] at hu1
      simpa [V3.normSq, V3.dot, pow_two] using hu1
    have : u.x + u.y + u.z ≤ 2 := by nlinarith [sq_nonneg (u.x - u.y), sq_nonneg (u.y - u.z), sq_nonneg (u.x - u.z)]
    simp only [w0, V3.dot]
    linarith
  have hside : ∀ x ∈ ds, 0 ≤ x.dot u ∧ w0.dot u < x.dot u := by
    intro x hx
    obtain ⟨j, hj, q, hq, hle, rfl⟩ := hform x hx
    have hq0 : 0 < norm3 (q - tp) := hd.trans_le hle
    have h1 := hu j hj q hq
    have h2 := hs j hj q hq k hk q' hq'
    rw [dist_eq] at h1 h2
    rw [dist_eq] at h2
    have h3 : 2 / 10 ^ 10 < norm3 (q' - tp) / norm3 (q - tp) ^ 2 * (q - tp).dot u := by
      rw [div_mul_eq_mul_div, lt_div_iff₀ (by positivity)]
      calc 2 / 10 ^ 10 * norm3 (q - tp) ^ 2 = (2 / 10 ^ 10 * norm3 (q - tp)) * norm3 (q - tp) := by ring
        _ < (s * norm3 (q' - tp)) * norm3 (q - tp) := by exact mul_lt_mul_of_pos_right h2 hq0
        _ = norm3 (q' - tp) * (s * norm3 (q - tp)) := by ring
        _ ≤ norm3 (q' - tp) * (q - tp).dot u := mul_le_mul_of_nonneg_left h1 hd.le
    rw [dot_smul_left]
    constructor
    · have : (0 : ℝ) ≤ 2 / 10 ^ 10 := by norm_num
      linarith
    · linarith
  rcases C113_half_space ds _ _ _ (by norm_num) seq _ _ _ hf u hside with h0 | h0
  · exfalso
    rw [h0] at hn
    have := norm3_eq_one.mp hn
    rw [w0_normSq] at this
    norm_num at this
  · exact h0

/-- The lower tip of the bipyramid: its neighbours lie above it, the normal points down. -/
example : ∃ (fuel : ℕ) (molVector : V3 ℝ) (res : Placed),
    addAdsorbate (fun _ => demoTets) ⟨[⟨0, 0, 0⟩, ⟨1, 0, 0⟩, ⟨0, 1, 0⟩], [8, 1, 1], 0, 1, false, none, some 0, true⟩ (.int 0) 2 bipyramid
      molVector 1 2 [.element [8]] false 1 true ⟨fun _ => List.replicate 5 0, List.replicate 5 0, List.replicate 5 0, 7, fun _ i => i⟩ fuel =
        some (.ok res) ∧ res.normal.z < 0 := by
  obtain ⟨fuel, molVector, res, h, ht, hnb, -⟩ := bipyramid_water
  refine ⟨fuel, molVector, res, h, ?_⟩
  have hdis : bipyramid.atoms.Nodup := by simp [bipyramid]; norm_num
  have hb : ∀ j ∈ res.neighbors, ∀ q, bipyramid.atoms[j]? = some q →
      (q - (⟨0, 0, -1⟩ : V3 ℝ)).z = 1 ∧ norm3 (q - ⟨0, 0, -1⟩) ≤ 2 ∧ 1 ≤ norm3 (q - ⟨0, 0, -1⟩) := by
    intro j hj q hq
    rw [hnb] at hj
    have hn : ∀ v : V3 ℝ, v.normSq ≤ 4 → 1 ≤ v.normSq → norm3 v ≤ 2 ∧ 1 ≤ norm3 v := by
      intro v h1 h2
      unfold norm3
      exact ⟨by rw [Real.sqrt_le_iff]; norm_num [h1], Real.one_le_sqrt.mpr h2⟩
    simp only [List.mem_cons, List.not_mem_nil, or_false] at hj
    rcases hj with rfl | rfl | rfl <;> obtain rfl := Option.some.inj hq <;>
      exact ⟨by norm_num, hn _ (by norm_num [V3.normSq, V3.dot]) (by norm_num [V3.normSq, V3.dot])⟩
  have := C113_away _ _ _ _ _ hdis _ _ _ _ _ _ _ _ _ res (by
    intro k
    rw [hnb]
    exact fun i hi => ⟨i, by simp at hi; omega, Nat.mod_eq_of_lt hi⟩) h ⟨0, 0, -1⟩ ⟨0, 0, 1⟩ (by rw [ht]; rfl)
    (by rw [len_eq, norm3_eq_one]; norm_num [V3.normSq, V3.dot]) (1 / 2) (by
      intro j hj q hq
      obtain ⟨h1, h2, h3⟩ := hb j hj q hq
      rw [dist_eq]
      simp only [V3.dot, mul_zero, zero_add, mul_one]
      linarith) (by
      intro j hj q hq k hk q' hq'
      have h1 := hb j hj q hq
      have h2 := hb k hk q' hq'
      rw [dist_eq, dist_eq]
      linarith [h1.2.1, h2.2.2])
  simpa [V3.dot] using this

/-! ### the normal that is kept -/

theorem npMax_ge (d : ℝ) (ds : List ℝ) : ∀ a ∈ d :: ds, a ≤ npMax d ds := by
  unfold npMax
  induction ds generalizing d with
  | nil => intro a ha; simp at ha; exact ha.le
  | cons e ds ih =>
    intro a ha
    rw [List.foldl_cons]
    have h1 := ih (max d e) _ (List.mem_cons_self ..)
    rcases List.mem_cons.mp ha with rfl | ha
    · exact (le_max_left _ _).trans h1
    · rcases List.mem_cons.mp ha with rfl | ha
      · exact (le_max_right _ _).trans h1
      · exact ih _ _ (List.mem_cons_of_mem _ ha)

theorem npMax_eq_margin (nn : List (V3 ℝ)) (w : V3 ℝ) (d : ℝ) (ds : List ℝ) (h : nn.map w.dot = d :: ds) :
    (∀ y ∈ nn, w.dot y ≤ npMax d ds) ∧ ∃ x ∈ nn, w.dot x = npMax d ds := by
  constructor
  · intro y hy
    have : w.dot y ∈ d :: ds := by rw [← h]; exact List.mem_map_of_mem hy
    exact npMax_ge d ds _ this
  · have hm := npMax_mem d ds
    rw [← h] at hm
    exact List.mem_map.mp hm

theorem marginLoop_last (nn : List (V3 ℝ)) (seqs : ℕ → ℕ → ℕ) (fuel : ℕ) :
    ∀ k j best w, j < 10 → marginLoop nn seqs fuel k j best = some (.ok (some w)) →
      (best = 0 ∨ ∃ k₀ m w', k₀ + j < k ∧ findNormal nn (95 / 100) (1 / 10 ^ 4) m (fun i => seqs k₀ i % nn.length) 1000 1000 = some (.ok w') ∧
        ∀ y ∈ nn, w'.dot y ≤ best) →
      ∃ k' m, findNormal nn (95 / 100) (1 / 10 ^ 4) m (fun i => seqs k' i % nn.length) 1000 1000 = some (.ok w) ∧
        ∃ x ∈ nn, (0 ≤ w.dot x ∨ ∃ k₀ m₀ w', k₀ + 10 ≤ k' ∧
          findNormal nn (95 / 100) (1 / 10 ^ 4) m₀ (fun i => seqs k₀ i % nn.length) 1000 1000 = some (.ok w') ∧
          ∀ y ∈ nn, w'.dot y ≤ w.dot x) := by
  induction fuel with
  | zero => intro k j best w _ h; cases h
  | succ fuel ih =>
    intro k j best w hj h hb
    have hb' : best = 0 ∨ ∃ k₀ m w', k₀ + (j + 1) < k + 1 ∧
        findNormal nn (95 / 100) (1 / 10 ^ 4) m (fun i => seqs k₀ i % nn.length) 1000 1000 = some (.ok w') ∧ ∀ y ∈ nn, w'.dot y ≤ best := by
      rcases hb with hb | ⟨k₀, m, w', h1, h2⟩
      · exact .inl hb
      · exact .inr ⟨k₀, m, w', by omega, h2⟩
    rw [marginLoop] at h
    split at h
    · cases h
    · split at h
      · rename_i hj'
        exact ih _ _ _ _ hj' h hb'
      · cases h
    · cases h
    · rename_i u hf
      split at h
      · cases h
      · rename_i d ds hd
        obtain ⟨e1, x, hx, e2⟩ := npMax_eq_margin nn u d ds hd
        split at h
        · exact ih _ _ _ _ (by norm_num) h (.inr ⟨k, best, u, by omega, hf, e1⟩)
        · rename_i hlt
          split at h
          · rename_i hj'
            exact ih _ _ _ _ hj' h hb'
          · obtain rfl := Option.some.inj (Except.ok.inj (Option.some.inj h))
            refine ⟨k, best, hf, x, hx, ?_⟩
            rw [not_lt] at hlt
            rcases hb with rfl | ⟨k₀, m, w', h1, h2, h3⟩
            · left; linarith
            · right
              exact ⟨k₀, m, w', by omega, h2, fun y hy => by have := h3 y hy; linarith⟩

/-- **C113 (the normal that is kept).** Whatever is drawn, the normal is the result of the last call of `find_approximate_normal`, and this call is
the one that did not improve: either the normal does not separate the neighbours from the target (one of them is not on the far side), or
at least ten calls earlier a vector was found that is as good for every neighbour; that one is discarded. -/
theorem C113_never_better (nn : List (V3 ℝ)) (seqs : ℕ → ℕ → ℕ) (fuel : ℕ) (w : V3 ℝ)
    (h : normalOf (some nn) seqs fuel = some (.ok (some w))) :
    ∃ k' m, findNormal nn (95 / 100) (1 / 10 ^ 4) m (fun i => seqs k' i % nn.length) 1000 1000 = some (.ok w) ∧
      ∃ x ∈ nn, (0 ≤ w.dot x ∨ ∃ k₀ m₀ w', k₀ + 10 ≤ k' ∧
        findNormal nn (95 / 100) (1 / 10 ^ 4) m₀ (fun i => seqs k₀ i % nn.length) 1000 1000 = some (.ok w') ∧
        ∀ y ∈ nn, w'.dot y ≤ w.dot x) :=
  marginLoop_last nn seqs fuel 0 0 0 w (by norm_num) h (.inl rfl)

end CZ
