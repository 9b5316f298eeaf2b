import Verif.Props.AdsorbatePlace
import Mathlib.Data.Set.Finite.List

/-!
# Property C68, third part: the normal and the whole function
-/

namespace CZ
open Spec Ads Surf

theorem npMax_mem (d : ℝ) (ds : List ℝ) : npMax d ds ∈ d :: ds := by
  unfold npMax
  induction ds generalizing d with
  | nil => simp
  | cons e ds ih =>
    rw [List.foldl_cons]
    rcases List.mem_cons.mp (ih (max d e)) with h | h
    · rw [h]
      rcases max_choice d e with h1 | h1 <;> rw [h1] <;> simp
    · exact List.mem_cons_of_mem _ (List.mem_cons_of_mem _ h)

/-- **C68 (length of the normal).** When every call of `find_approximate_normal` draws every neighbour at least once, the normal has
length one. -/
theorem marginLoop_unit (nn : List (V3 ℝ)) (hne : nn ≠ []) (seqs : ℕ → ℕ → ℕ)
    (hv : ∀ k, VisitsAll nn.length 1000 fun i => seqs k i % nn.length) (fuel : ℕ) :
    ∀ k j best w, marginLoop nn seqs fuel k j best = some (.ok (some w)) → norm3 w = 1 := by
  have hpos : 0 < nn.length := List.length_pos_iff.mpr hne
  induction fuel with
  | zero => intro k j best w h; cases h
  | succ fuel ih =>
    intro k j best w h
    rw [marginLoop] at h
    rcases C67_stops nn (95 / 100) (1 / 10 ^ 4) best (fun i => seqs k i % nn.length) 1000 1000 (by norm_num) le_rfl hne
      (fun i _ => Nat.mod_lt _ hpos) with ⟨u, h1, h2⟩ | ⟨h1, -⟩
    · rw [h1] at h
      simp only at h
      cases hd : nn.map u.dot with
      | nil => rw [hd] at h; cases h
      | cons d ds =>
        rw [hd] at h
        simp only at h
        split at h
        · exact ih _ _ _ _ h
        · rename_i hmax
          split at h
          · exact ih _ _ _ _ h
          · obtain rfl := Option.some.inj (Except.ok.inj (Option.some.inj h))
            rcases h2 with h2 | ⟨h2, h3⟩
            · exact h2
            · exfalso
              apply hmax
              have hm := npMax_mem d ds
              rw [← hd] at hm
              obtain ⟨b, hb, he⟩ := List.mem_map.mp hm
              rw [← he, h2]
              obtain ⟨i, hi, hbi⟩ := List.getElem_of_mem hb
              obtain ⟨k', hk', hs⟩ := hv k i hi
              exact h3 k' hk' b (by simp only at hs; rw [hs, List.getElem?_eq_getElem hi, hbi])
    · rw [h1] at h
      simp only at h
      split at h
      · exact ih _ _ _ _ h
      · cases h

/-! ### the loop ends -/

/-- The effect of an update on `w` and `j`. -/
noncomputable def upd (decay : ℝ) (s : V3 ℝ × ℕ) (x : V3 ℝ) : V3 ℝ × ℕ :=
  ((norm3 (s.1 - decay ^ s.2 • x))⁻¹ • (s.1 - decay ^ s.2 • x), s.2 + 1)

/-- The vector after updates with the listed points. -/
noncomputable def after (pts : List (V3 ℝ)) (decay : ℝ) (l : List (Fin pts.length)) : V3 ℝ × ℕ :=
  l.foldl (fun s i => upd decay s (pts.get i)) (w0, 0)

theorem nloop_after (pts : List (V3 ℝ)) (decay tol margin : ℝ) (seq : ℕ → ℕ) (maxSteps fuel : ℕ) :
    ∀ i st w, i < maxSteps → (∃ l : List (Fin pts.length), l.length ≤ i ∧ after pts decay l = (st.w, st.j)) →
      nloop pts decay tol margin seq maxSteps fuel i st = some (.ok w) →
      ∃ l : List (Fin pts.length), l.length ≤ maxSteps ∧ (after pts decay l).1 = w := by
  induction fuel with
  | zero => intro i st w _ _ h; cases h
  | succ fuel ih =>
    intro i st w hi ⟨l, hl, hs⟩ h
    rw [nloop, if_neg (by omega)] at h
    by_cases hq : seq i < pts.length
    · rw [pyGet_ok hq] at h
      simp only at h
      cases hn : nstep decay margin pts[seq i] st with
      | error e => rw [hn] at h; cases h
      | ok st' =>
        rw [hn] at h
        have hl' : ∃ l : List (Fin pts.length), l.length ≤ i + 1 ∧ after pts decay l = (st'.w, st'.j) := by
          unfold nstep at hn
          split at hn
          · simp only at hn
            split at hn
            · cases hn
            · obtain rfl := Except.ok.inj hn
              refine ⟨l ++ [⟨seq i, hq⟩], by simp; omega, ?_⟩
              unfold after
              rw [List.foldl_append]
              show upd decay (after pts decay l) _ = _
              rw [hs]
              rfl
          · obtain rfl := Except.ok.inj hn
            exact ⟨l, by omega, hs⟩
        simp only at h
        split at h
        · obtain ⟨l', h1, h2⟩ := hl'
          obtain rfl := Except.ok.inj (Option.some.inj h)
          exact ⟨l', by omega, by rw [h2]⟩
        · split at h
          · obtain ⟨l', h1, h2⟩ := hl'
            obtain rfl := Except.ok.inj (Option.some.inj h)
            exact ⟨l', by omega, by rw [h2]⟩
          · exact ih (i + 1) st' w (by omega) hl' h
    · have : ∃ e, pyGet pts (seq i) = .error e := by
        unfold pyGet
        rw [List.getElem?_eq_none (by omega)]
        exact ⟨_, rfl⟩
      obtain ⟨e, he⟩ := this
      rw [he] at h
      cases h

/-- The vectors that `find_approximate_normal` can return for given points, whatever margin and draws. -/
def Results (pts : List (V3 ℝ)) (decay : ℝ) (maxSteps : ℕ) : Set (V3 ℝ) :=
  {w | ∃ l : List (Fin pts.length), l.length ≤ maxSteps ∧ (after pts decay l).1 = w}

theorem results_finite (pts : List (V3 ℝ)) (decay : ℝ) (maxSteps : ℕ) : (Results pts decay maxSteps).Finite := by
  have : Results pts decay maxSteps = (fun l => (after pts decay l).1) '' {l : List (Fin pts.length) | l.length ≤ maxSteps} := by
    ext w
    simp [Results]
  rw [this]
  exact (List.finite_length_le (Fin pts.length) maxSteps).image _

theorem findNormal_mem (pts : List (V3 ℝ)) (decay tol margin : ℝ) (seq : ℕ → ℕ) (maxSteps fuel : ℕ) (w : V3 ℝ)
    (h : findNormal pts decay tol margin seq maxSteps fuel = some (.ok w)) : w ∈ Results pts decay maxSteps := by
  unfold findNormal at h
  split at h
  · cases h
  · split at h
    · cases h
    · exact nloop_after pts decay tol margin seq maxSteps fuel 0 _ w (by omega) ⟨[], le_rfl, rfl⟩ h

/-- The best scalar product of a vector with the neighbours. -/
noncomputable def margin (nn : List (V3 ℝ)) (w : V3 ℝ) : ℝ :=
  match nn.map w.dot with
  | [] => 0
  | d :: ds => npMax d ds

/-- **C68 (the margin loop ends).** For every set of neighbours there is a number of rounds after which the loop has ended, whatever is
drawn. -/
theorem marginLoop_ends (nn : List (V3 ℝ)) (hne : nn ≠ []) : ∃ F, ∀ seqs : ℕ → ℕ → ℕ, ∀ fuel, F ≤ fuel →
    marginLoop nn seqs fuel 0 0 0 ≠ none := by
  classical
  have hpos : 0 < nn.length := List.length_pos_iff.mpr hne
  have hfin : (margin nn '' Results nn (95 / 100) 1000).Finite := (results_finite nn _ _).image _
  obtain ⟨T, hT⟩ : ∃ T : Finset ℝ, ∀ w ∈ Results nn (95 / 100) 1000, margin nn w ∈ T :=
    ⟨hfin.toFinset, fun w hw => by rw [Set.Finite.mem_toFinset]; exact ⟨w, hw, rfl⟩⟩
  have key : ∀ (seqs : ℕ → ℕ → ℕ) (fuel N j k : ℕ) (best : ℝ), (T.filter (· < best)).card ≤ N → j < 10 → 10 * N + (10 - j) ≤ fuel →
      marginLoop nn seqs fuel k j best ≠ none := by
    intro seqs fuel
    induction fuel with
    | zero => intro N j k best _ h1 h2; omega
    | succ fuel ih =>
      intro N j k best hc hj hf
      rw [marginLoop]
      rcases C67_stops nn (95 / 100) (1 / 10 ^ 4) best (fun i => seqs k i % nn.length) 1000 1000 (by norm_num) le_rfl hne
        (fun i _ => Nat.mod_lt _ hpos) with ⟨u, h1, -⟩ | ⟨h1, -⟩
      · rw [h1]
        simp only
        have hmem := hT u (findNormal_mem _ _ _ _ _ _ _ _ h1)
        unfold margin at hmem
        cases hd : nn.map u.dot with
        | nil => simp
        | cons d ds =>
          rw [hd] at hmem
          simp only at hmem ⊢
          split
          · rename_i hlt
            have hss : T.filter (· < npMax d ds) ⊂ T.filter (· < best) := by
              rw [Finset.ssubset_iff_of_subset]
              · exact ⟨npMax d ds, by simp [hmem, hlt], by simp⟩
              · intro t ht
                rw [Finset.mem_filter] at ht ⊢
                exact ⟨ht.1, ht.2.trans hlt⟩
            have := Finset.card_lt_card hss
            exact ih (N - 1) 0 _ _ (by omega) (by omega) (by omega)
          · split
            · exact ih N (j + 1) _ _ hc (by omega) (by omega)
            · simp
      · rw [h1]
        simp only
        split
        · exact ih N (j + 1) _ _ hc (by omega) (by omega)
        · simp
  exact ⟨10 * (T.filter (· < (0 : ℝ))).card + 10, fun seqs fuel hf => key seqs fuel _ 0 0 0 le_rfl (by norm_num) hf⟩

/-! ### the whole function -/

/-- The first call of `add_adsorbate`. -/
theorem addAdsorbate_alpha (del : List (V3 ℝ) → List Tet) (vol : Vol) (r : ℝ) (sampling : Bool) (rnd : Rand)
    (hn : ∀ i, (rnd.noise i).length = vol.atoms.length) (hn1 : rnd.noise1.length = vol.atoms.length)
    (hn2 : rnd.noise2.length = vol.atoms.length) (hd : ∀ pts : List (V3 ℝ), pts.length = vol.atoms.length → IsTriangulation (del pts) vol.atoms.length) :
    ∃ surf sh, (if sampling then alphaShapeSampled del rnd.noise 20 vol.atoms r else alphaShape del rnd.noise1 rnd.noise2 vol.atoms r) =
        .ok (surf, sh) ∧ sh.surface.length = sh.tets.length ∧ (∀ x ∈ surf, x < vol.atoms.length) ∧
      (∀ x ∈ surf, ∃ t, Marked sh.tets sh.surface t ∧ ∃ k, t k = x) ∧
      (sampling = true → ∀ x ∈ surf, OnBoundary (del vol.atoms) (fun t => ∃ i < 20, SmallTet (jittered vol.atoms (rnd.noise i)) r t) x) ∧
      (sampling = false → ∀ x ∈ surf, OnBoundary (del (jittered vol.atoms rnd.noise1))
        (SmallTet (jittered (jittered vol.atoms rnd.noise1) rnd.noise2) r) x) ∧
      IsTriangulation sh.tets vol.atoms.length := by
  cases sampling with
  | true =>
    obtain ⟨surf, sh, h1, h2, h3, -, h4⟩ := C65_sampling del rnd.noise 20 vol.atoms r (by norm_num) hn (hd _ rfl)
    have htri : IsTriangulation sh.tets vol.atoms.length := by rw [h2]; exact hd _ rfl
    refine ⟨surf, sh, h1, h3, ?_, fun x hx => (h4 x hx).2, ?_, by simp, htri⟩
    · intro x hx
      obtain ⟨t, ht, -, k, -, k', -, rfl⟩ := (h4 x hx).1
      exact htri.2 t ht k'
    · intro _ x hx
      rw [← h2]; exact (h4 x hx).1
  | false =>
    have hlen : (jittered vol.atoms rnd.noise1).length = vol.atoms.length := by simp [jittered, hn1]
    obtain ⟨surf, sh, h1, h2, h3, -, h4⟩ := C65_alpha_shape del rnd.noise1 rnd.noise2 vol.atoms r hn1 hn2 (hd _ hlen)
    have htri : IsTriangulation sh.tets vol.atoms.length := by rw [h2]; exact hd _ hlen
    refine ⟨surf, sh, h1, h3, ?_, fun x hx => (h4 x hx).2, by simp, ?_, htri⟩
    · intro x hx
      obtain ⟨t, ht, -, k, -, k', -, rfl⟩ := (h4 x hx).1
      exact htri.2 t ht k'
    · intro _ x hx
      rw [← h2]; exact (h4 x hx).1

/-- The steps of a successful call. -/
theorem addAdsorbate_steps (del : List (V3 ℝ) → List Tet) (mol : Mol ℝ) (idx : MolVal ℝ) (bond : ℝ) (vol : Vol) (molVector : V3 ℝ)
    (molRotation r : ℝ) (fs : List Filter) (sampling : Bool) (nShells : ℕ) (surfaceOnly : Bool) (rnd : Rand) (fuel : ℕ) (res : Placed)
    (h : addAdsorbate del mol idx bond vol molVector molRotation r fs sampling nShells surfaceOnly rnd fuel = some (.ok res)) :
    ∃ surf sh cs dirs tp,
      (if sampling then alphaShapeSampled del rnd.noise 20 vol.atoms r else alphaShape del rnd.noise1 rnd.noise2 vol.atoms r) = .ok (surf, sh) ∧
      candidates vol.atoms vol.species surf fs = .ok cs ∧ choose rnd.pick cs = .ok res.target ∧
      nearestNeighbors res.target sh nShells surfaceOnly = .ok res.neighbors ∧ directions vol.atoms res.target res.neighbors = .ok dirs ∧
      normalOf dirs rnd.seqs fuel = some (.ok (some res.normal)) ∧ pyGet vol.atoms res.target = .ok tp ∧
      place mol idx molVector molRotation bond tp res.normal = .ok res.mol ∧ res.success = res.mol.atoms.all fun p => !(vol.interior p) := by
  unfold addAdsorbate at h
  split at h
  · cases h
  · rename_i surf sh h1
    split at h
    · cases h
    · rename_i cs h2
      split at h
      · cases h
      · rename_i target h3
        split at h
        · cases h
        · rename_i nn h4
          split at h
          · cases h
          · rename_i dirs h5
            split at h
            · cases h
            · cases h
            · cases h
            · rename_i normal h6
              split at h
              · cases h
              · rename_i tp h7
                split at h
                · cases h
                · rename_i m h8
                  obtain rfl := Except.ok.inj (Option.some.inj h)
                  exact ⟨surf, sh, cs, dirs, tp, h1, h2, h3, h4, h5, h6, h7, h8, rfl⟩

/-- **C68.** Whatever is drawn and whatever the filters: when the call returns, the molecule is a rigid image (rotation and translation)
of the given one with the same species, its bonding atom is at `target + bond * normal`, the target is a vertex of the boundary of the
alpha shape and satisfies every filter, and the flag tells whether no atom is inside the volume. -/
theorem C68_result (del : List (V3 ℝ) → List Tet) (mol : Mol ℝ) (hl : mol.species.length = mol.atoms.length) (idx : MolVal ℝ) (i : ℤ)
    (hx : idx.asInt = some i) (bond : ℝ) (vol : Vol) (hs : vol.species.length = vol.atoms.length) (h2 : 2 ≤ vol.atoms.length)
    (molVector : V3 ℝ) (molRotation r : ℝ) (fs : List Filter) (sampling : Bool) (nShells : ℕ) (surfaceOnly : Bool) (rnd : Rand) (fuel : ℕ)
    (hn : ∀ i, (rnd.noise i).length = vol.atoms.length) (hn1 : rnd.noise1.length = vol.atoms.length)
    (hn2 : rnd.noise2.length = vol.atoms.length)
    (hd : ∀ pts : List (V3 ℝ), pts.length = vol.atoms.length → IsTriangulation (del pts) vol.atoms.length) (res : Placed)
    (h : addAdsorbate del mol idx bond vol molVector molRotation r fs sampling nShells surfaceOnly rnd fuel = some (.ok res)) :
    (∃ (R : M3 ℝ) (s : V3 ℝ), ProperRotation R ∧ res.mol.atoms = mol.atoms.map (fun p => R.mulVec p + s)) ∧
    res.mol.species = mol.species ∧ res.mol.priority = mol.priority ∧ res.mol.orientation = mol.orientation ∧
    (∃ tp, vol.atoms[res.target]? = some tp ∧ res.mol.atoms[(position mol.atoms.length i).toNat]? = some (tp + bond • res.normal)) ∧
    (∀ f ∈ fs, Passes vol.atoms vol.species res.target f) ∧
    (sampling = true → OnBoundary (del vol.atoms) (fun t => ∃ i < 20, SmallTet (jittered vol.atoms (rnd.noise i)) r t) res.target) ∧
    (sampling = false → OnBoundary (del (jittered vol.atoms rnd.noise1))
        (SmallTet (jittered (jittered vol.atoms rnd.noise1) rnd.noise2) r) res.target) ∧
    (res.success = true ↔ ∀ p ∈ res.mol.atoms, vol.interior p = false) := by
  obtain ⟨surf, sh, cs, dirs, tp, a1, a2, a3, a4, a5, a6, a7, a8, a9⟩ := addAdsorbate_steps _ _ _ _ _ _ _ _ _ _ _ _ _ _ _ h
  obtain ⟨surf', sh', b1, b2, b3, b4, b5, b6, -⟩ := addAdsorbate_alpha del vol r sampling rnd hn hn1 hn2 hd
  rw [a1] at b1
  obtain ⟨rfl, rfl⟩ := Prod.mk.inj (Except.ok.inj b1)
  obtain ⟨c1, c2⟩ := (C68_candidates vol.atoms vol.species hs h2 surf fs cs a2 res.target).mp (choose_mem _ _ _ a3)
  obtain ⟨R, s, d1, d2, d3, d4, d5, d6, -⟩ := C68_place mol res.mol hl idx i hx molVector molRotation bond tp res.normal a8
  have htp : vol.atoms[res.target]? = some tp := by
    have := b3 _ c1
    rw [pyGet_ok this] at a7
    rw [List.getElem?_eq_getElem this, Except.ok.inj a7]
  refine ⟨⟨R, s, d1, d2⟩, d3, d4, d5, ⟨tp, htp, d6⟩, c2, fun hsm => b5 hsm _ c1, fun hsm => b6 hsm _ c1, ?_⟩
  rw [a9, List.all_eq_true]
  simp

theorem neighbors_tail (target : ℕ) (g : Py (ℕ × (ℕ → ℕ → ℕ))) (n : ℕ) (out : List ℕ)
    (h : (g >>= fun g => if target < g.1 then
      (pure ((List.range ((shells g.1 g.2 n ((List.replicate g.1 0).set target 1)).set target 0).length).filter fun i =>
        ((shells g.1 g.2 n ((List.replicate g.1 0).set target 1)).set target 0).getD i 0 ≠ 0) : Py (List ℕ)) else .error .index) = .ok out) :
    target ∉ out := by
  cases g with
  | error e => cases h
  | ok g =>
    change (if target < g.1 then _ else _) = _ at h
    split at h
    · obtain rfl := Except.ok.inj h
      rw [List.mem_filter]
      rintro ⟨h1, h2⟩
      rw [decide_eq_true_eq, List.getD_eq_getElem?_getD, List.getElem?_set] at h2
      rw [if_pos rfl] at h2
      split at h2 <;> exact h2 rfl
    · cases h

theorem nearestNeighbors_ne (target : ℕ) (sh : Shape) (n : ℕ) (b : Bool) (out : List ℕ) (h : nearestNeighbors target sh n b = .ok out) :
    target ∉ out := by
  unfold nearestNeighbors at h
  cases b with
  | true =>
    refine neighbors_tail target (npMask sh.surface (sh.tets.map Tet.v) >>= fun x => sparseMatrix x) n out ?_
    rw [bind_assoc]
    exact h
  | false =>
    refine neighbors_tail target (sh.aTris.mapM (pyGet (sh.tets.map Tet.v)) >>= fun x => sparseMatrixFull x) n out ?_
    rw [bind_assoc]
    exact h

theorem npMin_mem (d : ℝ) (ds : List ℝ) : npMin d ds ∈ d :: ds := by
  unfold npMin
  induction ds generalizing d with
  | nil => simp
  | cons e ds ih =>
    rw [List.foldl_cons]
    rcases List.mem_cons.mp (ih (min d e)) with h | h
    · rw [h]
      rcases min_choice d e with h1 | h1 <;> rw [h1] <;> simp
    · exact List.mem_cons_of_mem _ (List.mem_cons_of_mem _ h)

theorem pyGet_some (xs : List (V3 ℝ)) (a : ℕ) (x : V3 ℝ) (ha : pyGet xs a = .ok x) : xs[a]? = some x := by
  unfold pyGet at ha
  cases hq : xs[a]? with
  | none => rw [hq] at ha; cases ha
  | some y => rw [hq] at ha; rw [Except.ok.inj ha]

theorem npMin_le (d : ℝ) (ds : List ℝ) : ∀ x ∈ d :: ds, npMin d ds ≤ x := by
  unfold npMin
  induction ds generalizing d with
  | nil => simp
  | cons e ds ih =>
    intro x hx
    rw [List.foldl_cons]
    have h0 := ih (min d e) (min d e) List.mem_cons_self
    rcases List.mem_cons.mp hx with rfl | hx
    · exact h0.trans (min_le_left _ _)
    · rcases List.mem_cons.mp hx with rfl | hx
      · exact h0.trans (min_le_right _ _)
      · exact ih _ x (List.mem_cons_of_mem _ hx)

theorem mapM_mem {α β : Type} (f : α → Py β) (l : List α) (ps : List β) (h1 : l.mapM f = .ok ps) :
    ps.length = l.length ∧ ∀ p ∈ ps, ∃ j ∈ l, f j = .ok p := by
  induction l generalizing ps with
  | nil => cases h1; simp
  | cons j nn ih =>
    rw [List.mapM_cons] at h1
    cases h3 : f j with
    | error e => rw [h3] at h1; cases h1
    | ok q =>
      rw [h3] at h1
      cases h4 : nn.mapM f with
      | error e => simp only [h4, bind, Except.bind] at h1; cases h1
      | ok qs =>
        simp only [h4, bind, Except.bind, pure, Except.pure] at h1
        cases h1
        obtain ⟨h5, h6⟩ := ih qs h4
        refine ⟨by simp [h5], fun p hp => ?_⟩
        rcases List.mem_cons.mp hp with rfl | hp
        · exact ⟨j, List.mem_cons_self, h3⟩
        · obtain ⟨j', hj', h7⟩ := h6 p hp
          exact ⟨j', List.mem_cons_of_mem _ hj', h7⟩

theorem directions_some (atoms : List (V3 ℝ)) (hdis : atoms.Nodup) (target : ℕ) (nn : List ℕ) (hne : target ∉ nn)
    (dirs : Option (List (V3 ℝ))) (h : directions atoms target nn = .ok dirs) :
    ∃ ds, dirs = some ds ∧ ds ≠ [] ∧ ds.length = nn.length := by
  unfold directions at h
  cases h1 : nn.mapM (pyGet atoms) with
  | error e => rw [h1] at h; cases h
  | ok ps =>
    rw [h1] at h
    change (pyGet atoms target >>= _) = _ at h
    cases h2 : pyGet atoms target with
    | error e => rw [h2] at h; cases h
    | ok t =>
      rw [h2] at h
      change (match ps.map (fun p => norm3 (p - t)) with
        | [] => _
        | d :: ds => _) = _ at h
      obtain ⟨hl, hps⟩ := mapM_mem _ _ _ h1
      have hpos : ∀ p ∈ ps, norm3 (p - t) ≠ 0 := by
        intro p hp hz
        obtain ⟨j, hj, hpj⟩ := hps p hp
        have hpt : p = t := by
          have h0 := (norm3_eq_zero _).mp hz
          have hx := congrArg V3.x h0
          have hy := congrArg V3.y h0
          have hz := congrArg V3.z h0
          simp only [V3.sub_x, V3.sub_y, V3.sub_z, V3.zero_x, V3.zero_y, V3.zero_z] at hx hy hz
          ext <;> linarith
        have k1 := pyGet_some _ _ _ hpj
        have k2 := pyGet_some _ _ _ h2
        obtain ⟨l1, g1⟩ := List.getElem?_eq_some_iff.mp k1
        obtain ⟨l2, g2⟩ := List.getElem?_eq_some_iff.mp k2
        have : j = target := (List.Nodup.getElem_inj_iff hdis).mp (by rw [g1, g2, hpt])
        exact hne (this ▸ hj)
      cases ps with
      | nil => cases h
      | cons p ps =>
        rw [List.map_cons] at h
        simp only at h
        have hm : npMin (norm3 (p - t)) (ps.map fun p => norm3 (p - t)) ≠ 0 := by
          have := npMin_mem (norm3 (p - t)) (ps.map fun p => norm3 (p - t))
          rw [← List.map_cons (f := fun p => norm3 (p - t))] at this
          obtain ⟨q, hq, he⟩ := List.mem_map.mp this
          rw [← he]; exact hpos q hq
        rw [if_neg hm] at h
        obtain rfl := Except.ok.inj h
        exact ⟨_, rfl, by simp, by simpa using hl⟩

/-- **C68 (bond length).** For atoms at different positions and draws that visit every neighbour, the bonding atom has distance
`|bond|` from the target. -/
theorem C68_bond_length (del : List (V3 ℝ) → List Tet) (mol : Mol ℝ) (hl : mol.species.length = mol.atoms.length) (idx : MolVal ℝ) (i : ℤ)
    (hx : idx.asInt = some i) (bond : ℝ) (vol : Vol) (hdis : vol.atoms.Nodup)
    (molVector : V3 ℝ) (molRotation r : ℝ) (fs : List Filter) (sampling : Bool) (nShells : ℕ) (surfaceOnly : Bool) (rnd : Rand) (fuel : ℕ)
    (res : Placed) (hv : ∀ k, VisitsAll res.neighbors.length 1000 fun i => rnd.seqs k i % res.neighbors.length)
    (h : addAdsorbate del mol idx bond vol molVector molRotation r fs sampling nShells surfaceOnly rnd fuel = some (.ok res)) :
    norm3 res.normal = 1 ∧ ∃ tp q, vol.atoms[res.target]? = some tp ∧ res.mol.atoms[(position mol.atoms.length i).toNat]? = some q ∧
      norm3 (q - tp) = |bond| := by
  obtain ⟨surf, sh, cs, dirs, tp, a1, a2, a3, a4, a5, a6, a7, a8, a9⟩ := addAdsorbate_steps _ _ _ _ _ _ _ _ _ _ _ _ _ _ _ h
  obtain ⟨ds, rfl, hne, hlen⟩ := directions_some vol.atoms hdis res.target res.neighbors (nearestNeighbors_ne _ _ _ _ _ a4) dirs a5
  have hu : norm3 res.normal = 1 := marginLoop_unit ds hne rnd.seqs (by rw [hlen]; exact hv) fuel 0 0 0 _ a6
  obtain ⟨R, s, d1, d2, d3, d4, d5, d6, -⟩ := C68_place mol res.mol hl idx i hx molVector molRotation bond tp res.normal a8
  refine ⟨hu, tp, _, pyGet_some _ _ _ a7, d6, ?_⟩
  have : tp + bond • res.normal - tp = bond • res.normal := by ext <;> simp
  rw [this, norm3_smul, hu, mul_one]

/-- **C68 (termination).** Whatever the arguments and the random numbers, the function ends. -/
theorem C68_terminates (del : List (V3 ℝ) → List Tet) (mol : Mol ℝ) (idx : MolVal ℝ) (bond : ℝ) (vol : Vol) (molVector : V3 ℝ)
    (molRotation r : ℝ) (fs : List Filter) (sampling : Bool) (nShells : ℕ) (surfaceOnly : Bool) (rnd : Rand) :
    ∃ F, ∀ fuel, F ≤ fuel →
      addAdsorbate del mol idx bond vol molVector molRotation r fs sampling nShells surfaceOnly rnd fuel ≠ none := by
  unfold addAdsorbate
  split
  · exact ⟨0, by simp⟩
  · split
    · exact ⟨0, by simp⟩
    · split
      · exact ⟨0, by simp⟩
      · rename_i target h3
        split
        · exact ⟨0, by simp⟩
        · rename_i nn h4
          split
          · exact ⟨0, by simp⟩
          · rename_i dirs h5
            obtain ⟨F, hF⟩ : ∃ F, ∀ fuel, F ≤ fuel → normalOf dirs rnd.seqs fuel ≠ none := by
              cases dirs with
              | none => exact ⟨0, by simp [normalOf]⟩
              | some ds =>
                have hne : ds ≠ [] := by
                  intro h0
                  subst h0
                  unfold directions at h5
                  cases h6 : nn.mapM (pyGet vol.atoms) with
                  | error e => rw [h6] at h5; cases h5
                  | ok ps =>
                    rw [h6] at h5
                    change (pyGet vol.atoms target >>= _) = _ at h5
                    cases h7 : pyGet vol.atoms target with
                    | error e => rw [h7] at h5; cases h5
                    | ok t =>
                      rw [h7] at h5
                      cases ps with
                      | nil => cases h5
                      | cons p ps =>
                        change (if _ then _ else _) = _ at h5
                        split at h5
                        · cases h5
                        · cases h5
                obtain ⟨F, hF⟩ := marginLoop_ends ds hne
                exact ⟨F, fun fuel hf => hF rnd.seqs fuel hf⟩
            refine ⟨F, fun fuel hf => ?_⟩
            have h8 := hF fuel hf
            split
            · rename_i h9; exact absurd h9 h8
            · simp
            · simp
            · split
              · simp
              · split <;> simp

/-- **C68 (no candidates).** When no atom of the alpha shape passes the filters, the call raises. -/
theorem C68_no_candidates (del : List (V3 ℝ) → List Tet) (mol : Mol ℝ) (idx : MolVal ℝ) (bond : ℝ) (vol : Vol)
    (hs : vol.species.length = vol.atoms.length) (h2 : 2 ≤ vol.atoms.length) (molVector : V3 ℝ)
    (molRotation r : ℝ) (fs : List Filter) (hf : ∀ f ∈ fs, FilterFits vol.atoms f) (sampling : Bool) (nShells : ℕ) (surfaceOnly : Bool)
    (rnd : Rand) (fuel : ℕ) (hn : ∀ i, (rnd.noise i).length = vol.atoms.length) (hn1 : rnd.noise1.length = vol.atoms.length)
    (hn2 : rnd.noise2.length = vol.atoms.length)
    (hd : ∀ pts : List (V3 ℝ), pts.length = vol.atoms.length → IsTriangulation (del pts) vol.atoms.length)
    (hno : ∀ j < vol.atoms.length, ∃ f ∈ fs, ¬ Passes vol.atoms vol.species j f) :
    addAdsorbate del mol idx bond vol molVector molRotation r fs sampling nShells surfaceOnly rnd fuel = some (.error .value) := by
  obtain ⟨surf, sh, b1, b2, b3, -⟩ := addAdsorbate_alpha del vol r sampling rnd hn hn1 hn2 hd
  unfold addAdsorbate
  rw [b1]
  obtain ⟨cs, hc⟩ := C68_candidates_ok vol.atoms vol.species hs surf b3 fs hf
  simp only [hc]
  have : cs = [] := by
    rw [List.eq_nil_iff_forall_not_mem]
    intro j hj
    obtain ⟨c1, c2⟩ := (C68_candidates vol.atoms vol.species hs h2 surf fs cs hc j).mp hj
    obtain ⟨f, hf, hp⟩ := hno j (b3 j c1)
    exact hp (c2 f hf)
  subst this
  rfl

/-! ### when the call returns -/

theorem marginLoop_value (nn : List (V3 ℝ)) (hne : nn ≠ []) (hb : ∀ x ∈ nn, norm3 x ≤ 1 ∧ x ≠ w0) (seqs : ℕ → ℕ → ℕ) (fuel : ℕ) :
    ∀ k j best, marginLoop nn seqs fuel k j best ≠ none → ∃ w, w ≠ 0 ∧ marginLoop nn seqs fuel k j best = some (.ok (some w)) := by
  have hpos : 0 < nn.length := List.length_pos_iff.mpr hne
  induction fuel with
  | zero => intro k j best h; exact absurd rfl h
  | succ fuel ih =>
    intro k j best h
    rw [marginLoop] at h ⊢
    obtain ⟨u, h1, h2⟩ := C67_no_nan nn (95 / 100) (1 / 10 ^ 4) best (fun i => seqs k i % nn.length) 1000 1000 (by norm_num) le_rfl hne
      (fun i _ => Nat.mod_lt _ hpos) (by norm_num [abs_of_pos]) hb
    rw [h1] at h ⊢
    simp only at h ⊢
    cases hd : nn.map u.dot with
    | nil => simp at hd; exact absurd hd hne
    | cons d ds =>
      rw [hd] at h
      simp only at h ⊢
      split
      · rename_i hlt
        rw [if_pos hlt] at h
        exact ih _ _ _ h
      · rename_i hlt
        rw [if_neg hlt] at h
        split
        · rename_i hj
          rw [if_pos hj] at h
          exact ih _ _ _ h
        · refine ⟨u, ?_, rfl⟩
          rintro rfl
          rcases h2 with h2 | ⟨h2, -⟩
          · have : norm3 (0 : V3 ℝ) = 0 := (norm3_eq_zero _).mpr rfl
            rw [this] at h2
            norm_num at h2
          · have := congrArg V3.x h2
            norm_num [w0] at this

/-- The directions lie in the unit ball, and none is as short as the initial vector. -/
theorem directions_ball (atoms : List (V3 ℝ)) (target : ℕ) (nn : List ℕ) (tp : V3 ℝ) (ht : atoms[target]? = some tp)
    (hfar : ∀ i ∈ nn, ∀ p, atoms[i]? = some p → ∀ j ∈ nn, ∀ q, atoms[j]? = some q → norm3 (p - tp) ≤ 10 ^ 9 * norm3 (q - tp))
    (ds : List (V3 ℝ)) (h : directions atoms target nn = .ok (some ds)) : ∀ x ∈ ds, norm3 x ≤ 1 ∧ x ≠ w0 := by
  unfold directions at h
  cases h1 : nn.mapM (pyGet atoms) with
  | error e => rw [h1] at h; cases h
  | ok ps =>
    rw [h1] at h
    change (pyGet atoms target >>= _) = _ at h
    have h2 : pyGet atoms target = .ok tp := by unfold pyGet; rw [ht]
    rw [h2] at h
    change (match ps.map (fun p => norm3 (p - tp)) with
      | [] => _
      | d :: ds => _) = _ at h
    have hps : ∀ p ∈ ps, ∃ j ∈ nn, atoms[j]? = some p := by
      intro p hp
      obtain ⟨j, hj, he⟩ := (mapM_mem _ _ _ h1).2 p hp
      exact ⟨j, hj, pyGet_some _ _ _ he⟩
    cases ps with
    | nil => cases h
    | cons p ps =>
      rw [List.map_cons] at h
      simp only at h
      have hm := npMin_mem (norm3 (p - tp)) (ps.map fun p => norm3 (p - tp))
      have hle : ∀ q ∈ p :: ps, npMin (norm3 (p - tp)) (ps.map fun p => norm3 (p - tp)) ≤ norm3 (q - tp) := by
        intro q hq
        apply npMin_le
        rw [← List.map_cons (f := fun p => norm3 (p - tp))]
        exact List.mem_map_of_mem hq
      generalize npMin (norm3 (p - tp)) (ps.map fun p => norm3 (p - tp)) = m at h hm hle
      split at h
      · cases h
      · rename_i hm0
        obtain rfl := Option.some.inj (Except.ok.inj h)
        rw [← List.map_cons (f := fun p => norm3 (p - tp))] at hm
        obtain ⟨q0, hq0, rfl⟩ := List.mem_map.mp hm
        have hmpos : 0 < norm3 (q0 - tp) := lt_of_le_of_ne (norm3_nonneg _) (Ne.symm hm0)
        intro x hx
        obtain ⟨q, hq, rfl⟩ := List.mem_map.mp hx
        have hq1 := hle q hq
        have hqpos : 0 < norm3 (q - tp) := lt_of_lt_of_le hmpos hq1
        obtain ⟨j, hj, e1⟩ := hps q hq
        obtain ⟨j', hj', e2⟩ := hps q0 hq0
        have hq2 := hfar j hj q e1 j' hj' q0 e2
        have hn : norm3 ((1 / norm3 (q0 - tp) / (norm3 (q - tp) / norm3 (q0 - tp)) ^ 2) • (q - tp)) = norm3 (q0 - tp) / norm3 (q - tp) := by
          rw [norm3_smul, abs_of_pos (by positivity)]
          field_simp
        refine ⟨by rw [hn]; exact (div_le_one hqpos).mpr hq1, fun h0 => ?_⟩
        rw [h0] at hn
        have h3 : 1 / 10 ^ 9 ≤ norm3 w0 := by
          rw [hn, le_div_iff₀ hqpos]; linarith
        have h4 : norm3 w0 ^ 2 < (1 / 10 ^ 9) ^ 2 := by
          rw [norm3_sq]
          norm_num [w0, V3.normSq, V3.dot]
        have := pow_le_pow_left₀ (by norm_num : (0 : ℝ) ≤ 1 / 10 ^ 9) h3 2
        linarith

/-- **C68 (the call returns).** With an admissible filter set, at least one admissible surface atom, atoms at different positions, at
least one shell of neighbours, and no atom a thousand million times closer to another than the size of the particle, the call finds a
normal, and it returns for every molecule whose vector can be turned onto that normal (C45). -/
theorem C68_returns (del : List (V3 ℝ) → List Tet) (vol : Vol) (hs : vol.species.length = vol.atoms.length) (h2 : 2 ≤ vol.atoms.length)
    (hdis : vol.atoms.Nodup) (hfar : ∀ p ∈ vol.atoms, ∀ q ∈ vol.atoms, ∀ t ∈ vol.atoms, q ≠ t → norm3 (p - t) ≤ 10 ^ 9 * norm3 (q - t))
    (r : ℝ) (fs : List Filter) (hf : ∀ f ∈ fs, FilterFits vol.atoms f) (sampling : Bool) (nShells : ℕ) (hsh : 1 ≤ nShells)
    (rnd : Rand) (hn : ∀ i, (rnd.noise i).length = vol.atoms.length) (hn1 : rnd.noise1.length = vol.atoms.length)
    (hn2 : rnd.noise2.length = vol.atoms.length)
    (hd : ∀ pts : List (V3 ℝ), pts.length = vol.atoms.length → IsTriangulation (del pts) vol.atoms.length)
    (hinj : ∀ pts, ∀ t ∈ del pts, Function.Injective t.v) (surf : List ℕ) (sh : Shape)
    (ha : (if sampling then alphaShapeSampled del rnd.noise 20 vol.atoms r else alphaShape del rnd.noise1 rnd.noise2 vol.atoms r) =
      .ok (surf, sh)) (x : ℕ) (hx : x ∈ surf) (hpass : ∀ f ∈ fs, Passes vol.atoms vol.species x f) :
    ∃ F, ∀ fuel, F ≤ fuel → ∃ w : V3 ℝ, w ≠ 0 ∧ ∀ (mol : Mol ℝ) (idx : MolVal ℝ) (i : ℤ) (bond molRotation : ℝ) (molVector : V3 ℝ) (R : M3 ℝ),
      mol.species.length = mol.atoms.length → idx.asInt = some i → |i| < (mol.atoms.length : ℤ) →
      Tr.rotVtv (mol.orientation.mulVec molVector) w = .ok R →
      ∃ res, addAdsorbate del mol idx bond vol molVector molRotation r fs sampling nShells true rnd fuel = some (.ok res) ∧ res.normal = w := by
  obtain ⟨surf', sh', b1, b2, b3, b4, -, -, b7⟩ := addAdsorbate_alpha del vol r sampling rnd hn hn1 hn2 hd
  rw [ha] at b1
  obtain ⟨rfl, rfl⟩ := Prod.mk.inj (Except.ok.inj b1)
  have htets : ∀ t ∈ sh.tets, Function.Injective t.v := by
    cases sampling with
    | true =>
      obtain ⟨o, s', e1, e2, -⟩ := C65_sampling del rnd.noise 20 vol.atoms r (by norm_num) hn (hd _ rfl)
      rw [if_pos rfl, e1] at ha
      obtain ⟨-, rfl⟩ := Prod.mk.inj (Except.ok.inj ha)
      rw [e2]; exact hinj _
    | false =>
      obtain ⟨o, s', e1, e2, -⟩ := C65_alpha_shape del rnd.noise1 rnd.noise2 vol.atoms r hn1 hn2 (hd _ (by simp [jittered, hn1]))
      rw [if_neg (by simp), e1] at ha
      obtain ⟨-, rfl⟩ := Prod.mk.inj (Except.ok.inj ha)
      rw [e2]; exact hinj _
  obtain ⟨cs, hc⟩ := C68_candidates_ok vol.atoms vol.species hs surf b3 fs hf
  have hxc := (C68_candidates vol.atoms vol.species hs h2 surf fs cs hc x).mpr ⟨hx, hpass⟩
  obtain ⟨target, htg⟩ : ∃ target, choose rnd.pick cs = .ok target := by
    unfold choose
    rw [if_neg (List.ne_nil_of_mem hxc)]
    exact ⟨_, pyGet_ok (Nat.mod_lt _ (List.length_pos_of_mem hxc))⟩
  obtain ⟨c1, c2⟩ := (C68_candidates vol.atoms vol.species hs h2 surf fs cs hc target).mp (choose_mem _ _ _ htg)
  obtain ⟨s, hs1, k, hs2⟩ := b4 target c1
  obtain ⟨nn, n1, -, n3⟩ := C66_shells target sh nShells b2 ⟨s, hs1, k, hs2⟩
  have hlt := b3 target c1
  obtain ⟨i0, t0, m1, m2, m3⟩ := hs1
  have hnne : nn ≠ [] := by
    have hk : k + 1 ≠ k := by simp
    refine List.ne_nil_of_mem ((n3 (s (k + 1))).mpr ⟨fun h => ?_, ?_⟩)
    · rw [m3] at h hs2
      rw [← hs2] at h
      exact hk (htets t0 (List.mem_of_getElem? m2) h)
    · obtain ⟨n', rfl⟩ : ∃ n', nShells = n' + 1 := ⟨nShells - 1, by omega⟩
      exact .edge (.here n') ⟨s, ⟨i0, t0, m1, m2, m3⟩, k, k + 1, hk.symm, hs2, rfl⟩
  have hnlt : ∀ j ∈ nn, j < vol.atoms.length := by
    intro j hj
    obtain ⟨j1, j2⟩ := (n3 j).mp hj
    cases j2 with
    | here => exact absurd rfl j1
    | edge _ he =>
      obtain ⟨s', ⟨i', t', -, q2, rfl⟩, -, l, -, -, rfl⟩ := he
      exact b7.2 t' (List.mem_of_getElem? q2) l
  have hget : ∀ j ∈ nn, pyGet vol.atoms j = .ok (vol.atoms.getD j 0) := by
    intro j hj
    rw [pyGet_ok (hnlt j hj), List.getD_eq_getElem?_getD, List.getElem?_eq_getElem (hnlt j hj), Option.getD_some]
  have htp : vol.atoms[target]? = some vol.atoms[target] := List.getElem?_eq_getElem hlt
  obtain ⟨dirs, hdir⟩ : ∃ dirs, directions vol.atoms target nn = .ok dirs := by
    unfold directions
    rw [Precedence.mapM_ok _ _ _ hget]
    show ∃ dirs, (pyGet vol.atoms target >>= _) = _
    rw [pyGet_ok hlt]
    cases nn with
    | nil => exact absurd rfl hnne
    | cons j nn =>
      simp only [List.map_cons]
      dsimp only [bind, Except.bind]
      split <;> exact ⟨_, rfl⟩
  obtain ⟨ds, rfl, hne, -⟩ := directions_some vol.atoms hdis target nn (fun h => ((n3 target).mp h).1 rfl) dirs hdir
  have hball := directions_ball vol.atoms target nn _ htp (fun i _ p hp j hj q hq => by
    refine hfar p (List.mem_of_getElem? hp) q (List.mem_of_getElem? hq) _ (List.mem_of_getElem? htp) ?_
    rintro rfl
    apply ((n3 j).mp hj).1
    obtain ⟨l1, g1⟩ := List.getElem?_eq_some_iff.mp hq
    exact (List.Nodup.getElem_inj_iff hdis).mp g1) ds hdir
  obtain ⟨F, hF⟩ := marginLoop_ends ds hne
  refine ⟨F, fun fuel hfu => ?_⟩
  obtain ⟨w, hw, hm⟩ := marginLoop_value ds hne hball rnd.seqs fuel 0 0 0 (hF rnd.seqs fuel hfu)
  refine ⟨w, hw, fun mol idx i bond molRotation molVector R hl hi hb hR => ?_⟩
  obtain ⟨m', hpl⟩ := C68_place_ok mol hl idx i hi hb molVector molRotation bond vol.atoms[target] w hw R hR
  refine ⟨⟨m', m'.atoms.all fun p => !(vol.interior p), target, nn, w⟩, ?_, rfl⟩
  unfold addAdsorbate
  rw [ha]
  simp only [hc, htg, n1, hdir, normalOf, hm, pyGet_ok hlt, hpl]

/-- The bipyramid of five atoms; the two tips are offered as targets, and a molecule pointing along the normal that is found is placed. -/
def bipyramid : Vol := ⟨[⟨0, 0, 1⟩, ⟨1, 0, 0⟩, ⟨-1, 1, 0⟩, ⟨-1, -1, 0⟩, ⟨0, 0, -1⟩], [29, 29, 29, 29, 8], fun _ => false⟩

theorem bipyramid_alpha : alphaShape (fun _ => demoTets) (List.replicate 5 0) (List.replicate 5 0) bipyramid.atoms 2 =
    .ok ([0, 4], ⟨demoTets, [true, true], [0, 1]⟩) := by
  have hz : ∀ v : V3 ℝ, v + 0 = v := fun v => by ext <;> simp
  have h1 : probeTest demoTets bipyramid.atoms 2 = .ok [true, true] := by
    have c1 : within 2 (circumradius ⟨0, 0, 1⟩ ⟨1, 0, 0⟩ ⟨-1, 1, 0⟩ ⟨-1, -1, 0⟩) = true := by
      unfold circumradius
      norm_num [within, norm3, V3.normSq, V3.dot]
      rw [← Real.sqrt_div (by norm_num), Real.sqrt_le_iff]
      norm_num
    have c2 : within 2 (circumradius ⟨0, 0, -1⟩ ⟨1, 0, 0⟩ ⟨-1, 1, 0⟩ ⟨-1, -1, 0⟩) = true := by
      unfold circumradius
      norm_num [within, norm3, V3.normSq, V3.dot]
      rw [← Real.sqrt_div (by norm_num), Real.sqrt_le_iff]
      norm_num
    show (Except.ok [within 2 (circumradius ⟨0, 0, 1⟩ ⟨1, 0, 0⟩ ⟨-1, 1, 0⟩ ⟨-1, -1, 0⟩),
      within 2 (circumradius ⟨0, 0, -1⟩ ⟨1, 0, 0⟩ ⟨-1, 1, 0⟩ ⟨-1, -1, 0⟩)] : Py (List Bool)) = _
    rw [c1, c2]
  unfold alphaShape
  have h2 : jittered bipyramid.atoms (List.replicate 5 0) = bipyramid.atoms := by
    simp [jittered, bipyramid, List.replicate, hz]
  simp only [addNoise_eq, h2, h1]
  rfl

theorem bipyramid_bounds : ∀ p ∈ bipyramid.atoms, ∀ t ∈ bipyramid.atoms, norm3 (p - t) ≤ 10 ∧ (p ≠ t → 1 ≤ norm3 (p - t)) := by
  have key : ∀ v : V3 ℝ, v.normSq ≤ 100 → (v = 0 ∨ 1 ≤ v.normSq) → norm3 v ≤ 10 ∧ (v ≠ 0 → 1 ≤ norm3 v) := by
    intro v h1 h2
    refine ⟨by unfold norm3; rw [Real.sqrt_le_iff]; norm_num [h1], fun h => ?_⟩
    unfold norm3
    rw [Real.one_le_sqrt]
    exact h2.resolve_left h
  have hz : ∀ p t : V3 ℝ, p ≠ t → p - t ≠ 0 := by
    intro p t h h0
    apply h
    have hx := congrArg V3.x h0
    have hy := congrArg V3.y h0
    have hz := congrArg V3.z h0
    simp only [V3.sub_x, V3.sub_y, V3.sub_z, V3.zero_x, V3.zero_y, V3.zero_z] at hx hy hz
    ext <;> linarith
  intro p hp t ht
  have := key (p - t) ?_ ?_
  · exact ⟨this.1, fun h => this.2 (hz p t h)⟩
  · simp only [bipyramid, List.mem_cons, List.not_mem_nil, or_false] at hp ht
    rcases hp with rfl | rfl | rfl | rfl | rfl <;> rcases ht with rfl | rfl | rfl | rfl | rfl <;> norm_num [V3.normSq, V3.dot]
  · simp only [bipyramid, List.mem_cons, List.not_mem_nil, or_false] at hp ht
    rcases hp with rfl | rfl | rfl | rfl | rfl <;> rcases ht with rfl | rfl | rfl | rfl | rfl <;>
      first
      | (right; norm_num [V3.normSq, V3.dot]; done)
      | (left; ext <;> simp)

/-- On the oxygen atom of the bipyramid a water molecule is placed whose vector points along the normal that is found. -/
theorem bipyramid_water : ∃ (fuel : ℕ) (molVector : V3 ℝ) (res : Placed),
    addAdsorbate (fun _ => demoTets) ⟨[⟨0, 0, 0⟩, ⟨1, 0, 0⟩, ⟨0, 1, 0⟩], [8, 1, 1], 0, 1, false, none, some 0, true⟩ (.int 0) 2 bipyramid
      molVector 1 2 [.element [8]] false 1 true ⟨fun _ => List.replicate 5 0, List.replicate 5 0, List.replicate 5 0, 7, fun _ i => i⟩ fuel =
        some (.ok res) ∧ res.target = 4 ∧ res.neighbors = [1, 2, 3] ∧ norm3 (res.mol.atoms.getD 0 0 - ⟨0, 0, -1⟩) = 2 := by
  have hdis : bipyramid.atoms.Nodup := by simp [bipyramid]; norm_num
  obtain ⟨F, hF⟩ := C68_returns (fun _ => demoTets) bipyramid rfl (by simp [bipyramid]) hdis (by
      intro p hp q hq t ht hqt
      have h1 := (bipyramid_bounds p hp t ht).1
      have h2 := (bipyramid_bounds q hq t ht).2 hqt
      linarith)
    2 [.element [8]] (by simp [FilterFits]) false 1 le_rfl ⟨fun _ => List.replicate 5 0, List.replicate 5 0, List.replicate 5 0, 7, fun _ i => i⟩
    (fun _ => rfl) rfl rfl (fun _ _ => ⟨by decide, by decide⟩) (fun _ => by decide) [0, 4] ⟨demoTets, [true, true], [0, 1]⟩ bipyramid_alpha
    4 (by simp) (by simp [Passes, bipyramid])
  obtain ⟨w, hw, h⟩ := hF F le_rfl
  have ho : (1 : M3 ℝ).mulVec w = w := M3.mulVec_one _
  obtain ⟨R, hR, -⟩ := C45_aligns_partial ((1 : M3 ℝ).mulVec w) w (by rw [ho]; exact hw) hw
    (.inl ⟨1, one_pos, by rw [ho]; ext <;> simp⟩)
  obtain ⟨res, h1, h2⟩ := h ⟨[⟨0, 0, 0⟩, ⟨1, 0, 0⟩, ⟨0, 1, 0⟩], [8, 1, 1], 0, 1, false, none, some 0, true⟩ (.int 0) 0 2 1 w R rfl rfl (by simp) hR
  refine ⟨F, w, res, h1, ?_⟩
  obtain ⟨-, -, -, -, -, h3, -, h4, -⟩ := C68_result _ _ rfl (.int 0) 0 rfl _ _ rfl (by simp [bipyramid]) _ _ _ _ _ _ _ _ _
    (fun _ => rfl) rfl rfl (fun _ _ => ⟨by decide, by decide⟩) res h1
  have ht : res.target = 4 := by
    have h5 := h3 _ List.mem_cons_self
    simp only [Passes, List.mem_singleton, exists_eq_left] at h5
    have h6 : ∀ j : ℕ, bipyramid.species[j]? = some 8 → j = 4 := by
      intro j hj
      match j, hj with
      | 0, hj => simp [bipyramid] at hj
      | 1, hj => simp [bipyramid] at hj
      | 2, hj => simp [bipyramid] at hj
      | 3, hj => simp [bipyramid] at hj
      | 4, _ => rfl
      | (n + 5), hj => simp [bipyramid] at hj
    exact h6 _ h5
  have hnb : res.neighbors = [1, 2, 3] := by
    obtain ⟨surf, sh, cs, dirs, tp, a1, a2, a3, a4, a5, a6, a7, a8, a9⟩ := addAdsorbate_steps _ _ _ _ _ _ _ _ _ _ _ _ _ _ _ h1
    rw [if_neg (by simp), bipyramid_alpha] at a1
    obtain ⟨-, rfl⟩ := Prod.mk.inj (Except.ok.inj a1)
    rw [ht] at a4
    have : nearestNeighbors 4 ⟨demoTets, [true, true], [0, 1]⟩ 1 true = .ok [1, 2, 3] := by decide +kernel
    rw [this] at a4
    rw [← Except.ok.inj a4]
  obtain ⟨-, tp, q, e1, e2, e3⟩ := C68_bond_length _ _ rfl (.int 0) 0 rfl _ _ hdis _ _ _ _ _ _ _ _ _ res (by
    intro k
    have : res.neighbors.length ≤ 1000 := by rw [hnb]; simp
    exact fun i hi => ⟨i, by omega, Nat.mod_eq_of_lt hi⟩) h1
  refine ⟨ht, hnb, ?_⟩
  rw [ht] at e1
  have e1' : tp = ⟨0, 0, -1⟩ := (Option.some.inj e1).symm
  have e2' : res.mol.atoms[0]? = some q := e2
  rw [List.getD_eq_getElem?_getD, e2', Option.getD_some, ← e1', e3]
  norm_num

end CZ
