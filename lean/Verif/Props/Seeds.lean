import Verif.Seeds
import Verif.Props.AdsorbateNormal

/-!
# Property C126: seeds
-/

namespace CZ
namespace Seeds
open Surf

/-- A seed is given, and the function is one of those that take all their random numbers from it. -/
def SeedGiven : Call → Prop
  | .setSeed _ => False
  | .splits _ _ _ seed _ => seed ≠ none
  | .substrate _ _ _ seed _ => seed ≠ none
  | .batched _ _ _ _ _ seed _ => seed ≠ none
  | .normal _ _ _ _ seed _ _ => seed ≠ none
  | .alpha _ _ => False
  | .alphaSampled _ _ _ _ seed => seed ≠ none
  | .adsorb _ sampling seed _ => seed ≠ none ∧ sampling = true
  | .substitute _ _ _ _ seed => seed ≠ none

/-- No generator is made from the entropy of the operating system: a seed is given wherever the function would do that. -/
def NoEntropy : Call → Prop
  | .setSeed _ => True
  | .splits n m l seed _ => seed ≠ none ∨ n = 0 ∨ l - 2 * m < (n - 1) * m
  | .substrate _ _ _ seed _ => seed ≠ none
  | .batched _ _ _ _ _ seed _ => seed ≠ none
  | .normal _ _ _ _ seed _ _ => seed ≠ none
  | .alpha _ _ => True
  | .alphaSampled _ _ _ _ _ => True
  | .adsorb _ _ _ _ => True
  | .substitute _ _ _ _ seed => seed ≠ none

variable (np : Np) (del : List (V3 ℝ) → List Tet)

/-- **C126 (seeds).** A call with a seed returns the same whatever the state of the random generators is, and does not change that state. -/
theorem C126_seeded (c : Call) (h : SeedGiven c) (st st' : St np) :
    (exec np del c st).1 = (exec np del c st').1 ∧ (exec np del c st).2 = st := by
  cases c with
  | setSeed s => exact h.elim
  | alpha pts r => exact h.elim
  | splits n m l seed fuel =>
    cases seed with
    | none => exact absurd rfl h
    | some s => simp only [exec, Np.defaultRng]; split <;> exact ⟨rfl, rfl⟩
  | substrate dims m d seed fuel =>
    cases seed with
    | none => exact absurd rfl h
    | some s => exact ⟨rfl, rfl⟩
  | batched dims m d scale size seed fuel =>
    cases seed with
    | none => exact absurd rfl h
    | some s => exact ⟨rfl, rfl⟩
  | normal pts decay tol margin seed maxSteps fuel =>
    cases seed with
    | none => exact absurd rfl h
    | some s => exact ⟨rfl, rfl⟩
  | alphaSampled pts r n std seed =>
    cases seed with
    | none => exact absurd rfl h
    | some s => exact ⟨rfl, rfl⟩
  | adsorb a sampling seed fuel =>
    obtain ⟨h, rfl⟩ := h
    cases seed with
    | none => exact absurd rfl h
    | some s => exact ⟨rfl, rfl⟩
  | substitute target subs frac species seed =>
    cases seed with
    | none => exact absurd rfl h
    | some s => exact ⟨rfl, rfl⟩

theorem run_append (P Q : List Call) (st : St np) :
    (run np del (P ++ Q) st).1 = (run np del P st).1 ++ (run np del Q (run np del P st).2).1 := by
  induction P generalizing st with
  | nil => rfl
  | cons c P ih =>
    simp only [List.cons_append, run]
    rw [ih]

/-- **C126 (programs).** In every program, a call with a seed returns what it returns in a fresh process, and the other calls return what they
return when that call is left out. -/
theorem C126_programs (P Q : List Call) (c : Call) (h : SeedGiven c) (st fresh : St np) :
    (run np del (P ++ c :: Q) st).1 = (run np del P st).1 ++ (run np del [c] fresh).1 ++ (run np del Q (run np del P st).2).1 ∧
      (run np del (P ++ Q) st).1 = (run np del P st).1 ++ (run np del Q (run np del P st).2).1 := by
  refine ⟨?_, run_append np del P Q st⟩
  rw [run_append]
  obtain ⟨h1, h2⟩ := C126_seeded np del c h (run np del P st).2 fresh
  simp only [run]
  rw [h1, h2]
  simp

/-- **C126 (global seed, partial).** A program that begins with `np.random.seed(s)` returns the same in every process, if no call makes a generator
without a seed.  Missing: `get_N_splits` (`C126_global_refuted`) and substitutions without seed, which ask the operating system; the prefabs call
`get_N_splits` without seed (prefab.py:183), and the generators apply their post transforms without seed. -/
theorem C126_global_partial (s : ℕ) (P : List Call) (h : ∀ c ∈ P, NoEntropy c) (st st' : St np) :
    (run np del (.setSeed s :: P) st).1 = (run np del (.setSeed s :: P) st').1 := by
  have key : ∀ c, NoEntropy c → ∀ st st' : St np, st.glob = st'.glob →
      (exec np del c st).1 = (exec np del c st').1 ∧ (exec np del c st).2.glob = (exec np del c st').2.glob := by
    intro c hc st st' hg
    obtain ⟨g, os⟩ := st
    obtain ⟨g', os'⟩ := st'
    obtain rfl : g = g' := hg
    cases c with
    | setSeed s => exact ⟨rfl, rfl⟩
    | alpha pts r => exact ⟨rfl, rfl⟩
    | splits n m l seed fuel =>
      simp only [exec]
      by_cases hb : n = 0 ∨ l - 2 * m < (n - 1) * m
      · rw [if_pos hb, if_pos hb]; exact ⟨rfl, rfl⟩
      · rw [if_neg hb, if_neg hb]
        cases seed with
        | none => rcases hc with hc | hc
                  · exact absurd rfl hc
                  · exact absurd hc hb
        | some s => exact ⟨rfl, rfl⟩
    | substrate dims m d seed fuel =>
      cases seed with
      | none => exact absurd rfl hc
      | some s => exact ⟨rfl, rfl⟩
    | batched dims m d scale size seed fuel =>
      cases seed with
      | none => exact absurd rfl hc
      | some s => exact ⟨rfl, rfl⟩
    | normal pts decay tol margin seed maxSteps fuel =>
      cases seed with
      | none => exact absurd rfl hc
      | some s => exact ⟨rfl, rfl⟩
    | alphaSampled pts r n std seed => cases seed <;> exact ⟨rfl, rfl⟩
    | adsorb a sampling seed fuel => cases seed <;> cases sampling <;> exact ⟨rfl, rfl⟩
    | substitute target subs frac species seed =>
      cases seed with
      | none => exact absurd rfl hc
      | some s => exact ⟨rfl, rfl⟩
  have all : ∀ P : List Call, (∀ c ∈ P, NoEntropy c) → ∀ st st' : St np, st.glob = st'.glob → (run np del P st).1 = (run np del P st').1 := by
    intro P
    induction P with
    | nil => intros; rfl
    | cons c P ih =>
      intro h st st' hg
      obtain ⟨h1, h2⟩ := key c (h c (by simp)) st st' hg
      simp only [run]
      rw [h1, ih (fun c hc => h c (by simp [hc])) _ _ h2]
  simp only [run]
  exact congrArg (_ :: ·) (all P h _ _ rfl)

/-! ## Findings -/

/-- Numbers for the witnesses: generators whose numbers are all equal to their state; the global generator in state 1 gives
`demoNoise` once, and zeros otherwise. -/
noncomputable def demoNoise : List (V3 ℝ) := [0, 0, 0, 0, ⟨0, 0, 1 / 2⟩]

@[inherit_doc demoNoise] noncomputable def demoNp : Np where
  G := ℕ
  M := ℕ
  seeded := id
  raw g := (g, g)
  uniform g n := (List.replicate n 0, g)
  normal g n := (List.replicate n 0, g)
  probs g _ := (fun _ => 0, g)
  mseed s := s
  randint m := (0, m)
  rand m n := (if m = 1 then demoNoise else List.replicate n 0, 0)

/-- **C126 (global seed) is false for get_N_splits**: after `np.random.seed(0)` the result still depends on the operating system. -/
theorem C126_global_refuted : ∃ (np : Np) (st st' : St np), ∀ del,
    (run np del [.setSeed 0, .splits 1 1 10 none 5] st).1 ≠ (run np del [.setSeed 0, .splits 1 1 10 none 5] st').1 := by
  refine ⟨demoNp, ⟨(0 : ℕ), fun _ => (0 : ℕ)⟩, ⟨(0 : ℕ), fun _ => (1 : ℕ)⟩, fun del h => ?_⟩
  have e : Splits.getNSplits 1 1 10 (demoNp.rawAt (0 : ℕ)) 5 = Splits.getNSplits 1 1 10 (demoNp.rawAt (1 : ℕ)) 5 := by
    have := congrArg (fun l => l[1]?) h
    simp [run, exec, Np.defaultRng, demoNp] at this
    exact this
  have e0 : demoNp.rawAt (0 : ℕ) = fun _ => (0 : ℕ) := by
    funext k; induction k with
    | zero => rfl
    | succ k ih => exact ih
  have e1 : demoNp.rawAt (1 : ℕ) = fun _ => (1 : ℕ) := by
    funext k; induction k with
    | zero => rfl
    | succ k ih => exact ih
  rw [e0, e1] at e
  revert e
  decide +kernel

/-- The probe that just fits around the two tetrahedra of the bipyramid. -/
noncomputable def tight : ℝ := Real.sqrt (26 / 16)

theorem smul_zeros (c : ℝ) (n : ℕ) : (List.replicate n (0 : V3 ℝ)).map (c • ·) = List.replicate n 0 := by
  rw [List.map_replicate]
  congr 1
  ext <;> simp

theorem noise_zero (g : ℕ) (n k : ℕ) : demoNp.noiseAt n g k = List.replicate n 0 := by
  induction k with
  | zero => rfl
  | succ k ih => exact ih

theorem addNoise_zero (pts : List (V3 ℝ)) (n : ℕ) (h : pts.length = n) : addNoise pts (List.replicate n 0) = pts := by
  subst h
  unfold addNoise
  induction pts with
  | nil => rfl
  | cons p ps ih =>
    rw [List.length_cons, List.replicate_succ, List.zipWith_cons_cons, ih]
    congr 1
    ext <;> simp

theorem tight_upper : within tight (circumradius ⟨0, 0, 1⟩ ⟨1, 0, 0⟩ ⟨-1, 1, 0⟩ ⟨-1, -1, 0⟩) = true := by
  unfold circumradius tight
  norm_num [within, norm3, V3.normSq, V3.dot]

theorem tight_lower : within tight (circumradius ⟨0, 0, -1⟩ ⟨1, 0, 0⟩ ⟨-1, 1, 0⟩ ⟨-1, -1, 0⟩) = true := by
  unfold circumradius tight
  norm_num [within, norm3, V3.normSq, V3.dot]

theorem tight_moved : within tight (circumradius ⟨0, 0, -1 + 1 / 20000⟩ ⟨1, 0, 0⟩ ⟨-1, 1, 0⟩ ⟨-1, -1, 0⟩) = false := by
  unfold circumradius tight
  norm_num [within, norm3, V3.normSq, V3.dot]
  rw [← Real.sqrt_div (by norm_num), ← Real.sqrt_div (by norm_num)]
  exact Real.sqrt_lt_sqrt (by norm_num) (by norm_num)

/-- The call of the witness: a water molecule on the oxygen atom of the bipyramid, with the seed 7 and without sampling. -/
noncomputable def demoCall (molVector : V3 ℝ) (fuel : ℕ) : Call :=
  .adsorb ⟨⟨[⟨0, 0, 0⟩, ⟨1, 0, 0⟩, ⟨0, 1, 0⟩], [8, 1, 1], 0, 1, false, none, some 0, true⟩, .int 0, 2, bipyramid, molVector, 1, tight,
    [.element [8]], 1, true⟩ false (some 7) fuel

theorem alpha_quiet : alphaShape (fun _ => demoTets) (List.replicate 5 0) (List.replicate 5 0) bipyramid.atoms tight =
    .ok ([0, 4], ⟨demoTets, [true, true], [0, 1]⟩) := by
  have h1 : probeTest demoTets bipyramid.atoms tight = .ok [true, true] := by
    show (Except.ok [within tight (circumradius ⟨0, 0, 1⟩ ⟨1, 0, 0⟩ ⟨-1, 1, 0⟩ ⟨-1, -1, 0⟩),
      within tight (circumradius ⟨0, 0, -1⟩ ⟨1, 0, 0⟩ ⟨-1, 1, 0⟩ ⟨-1, -1, 0⟩)] : Py (List Bool)) = _
    rw [tight_upper, tight_lower]
  unfold alphaShape
  simp only [addNoise_zero bipyramid.atoms 5 rfl, h1]
  rfl

theorem alpha_moved : alphaShape (fun _ => demoTets) (demoNoise.map ((1 / 10 ^ 4 : ℝ) • ·)) (List.replicate 5 0) bipyramid.atoms tight =
    .ok ([], ⟨demoTets, [true, false], [0]⟩) := by
  have h0 : addNoise bipyramid.atoms (demoNoise.map ((1 / 10 ^ 4 : ℝ) • ·)) =
      [⟨0, 0, 1⟩, ⟨1, 0, 0⟩, ⟨-1, 1, 0⟩, ⟨-1, -1, 0⟩, ⟨0, 0, -1 + 1 / 20000⟩] := by
    simp only [addNoise, bipyramid, demoNoise, List.map_cons, List.map_nil, List.zipWith_cons_cons, List.zipWith_nil_right]
    refine congrArg₂ _ ?_ (congrArg₂ _ ?_ (congrArg₂ _ ?_ (congrArg₂ _ ?_ (congrArg₂ _ ?_ rfl)))) <;> ext <;> norm_num
  have h1 : probeTest demoTets [⟨0, 0, 1⟩, ⟨1, 0, 0⟩, ⟨-1, 1, 0⟩, ⟨-1, -1, 0⟩, ⟨0, 0, -1 + 1 / 20000⟩] tight = .ok [true, false] := by
    show (Except.ok [within tight (circumradius ⟨0, 0, 1⟩ ⟨1, 0, 0⟩ ⟨-1, 1, 0⟩ ⟨-1, -1, 0⟩),
      within tight (circumradius ⟨0, 0, -1 + 1 / 20000⟩ ⟨1, 0, 0⟩ ⟨-1, 1, 0⟩ ⟨-1, -1, 0⟩)] : Py (List Bool)) = _
    rw [tight_upper, tight_moved]
  unfold alphaShape
  simp only [h0, addNoise_zero [⟨0, 0, 1⟩, ⟨1, 0, 0⟩, ⟨-1, 1, 0⟩, ⟨-1, -1, 0⟩, ⟨0, 0, -1 + 1 / 20000⟩] 5 rfl, h1]
  rfl

/-- **C126 (seeds) is false for add_adsorbate without sampling**: with the same seed and the same arguments the call returns a molecule in one state
of the global generator and raises ValueError, because no atom is on the surface, in another. -/
theorem C126_sampling_refuted : ∃ (np : Np) (del : List (V3 ℝ) → List Tet) (molVector : V3 ℝ) (fuel : ℕ) (st st' : St np),
    (∃ res, (exec np del (demoCall molVector fuel) st).1 = .placed (some (.ok res))) ∧
      (exec np del (demoCall molVector fuel) st').1 = .placed (some (.error .value)) := by
  have hdis : bipyramid.atoms.Nodup := by simp [bipyramid]; norm_num
  have hrand : ∀ z1 z2 : List (V3 ℝ), ∀ k, ((adsRand demoNp 5 false 7 z1 z2).noise k).length = 5 := by
    intro z1 z2 k
    show ((demoNp.noiseAt 5 (7 : ℕ) k).map _).length = 5
    rw [noise_zero]; simp
  obtain ⟨F, hF⟩ := C68_returns (fun _ => demoTets) bipyramid rfl (by simp [bipyramid]) hdis (by
      intro p hp q hq t ht hqt
      have h1 := (bipyramid_bounds p hp t ht).1
      have h2 := (bipyramid_bounds q hq t ht).2 hqt
      linarith)
    tight [.element [8]] (by simp [Spec.FilterFits]) false 1 le_rfl (adsRand demoNp 5 false 7 (List.replicate 5 0) (List.replicate 5 0))
    (hrand _ _) rfl rfl (fun _ _ => ⟨by decide, by decide⟩) (fun _ => by decide) [0, 4] ⟨demoTets, [true, true], [0, 1]⟩ alpha_quiet
    4 (by simp) (by simp [Spec.Passes, bipyramid])
  obtain ⟨w, hw, h⟩ := hF F le_rfl
  have ho : (1 : M3 ℝ).mulVec w = w := M3.mulVec_one _
  obtain ⟨R, hR, -⟩ := C45_aligns_partial ((1 : M3 ℝ).mulVec w) w (by rw [ho]; exact hw) hw
    (.inl ⟨1, one_pos, by rw [ho]; ext <;> simp⟩)
  obtain ⟨res, h1, -⟩ := h ⟨[⟨0, 0, 0⟩, ⟨1, 0, 0⟩, ⟨0, 1, 0⟩], [8, 1, 1], 0, 1, false, none, some 0, true⟩ (.int 0) 0 2 1 w R rfl rfl (by simp) hR
  refine ⟨demoNp, fun _ => demoTets, w, F, ⟨(0 : ℕ), fun _ => (0 : ℕ)⟩, ⟨(1 : ℕ), fun _ => (0 : ℕ)⟩, ⟨res, ?_⟩, ?_⟩
  · have hz : globalNoise demoNp 5 (0 : ℕ) = (List.replicate 5 0, List.replicate 5 0, (0 : ℕ)) := by
      unfold globalNoise
      simp only [demoNp]
      rw [if_neg (by norm_num), smul_zeros, smul_zeros]
    show Out.placed _ = _
    rw [← h1]
    simp only [pickSeed, Bool.false_eq_true, if_false]
    show Out.placed (Ads.addAdsorbate _ _ _ _ _ _ _ _ _ _ _ _ (adsRand demoNp 5 false 7 (globalNoise demoNp 5 (0 : ℕ)).1
      (globalNoise demoNp 5 (0 : ℕ)).2.1) _) = _
    rw [hz]
  · have hz : globalNoise demoNp 5 (1 : ℕ) = (demoNoise.map ((1 / 10 ^ 4 : ℝ) • ·), List.replicate 5 0, (0 : ℕ)) := by
      unfold globalNoise
      simp only [demoNp]
      rw [if_pos trivial, if_neg (by norm_num), smul_zeros]
    simp only [demoCall, exec, pickSeed, Bool.false_eq_true, if_false]
    show Out.placed (Ads.addAdsorbate _ _ _ _ _ _ _ _ _ _ _ _ (adsRand demoNp 5 false 7 (globalNoise demoNp 5 (1 : ℕ)).1
      (globalNoise demoNp 5 (1 : ℕ)).2.1) _) = _
    rw [hz]
    congr 1
    unfold Ads.addAdsorbate
    rw [if_neg (by simp), show (adsRand demoNp 5 false 7 (demoNoise.map ((1 / 10 ^ 4 : ℝ) • ·)) (List.replicate 5 0)).noise1 =
      demoNoise.map ((1 / 10 ^ 4 : ℝ) • ·) from rfl, show (adsRand demoNp 5 false 7 (demoNoise.map ((1 / 10 ^ 4 : ℝ) • ·))
      (List.replicate 5 0)).noise2 = List.replicate 5 0 from rfl, alpha_moved]
    rfl

/-- Two seeded calls around one that draws from the global generator. -/
example (pts : List (V3 ℝ)) (st fresh : St demoNp) (del : List (V3 ℝ) → List Tet) :
    (run demoNp del ([.alpha pts 2] ++ .splits 2 2 20 (some 5) 10 :: [.alpha pts 3]) st).1 =
      (run demoNp del [.alpha pts 2] st).1 ++ (run demoNp del [.splits 2 2 20 (some 5) 10] fresh).1 ++
        (run demoNp del [.alpha pts 3] (run demoNp del [.alpha pts 2] st).2).1 :=
  (C126_programs demoNp del _ _ _ (by simp [SeedGiven]) st fresh).1

end Seeds
end CZ
