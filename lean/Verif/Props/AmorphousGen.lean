import Verif.Props.Amorphous
import Verif.Props.Volume
import Verif.Props.Rdf

/-!
# Property C63: the AmorphousGenerator
-/

namespace CZ
open Spec

noncomputable section

/-- The default `density` of `gen_p_substrate` (amorphous_algorithms.py:74). -/
def defaultDensity : ℝ := 1103075 / 10 ^ 7

/-- The call `gen_p_substrate(dims, min_dist)` returns, and its result is what `env` says; `stream` are the random numbers of
`default_rng(seed=0)`, the same in every call. -/
def SubstrateReturns (env : Env) (stream : ℕ → V3 ℝ) (dims : V3 ℝ) (m : ℝ) : Prop :=
  ∃ fuel, Amo.genPSubstrate dims m defaultDensity stream fuel = some (.ok (env.substrate dims m))

/-- **C63 (cache).** With `use_old_result` set and a previous result, that result is returned for every box, and nothing changes. -/
theorem C63_cached (env : Env) (n : ℕ) (a : Amorph) (b : BBox) (r : List (V3 ℝ) × List ℤ) (hu : a.useOld = true) (ho : a.old = some r) :
    GenObj.supply env n (.amorphous a) b = (.amorphous a, .ok r) := by
  unfold GenObj.supply
  simp only [hu, ho]

/-- Lower corner and extent of the box spanned by points. -/
def IsBox (ps : List (V3 ℝ)) (lo dims : V3 ℝ) : Prop :=
  IsLeast {t | ∃ p ∈ ps, t = p.x} lo.x ∧ IsLeast {t | ∃ p ∈ ps, t = p.y} lo.y ∧ IsLeast {t | ∃ p ∈ ps, t = p.z} lo.z ∧
    IsGreatest {t | ∃ p ∈ ps, t = p.x} (lo.x + dims.x) ∧ IsGreatest {t | ∃ p ∈ ps, t = p.y} (lo.y + dims.y) ∧
    IsGreatest {t | ∃ p ∈ ps, t = p.z} (lo.z + dims.z)

theorem minV_eq (p : V3 ℝ) (ps : List (V3 ℝ)) : Voxel.minV p ps = Rdf.minV p ps ∧ Voxel.maxV p ps = Rdf.maxV p ps := by
  induction ps generalizing p with
  | nil => exact ⟨rfl, rfl⟩
  | cons q ps ih => exact ⟨(ih ⟨min p.x q.x, min p.y q.y, min p.z q.z⟩).1, (ih ⟨max p.x q.x, max p.y q.y, max p.z q.z⟩).2⟩

theorem boxDims_spec (ps : List (V3 ℝ)) (lo dims : V3 ℝ) (h : IsBox ps lo dims) : GenObj.boxDims ps = .ok dims := by
  obtain ⟨x0, y0, z0, x1, y1, z1⟩ := h
  cases ps with
  | nil => obtain ⟨⟨p, hp, -⟩, -⟩ := x0; cases hp
  | cons p ps =>
    obtain ⟨a1, ⟨a2, a2m, a2e⟩, ⟨a3, a3m, a3e⟩, ⟨a4, a4m, a4e⟩⟩ := Rdf.minV_spec p ps
    obtain ⟨b1, ⟨b2, b2m, b2e⟩, ⟨b3, b3m, b3e⟩, ⟨b4, b4m, b4e⟩⟩ := Rdf.maxV_spec p ps
    obtain ⟨emin, emax⟩ := minV_eq p ps
    have ux : (Rdf.minV p ps).x = lo.x := (IsLeast.unique (s := {t | ∃ q ∈ p :: ps, t = q.x})
      ⟨⟨a2, a2m, a2e⟩, by rintro t ⟨q, hq, rfl⟩; exact (a1 q hq).1⟩ x0)
    have uy : (Rdf.minV p ps).y = lo.y := (IsLeast.unique (s := {t | ∃ q ∈ p :: ps, t = q.y})
      ⟨⟨a3, a3m, a3e⟩, by rintro t ⟨q, hq, rfl⟩; exact (a1 q hq).2.1⟩ y0)
    have uz : (Rdf.minV p ps).z = lo.z := (IsLeast.unique (s := {t | ∃ q ∈ p :: ps, t = q.z})
      ⟨⟨a4, a4m, a4e⟩, by rintro t ⟨q, hq, rfl⟩; exact (a1 q hq).2.2⟩ z0)
    have vx : (Rdf.maxV p ps).x = lo.x + dims.x := (IsGreatest.unique (s := {t | ∃ q ∈ p :: ps, t = q.x})
      ⟨⟨b2, b2m, b2e⟩, by rintro t ⟨q, hq, rfl⟩; exact (b1 q hq).1⟩ x1)
    have vy : (Rdf.maxV p ps).y = lo.y + dims.y := (IsGreatest.unique (s := {t | ∃ q ∈ p :: ps, t = q.y})
      ⟨⟨b3, b3m, b3e⟩, by rintro t ⟨q, hq, rfl⟩; exact (b1 q hq).2.1⟩ y1)
    have vz : (Rdf.maxV p ps).z = lo.z + dims.z := (IsGreatest.unique (s := {t | ∃ q ∈ p :: ps, t = q.z})
      ⟨⟨b4, b4m, b4e⟩, by rintro t ⟨q, hq, rfl⟩; exact (b1 q hq).2.2⟩ z1)
    unfold GenObj.boxDims
    simp only
    rw [emin, emax]
    congr 1
    ext
    · rw [V3.sub_x, ux, vx]; ring
    · rw [V3.sub_y, uy, vy]; ring
    · rw [V3.sub_z, uz, vz]; ring

theorem IsBox.nonneg {ps : List (V3 ℝ)} {lo dims : V3 ℝ} (h : IsBox ps lo dims) : 0 ≤ dims.x ∧ 0 ≤ dims.y ∧ 0 ≤ dims.z := by
  obtain ⟨x0, y0, z0, x1, y1, z1⟩ := h
  have hx := x0.2 x1.1
  have hy := y0.2 y1.1
  have hz := z0.2 z1.1
  exact ⟨by linarith, by linarith, by linarith⟩

theorem supply_fresh (env : Env) (n : ℕ) (a : Amorph) (hu : a.useOld = false ∨ a.old = none) (ps : List (V3 ℝ)) (lo dims : V3 ℝ)
    (hb : IsBox ps lo dims) : GenObj.supply env n (.amorphous a) (.rows ps) =
      (.amorphous { a with old := some (env.substrate dims a.minDist, List.replicate (env.substrate dims a.minDist).length a.species) },
        .ok (env.substrate dims a.minDist, List.replicate (env.substrate dims a.minDist).length a.species)) := by
  unfold GenObj.supply
  rcases hu with h | h
  · simp only [h, boxDims_spec ps lo dims hb]
  · cases hu : a.useOld <;> simp only [hu, h, boxDims_spec ps lo dims hb]

/-- **C63 (fresh block, partial).** Otherwise a new block is generated and remembered: its atoms are of the generator's species, at
least its `min_dist` apart, lie in [0, dims) for the extent dims of the box, and number volume · 0.1103075, rounded.  Missing:
the atoms should number volume · density and lie in the box; both are false (`C63_density_refuted`, `C63_box_refuted`). -/
theorem C63_fresh_partial (env : Env) (stream : ℕ → V3 ℝ) (hstream : ∀ k, Amo.Unit (stream k)) (n : ℕ) (a : Amorph) (hm : 0 < a.minDist)
    (hu : a.useOld = false ∨ a.old = none) (ps : List (V3 ℝ)) (lo dims : V3 ℝ) (hb : IsBox ps lo dims)
    (hr : SubstrateReturns env stream dims a.minDist) :
    ∃ cs ss, GenObj.supply env n (.amorphous a) (.rows ps) = (.amorphous { a with old := some (cs, ss) }, .ok (cs, ss)) ∧
      ss.length = cs.length ∧ (∀ s ∈ ss, s = a.species) ∧ Apart a.minDist cs ∧ (∀ p ∈ cs, InBox dims p) ∧
      |(cs.length : ℝ) - dims.x * dims.y * dims.z * defaultDensity| ≤ 1 / 2 := by
  obtain ⟨fuel, hf⟩ := hr
  obtain ⟨h1, h2, h3⟩ := (Amo.C60_separation dims a.minDist defaultDensity stream hm hb.nonneg (by unfold defaultDensity; norm_num)
    hstream fuel).2 _ hf
  exact ⟨_, _, supply_fresh env n a hu ps lo dims hb, by simp, fun s hs => (List.mem_replicate.mp hs).2, h1, h2, h3⟩

/-- **C63, finding.** The density of the generator has no influence on the atoms. -/
theorem C63_density_refuted (env : Env) (n : ℕ) (a : Amorph) (d : ℝ) (b : BBox) :
    (GenObj.supply env n (.amorphous { a with density := d }) b).2 = (GenObj.supply env n (.amorphous a) b).2 := by
  unfold GenObj.supply
  obtain ⟨o, dn, m, sp, u, old⟩ := a
  cases u <;> cases old <;> simp only <;> split <;> rfl

/-- **C63, finding.** For a box whose distance from the origin along x is at least its extent, no returned atom lies in it (nor does
the origin of the generator matter). -/
theorem C63_box_refuted (env : Env) (stream : ℕ → V3 ℝ) (hstream : ∀ k, Amo.Unit (stream k)) (n : ℕ) (a : Amorph) (hm : 0 < a.minDist)
    (hu : a.useOld = false ∨ a.old = none) (ps : List (V3 ℝ)) (lo dims : V3 ℝ) (hb : IsBox ps lo dims) (hfar : dims.x ≤ lo.x)
    (hr : SubstrateReturns env stream dims a.minDist) (g : GenObj) (cs : List (V3 ℝ)) (ss : List ℤ)
    (h : GenObj.supply env n (.amorphous a) (.rows ps) = (g, .ok (cs, ss))) : ∀ p ∈ cs, p.x < lo.x := by
  obtain ⟨cs', ss', h', -, -, -, hbox, -⟩ := C63_fresh_partial env stream hstream n a hm hu ps lo dims hb hr
  rw [h'] at h
  obtain ⟨-, h⟩ := Prod.mk.inj h
  obtain ⟨rfl, -⟩ := Prod.mk.inj (Except.ok.inj h)
  exact fun p hp => (hbox p hp).1.2.trans_le hfar

/-- **C63 (repetition).** Two boxes of the same extents receive the same atoms, wherever the boxes are, whatever was asked before and
whichever generator of the same `min_dist` and species is asked (without reuse of an old result). -/
theorem C63_repeats (env : Env) (n m : ℕ) (a a' : Amorph) (hu : a.useOld = false ∨ a.old = none) (hu' : a'.useOld = false ∨ a'.old = none)
    (hd : a'.minDist = a.minDist) (hs : a'.species = a.species) (ps ps' : List (V3 ℝ)) (lo lo' dims : V3 ℝ) (hb : IsBox ps lo dims)
    (hb' : IsBox ps' lo' dims) :
    (GenObj.supply env m (.amorphous a') (.rows ps')).2 = (GenObj.supply env n (.amorphous a) (.rows ps)).2 := by
  rw [supply_fresh env n a hu ps lo dims hb, supply_fresh env m a' hu' ps' lo' dims hb', hd, hs]

/-- Concrete case: a box of extent (2, 2, 3) at distance 10; the block has one atom, and it is not in the box. -/
example : ∃ env : Env, SubstrateReturns env (fun _ => 0) ⟨2, 2, 3⟩ 1 ∧ env.substrate ⟨2, 2, 3⟩ 1 = [0] ∧
    IsBox [⟨10, 0, 0⟩, ⟨12, 2, 3⟩] ⟨10, 0, 0⟩ ⟨2, 2, 3⟩ := by
  refine ⟨{ exactEnv with substrate := fun _ _ => [0] }, ⟨1, ?_⟩, rfl, ?_⟩
  · have hr : npRound ((2 : ℝ) * 2 * 3 * defaultDensity) = 1 := by
      have hf : ⌊(2 : ℝ) * 2 * 3 * defaultDensity⌋ = 1 := by
        rw [Int.floor_eq_iff]; unfold defaultDensity; norm_num
      unfold npRound
      rw [hf, if_pos (by unfold defaultDensity; norm_num)]
    unfold Amo.genPSubstrate
    simp only [hr]
    simp [Amo.loop, Amo.tryCoord, Amo.neighbours, Amo.block, Amo.scale, Amo.numBlocks, Amo.tuples, bind, Except.bind, pure,
      Except.pure]
    rfl
  · refine ⟨⟨⟨_, by simp, rfl⟩, ?_⟩, ⟨⟨⟨10, 0, 0⟩, by simp, rfl⟩, ?_⟩, ⟨⟨⟨10, 0, 0⟩, by simp, rfl⟩, ?_⟩, ⟨⟨⟨12, 2, 3⟩, by simp, by norm_num⟩, ?_⟩,
      ⟨⟨⟨12, 2, 3⟩, by simp, by norm_num⟩, ?_⟩, ⟨⟨⟨12, 2, 3⟩, by simp, by norm_num⟩, ?_⟩⟩ <;>
    · rintro t ⟨q, hq, rfl⟩
      simp only [List.mem_cons, List.not_mem_nil, or_false] at hq
      rcases hq with rfl | rfl <;> norm_num

end
end CZ
