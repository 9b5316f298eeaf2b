import Verif.Props.PrefabCubic
import Verif.Props.Boundary

/-!
# Property C116: what the grains of a prefab carry

Structure, strain field and post-transformation of the generator are those of every grain; precedence numbers of the grains and of
the object returned.
-/

namespace CZ
open Spec

noncomputable section
open Classical

namespace Prefab

/-- Everything but the position and orientation of the cell agrees. -/
def SameRecipe (g g' : Gen ℝ) : Prop := g'.struct = g.struct ∧ g'.strain = g.strain ∧ g'.post = g.post

theorem SameRecipe.trans {a b c : Gen ℝ} (h1 : SameRecipe a b) (h2 : SameRecipe b c) : SameRecipe a c :=
  ⟨h2.1.trans h1.1, h2.2.1.trans h1.2.1, h2.2.2.trans h1.2.2⟩

theorem transform_rest {g g' : Gen ℝ} {t : Tr ℝ} (h : g.transform t = (g', .ok ())) : SameRecipe g g' := by
  unfold Gen.transform at h
  split at h
  · cases h
  split at h
  · cases h
  · cases h; exact ⟨rfl, rfl, rfl⟩

theorem fromGenerator_rest {g g' : Gen ℝ} {ts : List (Tr ℝ)} (h : g.fromGenerator ts = .ok g') : SameRecipe g g' := by
  induction ts generalizing g with
  | nil => cases h; exact ⟨rfl, rfl, rfl⟩
  | cons t ts ih =>
    unfold Gen.fromGenerator at h
    split at h
    · rename_i g1 hg1; exact (transform_rest hg1).trans (ih h)
    · cases h

theorem make_priority {env : Env} {pts : Option (List (V3 ℝ))} {as : List Alg} {pr : ℤ} {tol : ℝ} {w : Vol}
    (h : Vol.make env pts as none pr tol none = .ok w) : w.priority = pr := by
  have hf : ∀ (as : List Alg) (u : Vol), (as.foldl Vol.addAlg u).priority = u.priority := by
    intro as
    induction as with
    | nil => intro u; rfl
    | cons a as ih => intro u; rw [List.foldl_cons, ih]; rfl
  unfold Vol.make at h
  simp only [bind, Except.bind, pure, Except.pure] at h
  split at h
  · cases h; rw [hf]
  · split at h
    · cases h; rw [hf]
    · cases h

/-- A copy with a crystal generator holds that generator and keeps the precedence number. -/
theorem copy_gen {env : Env} {v w : Vol} {g : Gen ℝ} (h : v.fromVolume env (some (some (.crystal g))) [] = .ok w) :
    w.gen = some (.crystal g) ∧ w.priority = v.priority := by
  unfold Vol.fromVolume at h
  cases hp : v.points with
  | none =>
    simp only [hp, bind, Except.bind, pure, Except.pure, Option.getD_some, Vol.addGenerator, Vol.transformAll] at h
    cases hw : Vol.make env none v.algs none v.priority (1 / 10 ^ 10) none with
    | error e => rw [hw] at h; cases h
    | ok w0 => rw [hw] at h; cases h; exact ⟨rfl, (show w0.priority = v.priority from make_priority hw)⟩
  | some a =>
    cases a with
    | arr ps =>
      simp only [hp, bind, Except.bind, pure, Except.pure, Option.getD_some, Vol.addGenerator, Vol.transformAll] at h
      cases hw : Vol.make env (some ps) v.algs none v.priority (1 / 10 ^ 10) none with
      | error e => rw [hw] at h; cases h
      | ok w0 => rw [hw] at h; cases h; exact ⟨rfl, (show w0.priority = v.priority from make_priority hw)⟩
    | _ => rw [hp] at h; cases h

theorem assemble_rest {env : Env} {g : Gen ℝ} {vol : Vol} {N : ℤ} {planes : List Plane} {splits : List ℤ}
    {defect : ℕ → Py Plane → Gen ℝ → ℤ → Py (Tr ℝ × ℤ × Bool)} {st : State} (h : assemble env g vol N planes splits defect = .ok st) :
    ∃ ws : ℕ → Vol, st.vols = (List.range (N.toNat + 1)).map (fun k => .vol (ws k)) ∧
      ∀ k, k ≤ N.toNat → (ws k).priority = N - k ∧ ∃ g', (ws k).gen = some (.crystal g') ∧ SameRecipe g g' := by
  obtain ⟨gs, ss, ts, bs, ws, w0, -, -, h1, -, h3, h4, h5, h6⟩ := assemble_spec h
  have hs : ∀ k, k ≤ N.toNat → SameRecipe g (gs k) := by
    intro k
    induction k with
    | zero => intro _; rw [h1]; exact ⟨rfl, rfl, rfl⟩
    | succ k ih => intro hk; exact (ih (by omega)).trans (fromGenerator_rest (h6 k (by omega)).gen)
  refine ⟨ws, h5, fun k hk => ?_⟩
  cases k with
  | zero => rw [h4]; exact ⟨by simp, g, (copy_gen h3).1, ⟨rfl, rfl, rfl⟩⟩
  | succ k =>
    obtain ⟨w, p, q, e1, -, -, e4⟩ := (h6 k (by omega)).vol
    rw [e4]
    exact ⟨by push_cast; rfl, gs (k + 1), (copy_gen e1).1, hs (k + 1) hk⟩

theorem fcc_assembled {env : Env} {p : Fcc} {g : Gen ℝ} (hg : p.gen = some g) {split : ℕ → ℕ} {fuel : ℕ} {rand : ℕ → ℝ} {t : VTree} {tw sf : Bool}
    (h : p.build env split fuel rand = some (.ok (t, tw, sf))) :
    ∃ v planes xs defect st, p.vol = some (.vol v) ∧ assemble env g v p.N planes xs defect = .ok st ∧ t = .multi st.vols 0 none ∧
      tw = st.twin ∧ sf = st.fault := by
  unfold Fcc.build at h
  simp only [hg] at h
  split at h
  · cases h
  split at h
  · cases h
  split at h
  · cases h
  rename_i w planes hc
  split at h
  · cases h
  · cases h
  rename_i xs hsplit
  obtain ⟨e0, -⟩ := candidates_spec hc
  cases ha : assemble env g w p.N planes xs.reverse (fun i => fccDefect p.plane p.ratio (rand i)) with
  | error e => rw [ha] at h; cases h
  | ok st => rw [ha] at h; cases h; exact ⟨w, planes, _, _, st, e0, ha, rfl, rfl, rfl⟩

theorem wurtzite_assembled {env : Env} {p : Wurtzite} {g : Gen ℝ} (hg : p.gen = some g) {split : ℕ → ℕ} {fuel : ℕ} {t : VTree}
    (h : p.build env split fuel = some (.ok t)) :
    ∃ v planes xs defect st, p.vol = some (.vol v) ∧ assemble env g v p.N planes xs defect = .ok st ∧ t = .multi st.vols 0 none := by
  unfold Wurtzite.build at h
  simp only [hg] at h
  split at h
  · cases h
  rename_i x hx
  split at h
  · cases h
  split at h
  · cases h
  split at h
  · cases h
  rename_i w planes hc
  split at h
  · cases h
  · cases h
  rename_i xs hsplit
  obtain ⟨e0, -⟩ := candidates_spec hc
  cases ha : assemble env g w p.N planes xs.reverse (fun _ => wurtziteDefect (((1 / 2 : ℝ) • x.sbases).mulVec ⟨0, 0, -1⟩)) with
  | error e => rw [ha] at h; cases h
  | ok st => rw [ha] at h; cases h; exact ⟨w, planes, _, _, st, e0, ha, rfl⟩

/-- The grains of `t`: `N + 1` Volumes with precedence numbers `N, N - 1, …, 0`, each with the recipe of `g`, in a MultiVolume of
precedence 0. -/
def GrainsOf (g : Gen ℝ) (N : ℤ) (t : VTree) : Prop :=
  ∃ ws : ℕ → Vol, t = .multi ((List.range (N.toNat + 1)).map fun k => .vol (ws k)) 0 none ∧
    ∀ k, k ≤ N.toNat → (ws k).priority = N - k ∧ ∃ g', (ws k).gen = some (.crystal g') ∧ SameRecipe g g'

/-- **C116 (fcc).** Every grain has structure, strain field and post-transformation of the given generator, for every volume,
every run and every number of defects. -/
theorem C116_fcc (env : Env) (p : Fcc) (g : Gen ℝ) (hg : p.gen = some g) (split : ℕ → ℕ) (fuel : ℕ) (rand : ℕ → ℝ) (t : VTree) (tw sf : Bool)
    (h : p.build env split fuel rand = some (.ok (t, tw, sf))) : GrainsOf g p.N t := by
  obtain ⟨v, planes, xs, defect, st, -, ha, rfl, -⟩ := fcc_assembled hg h
  obtain ⟨ws, h1, h2⟩ := assemble_rest ha
  exact ⟨ws, by rw [h1], h2⟩

/-- **C116 (wurtzite).** The same for wurtziteStackingFault. -/
theorem C116_wurtzite (env : Env) (p : Wurtzite) (g : Gen ℝ) (hg : p.gen = some g) (split : ℕ → ℕ) (fuel : ℕ) (t : VTree)
    (h : p.build env split fuel = some (.ok t)) : GrainsOf g p.N t := by
  obtain ⟨v, planes, xs, defect, st, -, ha, rfl⟩ := wurtzite_assembled hg h
  obtain ⟨ws, h1, h2⟩ := assemble_rest ha
  exact ⟨ws, by rw [h1], h2⟩

/-- **C116 (grain boundaries).** Both grains have structure, strain field and post-transformation of the given generator; the first
one has the precedence number of the volume, the second one the next one. -/
theorem C116_boundary (env : Env) (b : Boundary) (g : Gen ℝ) (v : Vol) (hg : b.gen = some (.crystal g)) (hv : b.vol = some (.vol v)) (t : VTree)
    (h : b.build env = .ok t) :
    ∃ w1 w2 g1 g2, t = .multi [.vol w1, .vol w2] 0 none ∧ w1.priority = v.priority ∧ w2.priority = v.priority + 1 ∧
      w1.gen = some (.crystal g1) ∧ w2.gen = some (.crystal g2) ∧ SameRecipe g g1 ∧ SameRecipe g g2 := by
  unfold Boundary.build at h
  simp only [hg, hv] at h
  split at h
  · cases h
  simp only [bind, Except.bind] at h
  iterate 4 (split at h; · cases h)
  rename_i g1 h1 _ g2 h2
  simp only [VTree.fromVolume] at h
  cases e1 : v.fromVolume env (some (some (.crystal g1))) [] with
  | error e => rw [e1] at h; cases h
  | ok w1 =>
    cases e2 : v.fromVolume env (some (some (.crystal g2))) [] with
    | error e =>
      rw [e1, e2] at h
      simp only [Except.map] at h
      split at h <;> cases h
    | ok w2 =>
      rw [e1, e2] at h
      simp only [Except.map] at h
      cases hp : b.plane with
      | other => rw [hp] at h; cases h
      | plane pl =>
        rw [hp] at h
        cases h
        exact ⟨_, _, g1, g2, rfl, (copy_gen e1).2, congrArg (· + 1) (copy_gen e2).2, (copy_gen e1).1, (copy_gen e2).1,
          fromGenerator_rest h1, fromGenerator_rest h2⟩

/-- **C116 (no defects).** When no defect is requested (N not positive), the result is one grain: the given volume filled with the
given generator, whose number is N. -/
theorem C116_no_defects (env : Env) (p : Fcc) (g : Gen ℝ) (v : Vol) (hg : p.gen = some g) (hv : p.vol = some (.vol v)) (hi : Intact env v)
    (hN : p.N ≤ 0) (split : ℕ → ℕ) (fuel : ℕ) (rand : ℕ → ℝ) (t : VTree) (tw sf : Bool)
    (h : p.build env split fuel rand = some (.ok (t, tw, sf))) :
    tw = false ∧ sf = false ∧ ∃ w, t = .multi [.vol w] 0 none ∧ w.priority = p.N ∧ w.gen = some (.crystal g) ∧
      ∀ q, Inside env (.vol w) q ↔ Inside env (.vol v) q := by
  obtain ⟨v', planes, xs, defect, st, hv', ha, rfl, rfl, rfl⟩ := fcc_assembled hg h
  rw [hv] at hv'
  cases hv'
  obtain ⟨gs, ss, ts, bs, ws, w0, ht, hf, -, -, h3, h4, h5, -⟩ := assemble_spec ha
  have hz : p.N.toNat = 0 := by omega
  refine ⟨?_, ?_, ws 0, ?_, by rw [h4], by rw [h4]; exact (copy_gen h3).1, fun q => ?_⟩
  · rw [← Bool.not_eq_true, ht, hz]; rintro ⟨j, hj, -⟩; omega
  · rw [← Bool.not_eq_true, hf, hz]; rintro ⟨j, hj, -⟩; omega
  · rw [h5, hz]; rfl
  · rw [h4, inside_priority]; exact (copy_spec hi h3).1 q

/-- **C116 (no defects, wurtzite).** The same for wurtziteStackingFault. -/
theorem C116_no_defects_wurtzite (env : Env) (p : Wurtzite) (g : Gen ℝ) (v : Vol) (hg : p.gen = some g) (hv : p.vol = some (.vol v))
    (hi : Intact env v) (hN : p.N ≤ 0) (split : ℕ → ℕ) (fuel : ℕ) (t : VTree) (h : p.build env split fuel = some (.ok t)) :
    ∃ w, t = .multi [.vol w] 0 none ∧ w.priority = p.N ∧ w.gen = some (.crystal g) ∧ ∀ q, Inside env (.vol w) q ↔ Inside env (.vol v) q := by
  obtain ⟨v', planes, xs, defect, st, hv', ha, rfl⟩ := wurtzite_assembled hg h
  rw [hv] at hv'
  cases hv'
  obtain ⟨gs, ss, ts, bs, ws, w0, -, -, -, -, h3, h4, h5, -⟩ := assemble_spec ha
  refine ⟨ws 0, ?_, by rw [h4], by rw [h4]; exact (copy_gen h3).1, fun q => ?_⟩
  · rw [h5, show p.N.toNat = 0 by omega]; rfl
  · rw [h4, inside_priority]; exact (copy_spec hi h3).1 q

/-- **C116, finding.** The precedence of the volume is lost: fccMixedTwinSF with a volume of precedence 5 returns an object of
precedence 0 (in a scene it displaces objects that the volume would have yielded to). -/
theorem C116_precedence_refuted (env : Env) : ∃ (p : Fcc) (v : Vol) (split : ℕ → ℕ) (fuel : ℕ), p.vol = some (.vol v) ∧ v.priority = 5 ∧
    ∀ rand, ∃ t tw sf, p.build env split fuel rand = some (.ok (t, tw, sf)) ∧ t.priority = 0 := by
  let v : Vol := { ball 0 10 with priority := 5 }
  obtain ⟨-, split, fuel, h⟩ := C90_fcc_returns_partial env ⟨some (unitGen 0), some (.vol v), 1 / 2, 2, 3, ⟨0, 0, 1⟩⟩ _ v _ _ _ rfl rfl
    (unit_regular 0) trivial ⟨rfl, .inl ⟨rfl, rfl⟩⟩ (by norm_num) (by norm_num) (unit_dir_e3 0) (-10) 10
    (.inr ⟨0, _, rfl, rfl, by norm_num, rfl⟩) (by
      rw [len_e3]
      norm_num [nonzeros])
  refine ⟨⟨some (unitGen 0), some (.vol v), 1 / 2, 2, 3, ⟨0, 0, 1⟩⟩, v, split, fuel, rfl, rfl, fun rand => ?_⟩
  obtain ⟨t, tw, sf, ht⟩ := h rand
  refine ⟨t, tw, sf, ht, ?_⟩
  obtain ⟨ws, rfl, -⟩ := C116_fcc env _ _ rfl _ _ _ _ _ _ ht
  rfl

/-- What `build_object` raises when the extent of the volume cannot be found: no volume or a MultiVolume, no points and no sphere or cylinder
(also when planes enclose a region), a single point, or no points at all. -/
def NoExtent : Option VTree → PyErr → Prop
  | none, e => e = .attribute
  | some (.multi _ _ _), e => e = .attribute
  | some (.vol v), e =>
    (v.points = none ∧ v.spheres = [] ∧ (3 < v.planes.length ∨ v.cylinders = []) ∧ e = .attribute) ∨
      ((∃ p, v.points = some (.single p)) ∧ e = .index) ∨ ((v.points = some (.arr []) ∨ v.points = some .cleared) ∧ e = .value)

theorem candidates_noExtent {env : Env} {g : Gen ℝ} {vol : Option VTree} {n : V3 ℝ} {h : V3 ℤ} {e : PyErr} (hv : NoExtent vol e) :
    candidates env g vol n h = .error e := by
  unfold candidates
  match vol, hv with
  | none, rfl => rfl
  | some (.multi _ _ _), rfl => rfl
  | some (.vol v), hv =>
    unfold Vol.boundingBox
    rcases hv with ⟨h1, h2, h3, rfl⟩ | ⟨⟨p, h1⟩, rfl⟩ | ⟨h1 | h1, rfl⟩
    · simp only [h1, h2]
      by_cases h4 : 3 < v.planes.length
      · rw [if_pos h4]; rfl
      · rw [if_neg h4]
        simp only [h3.resolve_left h4]; rfl
    · simp only [h1]; rfl
    · simp only [h1]; rfl
    · simp only [h1]; rfl

/-- **C90 (exceptions).** Without generator or voxel `build_object` raises AttributeError, and for volumes whose extent cannot be found the
exception of `NoExtent`; a singular cell raises LinAlgError in the wurtzite prefab. -/
theorem C90_exceptions (env : Env) (split : ℕ → ℕ) (fuel : ℕ) (rand : ℕ → ℝ) :
    (∀ p : Fcc, (∀ g, p.gen = some g → g.voxel = none) → p.build env split fuel rand = some (.error .attribute)) ∧
    (∀ p : Wurtzite, (∀ g, p.gen = some g → g.voxel = none) → p.build env split fuel = some (.error .attribute)) ∧
    (∀ (p : Fcc) (g : Gen ℝ) (x : Voxel ℝ) (e : PyErr), p.gen = some g → g.voxel = some x → cart x.bases 0 (millerV p.plane) ≠ 0 → NoExtent p.vol e →
      p.build env split fuel rand = some (.error e)) ∧
    (∀ (p : Wurtzite) (g : Gen ℝ) (x : Voxel ℝ), p.gen = some g → g.voxel = some x →
      (x.sbases.det = 0 → p.build env split fuel = some (.error .linAlg)) ∧
      (∀ e, x.sbases.det ≠ 0 → NoExtent p.vol e → p.build env split fuel = some (.error e))) := by
  refine ⟨fun p hp => ?_, fun p hp => ?_, fun p g x e hg hx hn hv => ?_, fun p g x hg hx => ⟨fun hd => ?_, fun e hd hv => ?_⟩⟩
  · unfold Fcc.build
    cases hg : p.gen with
    | none => rfl
    | some g => simp only [hp g hg]
  · unfold Wurtzite.build
    cases hg : p.gen with
    | none => rfl
    | some g => simp only [hp g hg]
  · unfold Fcc.build
    simp only [hg, hx, unitOrNan]
    rw [if_neg (by rw [norm3_eq_zero]; rw [cart_eq] at hn; intro h0; apply hn; rw [h0]; ext <;> simp)]
    simp only [candidates_noExtent hv]
  · unfold Wurtzite.build
    simp only [hg, hx, Voxel.reciprocalBases, M3.inv, hd, if_true]
  · have hR : ∃ R, x.reciprocalBases = .ok R ∧ R.mulVec (millerV ⟨0, 0, 2⟩) ≠ 0 := by
      refine ⟨(x.sbases.det)⁻¹ • x.sbases.adj, by simp only [Voxel.reciprocalBases, M3.inv, hd, if_false], fun h0 => ?_⟩
      have hi : x.sbases.inv = .ok ((x.sbases.det)⁻¹ • x.sbases.adj) := by simp only [M3.inv, hd, if_false]
      have h1 : (x.sbases * ((x.sbases.det)⁻¹ • x.sbases.adj)).mulVec (millerV ⟨0, 0, 2⟩) = 0 := by
        rw [M3.mulVec_mul, h0]; ext <;> simp [M3.mulVec]
      rw [(M3.inv_mul _ _ hi).2, M3.mulVec_one] at h1
      simpa [millerV] using congrArg V3.z h1
    obtain ⟨R, hR, hn⟩ := hR
    unfold Wurtzite.build
    simp only [hg, hx, hR, unitOrNan]
    rw [if_neg (by rw [norm3_eq_zero]; exact hn)]
    simp only [candidates_noExtent hv]

theorem candidates_noStructure {env : Env} {g : Gen ℝ} {x : Voxel ℝ} {v : Vol} {q : V3 ℝ} {qs : List (V3 ℝ)} {h : V3 ℤ} {r : V3 ℝ} (n : V3 ℝ)
    (hx : g.voxel = some x) (hst : g.struct = none) (hs : g.strain = none) (hd : x.sbases.det ≠ 0) (hg : IsReciprocal x.sbases h r)
    (hlen : machEps < norm3 r) (hv : v.points = some (.arr (q :: qs))) : candidates env g (some (.vol v)) n h = .error .attribute := by
  have hsnap : ∀ (point : V3 ℝ) (mode : String), (mode = "nearest" ∨ mode = "ceil" ∨ mode = "floor") → ∃ p, snapPlane point g h mode = .ok p := by
    intro point mode hm
    obtain ⟨p, hp, -⟩ := snap_spec hx hs hd hg hlen mode hm ((x.sbases.det)⁻¹ • x.sbases.adj.mulVec point)
    refine ⟨p, ?_⟩
    rwa [cart_eq, add_zero, M3.mulVec_smul, M3.mulVec_adj_mulVec, smul_smul, inv_mul_cancel₀ hd, one_smul] at hp
  unfold candidates Vol.boundingBox
  simp only [hv, boxSpan, bind, Except.bind]
  obtain ⟨p1, h1⟩ := hsnap (sphereSpan n v.algs (rowMin (n.dot ·) q qs, rowMax (n.dot ·) q qs)).1 "floor" (by simp)
  obtain ⟨p2, h2⟩ := hsnap (sphereSpan n v.algs (rowMin (n.dot ·) q qs, rowMax (n.dot ·) q qs)).2 "ceil" (by simp)
  simp only [h1, h2, hst]

/-- **C90 (no structure).** A generator to which a voxel was given but no structure: the builders raise AttributeError for a body that has an extent. -/
theorem C90_no_structure (env : Env) (split : ℕ → ℕ) (fuel : ℕ) (rand : ℕ → ℝ) (g : Gen ℝ) (x : Voxel ℝ) (v : Vol) (q : V3 ℝ) (qs : List (V3 ℝ)) (r : V3 ℝ)
    (hx : g.voxel = some x) (hst : g.struct = none) (hs : g.strain = none) (hd : x.sbases.det ≠ 0) (hlen : machEps < norm3 r)
    (hv : v.points = some (.arr (q :: qs))) :
    (∀ p : Fcc, p.gen = some g → p.vol = some (.vol v) → IsReciprocal x.sbases p.plane r → cart x.bases 0 (millerV p.plane) ≠ 0 →
      p.build env split fuel rand = some (.error .attribute)) ∧
    (∀ p : Wurtzite, p.gen = some g → p.vol = some (.vol v) → IsReciprocal x.sbases ⟨0, 0, 2⟩ r →
      p.build env split fuel = some (.error .attribute)) := by
  refine ⟨fun p hg hp hr hn => ?_, fun p hg hp hr => ?_⟩
  · unfold Fcc.build
    simp only [hg, hx, unitOrNan]
    rw [if_neg (by rw [norm3_eq_zero]; rw [cart_eq] at hn; intro h0; apply hn; rw [h0]; ext <;> simp)]
    simp only [hp, candidates_noStructure _ hx hst hs hd hr hlen hv]
  · have hR : ∃ R, x.reciprocalBases = .ok R ∧ R.mulVec (millerV ⟨0, 0, 2⟩) ≠ 0 := by
      refine ⟨(x.sbases.det)⁻¹ • x.sbases.adj, by simp only [Voxel.reciprocalBases, M3.inv, hd, if_false], fun h0 => ?_⟩
      have hi : x.sbases.inv = .ok ((x.sbases.det)⁻¹ • x.sbases.adj) := by simp only [M3.inv, hd, if_false]
      have h1 : (x.sbases * ((x.sbases.det)⁻¹ • x.sbases.adj)).mulVec (millerV ⟨0, 0, 2⟩) = 0 := by
        rw [M3.mulVec_mul, h0]; ext <;> simp [M3.mulVec]
      rw [(M3.inv_mul _ _ hi).2, M3.mulVec_one] at h1
      simpa [millerV] using congrArg V3.z h1
    obtain ⟨R, hR, hn⟩ := hR
    unfold Wurtzite.build
    simp only [hg, hx, hR, unitOrNan]
    rw [if_neg (by rw [norm3_eq_zero]; exact hn)]
    simp only [hp, candidates_noStructure _ hx hst hs hd hr hlen hv]

/-- Concrete case: a unit cell given as voxel only, a body with points. -/
example (env : Env) (split : ℕ → ℕ) (fuel : ℕ) (rand : ℕ → ℝ) (v : Vol) (q : V3 ℝ) (qs : List (V3 ℝ)) (hv : v.points = some (.arr (q :: qs))) :
    (⟨some { unitGen 0 with struct := none }, some (.vol v), 1 / 2, 2, 3, ⟨0, 0, 1⟩⟩ : Fcc).build env split fuel rand = some (.error .attribute) :=
  have hu := unit_regular 0
  (C90_no_structure env split fuel rand { unitGen 0 with struct := none } _ v q qs ⟨0, 0, 1⟩ rfl rfl rfl hu.det (by rw [← len_eq]; exact hu.length) hv).1 _ rfl rfl hu.recip
    (by intro h; simpa [cart, millerV, M3.col2, M3.one_def] using congrArg V3.z h)

/-- A cube around the origin, given by six planes. -/
def planesCube (R : ℝ) : Vol := { ball 0 10 with algs := [.plane ⟨⟨1, 0, 0⟩, ⟨R, 0, 0⟩, 1 / 10 ^ 5⟩, .plane ⟨⟨-1, 0, 0⟩, ⟨-R, 0, 0⟩, 1 / 10 ^ 5⟩,
  .plane ⟨⟨0, 1, 0⟩, ⟨0, R, 0⟩, 1 / 10 ^ 5⟩, .plane ⟨⟨0, -1, 0⟩, ⟨0, -R, 0⟩, 1 / 10 ^ 5⟩,
  .plane ⟨⟨0, 0, 1⟩, ⟨0, 0, R⟩, 1 / 10 ^ 5⟩, .plane ⟨⟨0, 0, -1⟩, ⟨0, 0, -R⟩, 1 / 10 ^ 5⟩] }

/-- **C90, finding.** A body given by planes (as Wulff constructions give it) is refused with AttributeError, however much room it has: here a cube
containing every point with coordinates up to `R`. -/
theorem C90_planes_refuted (env : Env) (R : ℝ) (N m : ℤ) (split : ℕ → ℕ) (fuel : ℕ) (rand : ℕ → ℝ) :
    (∀ q : V3 ℝ, |q.x| ≤ R → |q.y| ≤ R → |q.z| ≤ R → Inside env (.vol (planesCube R)) q) ∧
    (⟨some (unitGen 0), some (.vol (planesCube R)), 1 / 2, N, m, ⟨0, 0, 1⟩⟩ : Fcc).build env split fuel rand = some (.error .attribute) ∧
    (⟨some (unitGen 0), some (.vol (planesCube R)), N, m⟩ : Wurtzite).build env split fuel = some (.error .attribute) := by
  have hE : NoExtent (some (.vol (planesCube R))) .attribute := .inl ⟨rfl, rfl, .inl (by show 3 < 6; norm_num), rfl⟩
  obtain ⟨-, -, h1, h2⟩ := C90_exceptions env split fuel rand
  refine ⟨fun q hx hy hz => ?_, h1 _ _ _ _ rfl rfl (by intro h; simpa [cart, millerV, M3.col2, M3.one_def] using congrArg V3.z h) hE,
    (h2 _ _ _ rfl rfl).2 _ (by
      show ((1 : ℝ) • (1 : M3 ℝ)).det ≠ 0
      rw [show (1 : ℝ) • (1 : M3 ℝ) = 1 by ext <;> simp [M3.smul_def], M3.det_one]
      norm_num) hE⟩
  rw [abs_le] at hx hy hz
  refine .vol _ _ (by simp [planesCube, ball]) fun a ha => ?_
  simp only [planesCube, List.mem_cons, List.not_mem_nil, or_false] at ha
  rcases ha with rfl | rfl | rfl | rfl | rfl | rfl <;> norm_num [Alg.interior, Plane.interior, Plane.sdist, V3.dot] <;> linarith

/-- Concrete case: four planes enclosing a tetrahedron, the way Wulff constructions give a body. -/
example (env : Env) (split : ℕ → ℕ) (fuel : ℕ) (rand : ℕ → ℝ) (a b c d : Plane) :
    (⟨some (unitGen 0), some (.vol { ball 0 10 with algs := [.plane a, .plane b, .plane c, .plane d] }), 1 / 2, 2, 3, ⟨0, 0, 1⟩⟩ : Fcc).build
      env split fuel rand = some (.error .attribute) :=
  (C90_exceptions env split fuel rand).2.2.1 _ _ _ _ rfl rfl (by intro h; simpa [cart, millerV, M3.col2, M3.one_def] using congrArg V3.z h)
    (.inl ⟨rfl, rfl, .inl (by show 3 < 4; norm_num), rfl⟩)

/-- Concrete case: two defects in a ball of radius 10. -/
example (env : Env) : ∃ split fuel, ∀ rand, ∃ t tw sf, (unitFcc 0 0 10 2 3).build env split fuel rand = some (.ok (t, tw, sf)) ∧
    GrainsOf (unitGen 0) 2 t := by
  obtain ⟨split, fuel, h⟩ := unit_returns env 0 0 (r := 10) (N := 2) (m := 3) (by norm_num) (by norm_num) (by norm_num) (by norm_num)
  refine ⟨split, fuel, fun rand => ?_⟩
  obtain ⟨t, tw, sf, ht⟩ := h rand
  exact ⟨t, tw, sf, ht, C116_fcc env _ _ rfl _ _ _ _ _ _ ht⟩

end Prefab
end
end CZ
