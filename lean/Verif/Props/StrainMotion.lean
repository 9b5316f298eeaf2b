import Verif.Props.Strain
import Verif.Props.VolumeFill

/-!
# Strained crystals that are moved (C17, C31) and that fill a region (C38)
-/

set_option linter.unusedSectionVars false

namespace CZ
open Spec

section
variable {K : Type} [Field K] [LinearOrder K] [IsStrictOrderedRing K]

/-- A sequence of substitutions does the same to the species wherever the atoms are. -/
theorem substitutions_blind (t : Post K) (h : OnlySubst t) (rng : ℕ → ℕ → ℕ → K) :
    ∀ (n : ℕ) (ps qs : List (V3 K)) (zs : List ℤ),
    (t.run rng n ps zs).1 = (t.run rng n qs zs).1 ∧ (t.run rng n ps zs).2.2 = (t.run rng n qs zs).2.2 := by
  induction h with
  | subst t s f =>
    intro n ps qs zs
    simp only [Post.run, and_self]
  | seq ts h ih =>
    intro n ps qs zs
    rw [Post.run, Post.run]
    clear h
    induction ts generalizing n ps qs zs with
    | nil => simp only [Post.runList, and_self]
    | cons t ts iht =>
      rw [Post.runList, Post.runList]
      obtain ⟨h1, h2⟩ := ih t List.mem_cons_self n ps qs zs
      simp only [h1, h2]
      exact iht (fun x hx => ih x (List.mem_cons_of_mem _ hx)) _ _ _ _

theorem scrape_scrape (s : HStrain K) (B B' : M3 K) (o o' : V3 K) : (s.scrape B o).scrape B' o' = s.scrape B' o' := by
  unfold HStrain.scrape
  by_cases hm : s.mode = "crystal" <;> cases hg : s.fromGenerator <;> simp [hm, hg]

/-- The strain of a moved crystal is the moved strain. -/
theorem applyPt_moved {st : HStrain K} {B L : M3 K} {o : V3 K} {f : V3 K → V3 K} (hd : B.det ≠ 0) (hL : L.det ≠ 0)
    (hf : ∀ p q, f p - f q = L.mulVec (p - q)) (hg : st.fromGenerator = true) (hm : st.mode = "crystal" ∨ L = 1) (p : V3 K) :
    (st.scrape (L * B) (f o)).applyPt (f p) = ((st.scrape B o).applyPt p).map f := by
  obtain ⟨m1, m2, m3, m4⟩ := scrape_fields st B o
  obtain ⟨n1, n2, n3, n4⟩ := scrape_fields st (L * B) (f o)
  rw [hg, if_pos rfl] at m4 n4
  have hfc : ∀ e, f (cart B o e) = cart (L * B) (f o) e := by
    intro e
    have := hf (cart B o e) o
    rw [sub_eq_iff_eq_add] at this
    rw [this, cart_eq, cart_eq, add_sub_cancel_right, M3.mulVec_mul]
  by_cases hc : st.mode = "crystal"
  · obtain ⟨e, rfl⟩ : ∃ e, p = cart B o e := by
      refine ⟨(B.det)⁻¹ • B.adj.mulVec (p - o), ?_⟩
      have := (M3.solve_iff B (p - o) _ hd).mp (M3.solve_ok _ _ hd)
      rw [cart_eq, this, sub_add_cancel]
    have h1 := C34_crystal_mode (st.scrape B o) B (m2.trans hc) (m3 hc) hd e
    have h2 := C34_crystal_mode (st.scrape (L * B) (f o)) (L * B) (n2.trans hc) (n3 hc)
      (by rw [M3.det_mul]; exact mul_ne_zero hL hd) e
    rw [m4] at h1
    rw [n4] at h2
    rw [hfc, h1, h2, m1, n1, Except.map, hfc]
  · have hL1 : L = 1 := hm.resolve_left hc
    subst hL1
    have hsh : ∀ q, f q = f o + (q - o) := by
      intro q
      have := hf q o
      rw [M3.mulVec_one, sub_eq_iff_eq_add] at this
      rw [this, add_comm]
    have h1 := C34_standard_mode (st.scrape B o) (by rw [m2]; exact hc) (p - o)
    have h2 := C34_standard_mode (st.scrape (1 * B) (f o)) (by rw [n2]; exact hc) (p - o)
    rw [m4, m1, add_sub_cancel] at h1
    rw [n4, n1] at h2
    rw [hsh p, h2, h1, Except.map, hsh (o + _), add_sub_cancel_left]

variable [FloorRing K]

/-- A strain field that moves with the generator: taken about the generator's origin, and given in crystal coordinates
unless the generator is only shifted. -/
def StrainMoves (g : Gen K) (shiftOnly : Prop) : Prop :=
  ∀ st, g.strain = some st → st.fromGenerator = true ∧ (st.mode = "crystal" ∨ shiftOnly)

theorem supply_covariant {g : Gen K} {v w : Voxel K} {L : M3 K} {f : V3 K → V3 K} (hv : g.voxel = some v)
    (hd : v.sbases.det ≠ 0) (hL : L.det ≠ 0) (hw : w.sbases = L * v.sbases) (ho : w.origin = f v.origin)
    (hf : ∀ p q, f p - f q = L.mulVec (p - q)) (hp : ∀ t, g.post = some t → OnlySubst t)
    (hst : StrainMoves g (L = 1)) (rng : ℕ → ℕ → ℕ → K) (bbox : List (V3 K)) :
    (Gen.supply rng { g with voxel := some w } (bbox.map f)).2 = (g.supply rng bbox).2.map fun out => (out.1.map f, out.2) := by
  have hext := getExtents_covariant (v := v) (w := w) hL hw ho hf bbox
  unfold Gen.supply
  simp only [hv, hext]
  cases he : v.getExtents bbox with
  | error e => rfl
  | ok r =>
    obtain ⟨lo, hi⟩ := r
    cases hs : g.struct with
    | none => rfl
    | some s =>
      simp only
      rw [Gen.rawAtoms_eq _ _ _ _ _ he, Gen.rawAtoms_eq _ _ _ _ _ (hext.trans he)]
      have hsite : ∀ n q, siteAt w.sbases w.origin n q = f (siteAt v.sbases v.origin n q) := by
        intro n q
        have := hf (siteAt v.sbases v.origin n q) v.origin
        rw [sub_eq_iff_eq_add] at this
        rw [this, siteAt_eq, siteAt_eq, hw, ho, M3.mulVec_mul, M3.mulVec_mul, add_sub_cancel_right, M3.mulVec_add]
      generalize hA : ((Gen.cells lo hi).flatMap fun n => s.sites.map fun q =>
        (⟨siteAt v.sbases v.origin n q.1, q.2⟩ : Atom K)) = A
      generalize hB : ((Gen.cells lo hi).flatMap fun n => s.sites.map fun q =>
        (⟨siteAt w.sbases w.origin n q.1, q.2⟩ : Atom K)) = B
      have hpos : B.map Atom.pos = (A.map Atom.pos).map f := by
        rw [← hA, ← hB]
        simp only [List.map_flatMap, List.map_map, Function.comp_def, hsite]
      have hZ : B.map Atom.Z = A.map Atom.Z := by
        rw [← hA, ← hB]
        simp only [List.map_flatMap, List.map_map, Function.comp_def]
      simp only [hpos, hZ]
      generalize A.map Atom.pos = ps
      generalize A.map Atom.Z = zs
      have hrun : ∀ t, g.post = some t → ∃ zs', (t.run rng 0 ps zs).2 = (ps, zs') ∧
          (t.run rng 0 (ps.map f) zs).2 = (ps.map f, zs') := by
        intro t hpo
        have h1 := C37_sequences_keep_atoms t (hp t hpo) rng 0
        obtain ⟨-, h2⟩ := substitutions_blind t (hp t hpo) rng 0 (ps.map f) ps zs
        exact ⟨_, Prod.ext (h1 ps zs).1 rfl, Prod.ext (h1 _ zs).1 h2⟩
      cases hstr : g.strain with
      | none => cases hpo : g.post with
        | none => rfl
        | some t =>
          obtain ⟨zs', e1, e2⟩ := hrun t hpo
          simp only [Except.map, e1, e2]
      | some st =>
        obtain ⟨hg, hm⟩ := hst st hstr
        obtain ⟨m1, m2, m3, m4⟩ := scrape_fields st v.sbases v.origin
        obtain ⟨n1, n2, n3, n4⟩ := scrape_fields st w.sbases w.origin
        have hdw : w.sbases.det ≠ 0 := by rw [hw, M3.det_mul]; exact mul_ne_zero hL hd
        have b1 : (st.scrape v.sbases v.origin).mode = "crystal" → ∃ B, (st.scrape v.sbases v.origin).bases = some B ∧ B.det ≠ 0 :=
          fun h => ⟨_, m3 (m2.symm.trans h), hd⟩
        have b2 : (st.scrape w.sbases w.origin).mode = "crystal" → ∃ B, (st.scrape w.sbases w.origin).bases = some B ∧ B.det ≠ 0 :=
          fun h => ⟨_, n3 (n2.symm.trans h), hdw⟩
        choose k hk using applyPt_ok _ b1
        choose l hl using applyPt_ok _ b2
        have hkl : ∀ p, l (f p) = f (k p) := by
          intro p
          have := applyPt_moved (st := st) (B := v.sbases) (o := v.origin) hd hL hf hg hm p
          rw [← hw, ← ho, hl, hk, Except.map] at this
          exact Except.ok.inj this
        simp only [apply_map _ _ b1 hk, apply_map _ _ b2 hl]
        cases hpo : g.post with
        | none => simp only [Except.map, List.map_map, Function.comp_def, hkl]
        | some t =>
          obtain ⟨zs', e1, e2⟩ := hrun t hpo
          simp only [Except.map, e1, e2, List.map_map, Function.comp_def, hkl]

/-- **C31 (strained and doped crystals, partial).** Transforming a generator by any composition of translations and invertible
matrix transformations (none of them marked basis_only) succeeds, and supplying atoms for the transformed box gives exactly
the transformed atoms in the same order with the same species.  The generator may carry chemical substitutions and a strain
field in crystal coordinates about its own origin.  Missing: strain fields in Cartesian coordinates or about a fixed point
(`C31_standard_strain_refuted`, `C31_global_strain_refuted`), voxels whose scale has shape (3,1) or (3,3), and arbitrary
post-transformations. -/
theorem C31_strained_partial (g : Gen K) (v : Voxel K) (hv : g.voxel = some v) (hp : ∀ t, g.post = some t → OnlySubst t)
    (hst : ∀ st, g.strain = some st → st.fromGenerator = true ∧ st.mode = "crystal")
    (hs : ColumnScale v.scale) (hd : v.sbases.det ≠ 0) (t : Tr K) (ht : InvertibleTr t) (hb : t.basisOnly = false) :
    ∃ g', g.transform t = (g', .ok ()) ∧ ∀ rng bbox,
      (g'.supply rng (bbox.map t.apply)).2 = (g.supply rng bbox).2.map fun out => (out.1.map t.apply, out.2) := by
  obtain ⟨L, hL, hLb, hLa⟩ := ht.linearPart
  have hset : Voxel.basesSet (t.bases v.bases) = .ok (L * v.bases) := by
    rw [hLb]; exact basesSet_of_det (by rw [M3.det_mul]; exact mul_ne_zero hL (bases_det_ne hs hd))
  refine ⟨{ g with voxel := some ⟨L * v.bases, v.scale, t.apply v.origin⟩ }, ?_, fun rng bbox => ?_⟩
  · unfold Gen.transform
    rw [hv]; simp only [hset, hb]; rfl
  · exact supply_covariant hv hd hL (sbases_mul hs L _) rfl hLa hp (fun st h => ⟨(hst st h).1, .inl (hst st h).2⟩) rng bbox

/-- **C31 (translations).** A translation moves the crystal for every form of the voxel scale and every strain field taken about
the generator's origin, in crystal or Cartesian coordinates. -/
theorem C31_translated (g : Gen K) (v : Voxel K) (hv : g.voxel = some v) (hp : ∀ t, g.post = some t → OnlySubst t)
    (hst : ∀ st, g.strain = some st → st.fromGenerator = true) (hB : v.bases.det ≠ 0) (hd : v.sbases.det ≠ 0)
    (s : V3 K) (locked : Bool) :
    ∃ g', g.transform (.translation s locked false) = (g', .ok ()) ∧ ∀ rng bbox,
      (g'.supply rng (bbox.map (· + s))).2 = (g.supply rng bbox).2.map fun out => (out.1.map (· + s), out.2) := by
  refine ⟨{ g with voxel := some ⟨v.bases, v.scale, v.origin + s⟩ }, ?_, fun rng bbox => ?_⟩
  · unfold Gen.transform
    rw [hv]
    simp only [Tr.bases, basesSet_of_det hB, Tr.basisOnly, Tr.apply]
    rfl
  · refine supply_covariant (L := 1) (f := (· + s)) hv hd (by rw [M3.det_one]; exact one_ne_zero) ?_ rfl ?_ hp
      (fun st h => ⟨hst st h, .inr rfl⟩) rng bbox
    · rw [M3.one_mul']
      rfl
    · intro p q
      rw [M3.mulVec_one, add_sub_add_right_eq_sub]

end

/-- Concrete case of C31 for strained crystals: a shear in crystal coordinates about the generator's origin, half of the atoms
replaced, turned about a point and shifted. -/
example : ∃ (g : Gen ℚ) (v : Voxel ℚ) (t : Tr ℚ), g.voxel = some v ∧ (∀ t, g.post = some t → OnlySubst t) ∧
    (∀ st, g.strain = some st → st.fromGenerator = true ∧ st.mode = "crystal") ∧ ColumnScale v.scale ∧ v.sbases.det ≠ 0 ∧
    InvertibleTr t ∧ t.basisOnly = false ∧
    (g.supply (fun _ _ i => if i = 0 then 0 else 1) [⟨0, 0, 0⟩, ⟨0, 2, 0⟩]).2 = .ok ([⟨0, 0, 0⟩, ⟨1/5, 2, 0⟩], [7, 6]) := by
  refine ⟨⟨some ⟨1, [(⟨0, 0, 0⟩, 6)]⟩, some ⟨1, .scalar 2, ⟨0, 0, 0⟩⟩,
      some ⟨⟨1, 0, 0, 1/10, 1, 0, 0, 0, 1⟩, "crystal", ⟨5, 5, 5⟩, true, none⟩, some (.seq [.subst [6] [7] (1/2)])⟩, _,
    .multi [.matrix .rotation ⟨0, -1, 0, 1, 0, 0, 0, 0, 1⟩ (some ⟨1, 2, 3⟩) true false, .translation ⟨1, 1, 1⟩ true false],
    rfl, ?_, ?_, trivial, by decide +kernel, ?_, rfl, ?_⟩
  · rintro t ⟨⟩
    refine .seq _ fun t ht => ?_
    simp only [List.mem_singleton] at ht
    subst ht
    exact .subst _ _ _
  · rintro st ⟨⟩
    exact ⟨rfl, rfl⟩
  · refine .multi _ fun t ht => ?_
    fin_cases ht
    · exact .matrix _ _ _ _ _ (by decide +kernel)
    · exact .translation _ _ _
  · decide +kernel

/-- **C31, finding.** A strain field in Cartesian coordinates (stretching x by 2) stays along x when the crystal is turned by a
quarter turn. -/
theorem C31_standard_strain_refuted :
    ¬ ∀ (g : Gen ℚ) (v : Voxel ℚ), g.voxel = some v → g.post = none →
      (∀ st, g.strain = some st → st.fromGenerator = true ∧ st.mode = "standard") → ColumnScale v.scale → v.sbases.det ≠ 0 →
      ∀ t : Tr ℚ, InvertibleTr t → t.basisOnly = false →
      ∃ g', g.transform t = (g', .ok ()) ∧ ∀ rng bbox,
        (g'.supply rng (bbox.map t.apply)).2 = (g.supply rng bbox).2.map fun out => (out.1.map t.apply, out.2) := by
  intro h
  let st : HStrain ℚ := ⟨⟨2, 0, 0, 0, 1, 0, 0, 0, 1⟩, "standard", 0, true, none⟩
  let v : Voxel ℚ := ⟨1, .scalar 1, 0⟩
  let g : Gen ℚ := ⟨some ⟨1, [(⟨0, 0, 0⟩, 6)]⟩, some v, some st, none⟩
  let t : Tr ℚ := .matrix .rotation ⟨0, -1, 0, 1, 0, 0, 0, 0, 1⟩ none true false
  obtain ⟨g', h1, h2⟩ := h g v rfl rfl (by rintro _ ⟨⟩; exact ⟨rfl, rfl⟩) trivial (by decide +kernel) t
    (.matrix _ _ _ _ _ (by decide +kernel)) rfl
  have h3 : g.transform t =
      (⟨some ⟨1, [(⟨0, 0, 0⟩, 6)]⟩, some ⟨⟨0, -1, 0, 1, 0, 0, 0, 0, 1⟩, .scalar 1, 0⟩, some st, none⟩, .ok ()) := by
    simp only [g, v, t, Gen.transform, Tr.bases, Tr.basisOnly, Tr.apply]
    rw [show ((⟨0, -1, 0, 1, 0, 0, 0, 0, 1⟩ : M3 ℚ) * 1) = ⟨0, -1, 0, 1, 0, 0, 0, 0, 1⟩ from by decide +kernel,
      show Voxel.basesSet (⟨0, -1, 0, 1, 0, 0, 0, 0, 1⟩ : M3 ℚ) = .ok ⟨0, -1, 0, 1, 0, 0, 0, 0, 1⟩ from by decide +kernel]
    have : Tr.matApply (⟨0, -1, 0, 1, 0, 0, 0, 0, 1⟩ : M3 ℚ) none 0 = 0 := by decide +kernel
    simp [this]
  rw [h1] at h3
  obtain rfl := (Prod.ext_iff.mp h3).1
  have ha : t.apply = Tr.matApply (⟨0, -1, 0, 1, 0, 0, 0, 0, 1⟩ : M3 ℚ) none := by
    funext p; simp only [t, Tr.apply]
  have h4 := h2 (fun _ _ _ => 0) [⟨0, 0, 0⟩, ⟨1, 0, 0⟩]
  rw [ha] at h4
  revert h4
  decide +kernel

/-- **C31, finding.** A strain field about a fixed point does not follow a generator that is shifted. -/
theorem C31_global_strain_refuted :
    ¬ ∀ (g : Gen ℚ) (v : Voxel ℚ), g.voxel = some v → g.post = none →
      (∀ st, g.strain = some st → st.mode = "crystal") → ColumnScale v.scale → v.sbases.det ≠ 0 →
      ∀ s : V3 ℚ, ∃ g', g.transform (.translation s true false) = (g', .ok ()) ∧ ∀ rng bbox,
        (g'.supply rng (bbox.map (· + s))).2 = (g.supply rng bbox).2.map fun out => (out.1.map (· + s), out.2) := by
  intro h
  let st : HStrain ℚ := ⟨⟨2, 0, 0, 0, 2, 0, 0, 0, 2⟩, "crystal", 0, false, none⟩
  let g : Gen ℚ := ⟨some ⟨1, [(⟨0, 0, 0⟩, 6)]⟩, some ⟨1, .scalar 1, 0⟩, some st, none⟩
  obtain ⟨g', h1, h2⟩ := h g ⟨1, .scalar 1, 0⟩ rfl rfl (by rintro _ ⟨⟩; rfl) trivial (by decide +kernel) ⟨1, 0, 0⟩
  have h3 : g.transform (.translation ⟨1, 0, 0⟩ true false) =
      (⟨some ⟨1, [(⟨0, 0, 0⟩, 6)]⟩, some ⟨1, .scalar 1, ⟨1, 0, 0⟩⟩, some st, none⟩, .ok ()) := by
    simp only [g, Gen.transform, Tr.bases, Tr.basisOnly, Tr.apply]
    rw [show Voxel.basesSet (1 : M3 ℚ) = .ok 1 from by decide +kernel]
    have : (0 : V3 ℚ) + ⟨1, 0, 0⟩ = ⟨1, 0, 0⟩ := by decide +kernel
    simp [this]
  rw [h1] at h3
  obtain rfl := (Prod.ext_iff.mp h3).1
  have h4 := h2 (fun _ _ _ => 0) [⟨0, 0, 0⟩]
  revert h4
  decide +kernel

/-! ## C17: shifted volumes -/

section
variable {v : Vol} {s : V3 ℝ}

/-- A shifted algebraic object. -/
def shiftAlg (s : V3 ℝ) : Alg → Alg
  | .sphere a => .sphere { a with center := a.center + s }
  | .plane a => .plane { a with point := a.point + s }
  | .cyl a => .cyl { a with point := a.point + s }

theorem shiftAlg_interior (a : Alg) (p : V3 ℝ) : (shiftAlg s a).interior (p + s) = a.interior p := by
  cases a with
  | sphere a => simp only [shiftAlg, Alg.interior, Sphere.interior, add_sub_add_right_eq_sub]
  | plane a =>
    have : (p + s).dot a.normal - (a.point + s).dot a.normal = p.dot a.normal - a.point.dot a.normal := by
      simp [V3.dot]; ring
    exact decide_eq_decide.mpr (by simp only [Plane.sdist]; rw [this])
  | cyl a => simp only [shiftAlg, Alg.interior, Cylinder.interior, add_sub_add_right_eq_sub]

theorem transformAlgs_shift (l b : Bool) : ∀ as : List Alg,
    Vol.transformAlgs (.translation s l b) as = (as.map (shiftAlg s), .ok ())
  | [] => rfl
  | a :: as => by
    cases a <;> simp only [Vol.transformAlgs, Tr.alg, transformAlgs_shift l b as, List.map_cons, shiftAlg]

theorem bbox_shift (c : Cylinder) : ({ c with point := c.point + s } : Cylinder).bbox = c.bbox.map (List.map (· + s)) := by
  unfold Cylinder.bbox
  simp only [bind, Except.bind]
  cases unitOrNan (⟨1, 1, 1⟩ : V3 ℝ) with
  | error e => rfl
  | ok o =>
    simp only
    cases unitOrNan (o - o.dot c.axis • c.axis) with
    | error e => rfl
    | ok v0 =>
      simp only
      cases unitOrNan (v0.cross c.axis) with
      | error e => rfl
      | ok v1 =>
        simp only [pure, Except.pure, Except.map, List.map_cons, List.map_nil, List.cons_append, List.nil_append]
        congr 1
        simp only [List.cons.injEq, and_true]
        refine ⟨?_, ?_, ?_, ?_, ?_, ?_, ?_, ?_⟩ <;> abel

theorem smallest_shift (ss : List Sphere) : ∀ a : Sphere,
    Vol.smallest { a with center := a.center + s } (ss.map fun b => { b with center := b.center + s }) =
      { Vol.smallest a ss with center := (Vol.smallest a ss).center + s } := by
  induction ss with
  | nil => intro a; rfl
  | cons b ss ih =>
    intro a
    simp only [List.map_cons, Vol.smallest]
    split_ifs with h
    · exact ih b
    · exact ih a

theorem sphereBox_shift (a : Sphere) : Vol.sphereBox { a with center := a.center + s } = (Vol.sphereBox a).map (· + s) := by
  simp only [Vol.sphereBox, Vol.rectPrism, List.map_cons, List.map_nil, List.cons.injEq, and_true]
  refine ⟨?_, ?_, ?_, ?_, ?_, ?_, ?_, ?_⟩ <;> abel

/-- The box of a shifted Volume without points is the shifted box. -/
theorem boundingBox_shift (env : Env) (hp : v.points = none) {w : Vol} (hw : w.points = none) (ha : w.algs = v.algs.map (shiftAlg s))
    {box : List (V3 ℝ)} (hb : v.boundingBox env = .ok (.rows box)) :
    w.boundingBox env = .ok (.rows (box.map (· + s))) := by
  have e1 : w.spheres = v.spheres.map fun a => { a with center := a.center + s } := by
    unfold Vol.spheres
    rw [ha, List.filterMap_map, List.map_filterMap]
    congr 1; funext a; cases a <;> rfl
  have e2 : w.cylinders = v.cylinders.map fun a => { a with point := a.point + s } := by
    unfold Vol.cylinders
    rw [ha, List.filterMap_map, List.map_filterMap]
    congr 1; funext a; cases a <;> rfl
  have e3 : w.planes.length = v.planes.length := by
    have : w.planes = v.planes.map fun a => { a with point := a.point + s } := by
      unfold Vol.planes
      rw [ha, List.filterMap_map, List.map_filterMap]
      congr 1; funext a; cases a <;> rfl
    rw [this, List.length_map]
  unfold Vol.boundingBox at hb ⊢
  rw [hp] at hb
  rw [hw]
  simp only [e1, e2, e3] at hb ⊢
  cases hs : v.spheres with
  | cons a as =>
    rw [hs] at hb
    simp only [List.map_cons] at hb ⊢
    simp only [Except.ok.injEq, BBox.rows.injEq] at hb
    rw [smallest_shift, sphereBox_shift, hb]
  | nil =>
    rw [hs] at hb
    simp only [List.map_nil] at hb ⊢
    by_cases h3 : 3 < v.planes.length
    · rw [if_pos h3] at hb; simp at hb
    rw [if_neg h3] at hb ⊢
    cases hc : v.cylinders with
    | nil => rw [hc] at hb; simp at hb
    | cons a as =>
      rw [hc] at hb
      simp only [List.map_cons] at hb ⊢
      rw [bbox_shift]
      cases hbb : a.bbox with
      | error e => rw [hbb] at hb; cases hb
      | ok r =>
        rw [hbb] at hb
        simp only [Except.map, Except.ok.injEq, BBox.rows.injEq] at hb ⊢
        rw [hb]

end

/-- What `supply_atoms` writes to the generator. -/
theorem supply_after {K : Type} [Field K] [LinearOrder K] [IsStrictOrderedRing K] [FloorRing K] {c c1 : Gen K} {x : Voxel K}
    (hx : c.voxel = some x) {rng : ℕ → ℕ → ℕ → K} {box : List (V3 K)} {r} (h : c.supply rng box = (c1, .ok r)) :
    c1 = { c with strain := c.strain.map fun st => st.scrape x.sbases x.origin } := by
  obtain ⟨a1, a2, a3, a4⟩ := c
  obtain rfl : a2 = some x := hx
  unfold Gen.supply at h
  simp only at h
  cases h1 : x.getExtents box with
  | error e => rw [h1] at h; simp at h
  | ok q =>
    rw [h1] at h
    cases a1 with
    | none => simp at h
    | some u =>
      simp only at h
      cases h3 : Gen.rawAtoms x u.sites box with
      | error e => rw [h3] at h; simp at h
      | ok atoms =>
        rw [h3] at h
        simp only at h
        cases a3 with
        | none => simp only [Prod.mk.injEq] at h; exact h.1.symm
        | some st =>
          simp only at h
          split at h
          · simp at h
          · simp only [Prod.mk.injEq] at h
            exact h.1.symm

/-- Having been used before makes no difference. -/
theorem supply_scraped {K : Type} [Field K] [LinearOrder K] [IsStrictOrderedRing K] [FloorRing K] (c : Gen K) (B : M3 K) (o : V3 K)
    (rng : ℕ → ℕ → ℕ → K) (box : List (V3 K)) :
    (Gen.supply rng { c with strain := c.strain.map fun st => st.scrape B o } box).2 = (c.supply rng box).2 := by
  obtain ⟨a1, a2, a3, a4⟩ := c
  cases a3 with
  | none => rfl
  | some st =>
    unfold Gen.supply
    simp only [Option.map_some, scrape_scrape]
    cases a2 with
    | none => rfl
    | some x =>
      simp only
      cases x.getExtents box with
      | error e => rfl
      | ok q =>
        simp only
        cases a1 with
        | none => rfl
        | some u =>
          simp only
          cases Gen.rawAtoms x u.sites box with
          | error e => rfl
          | ok atoms =>
            split <;> rfl

/-- Other random numbers change no position. -/
theorem supply_positions {K : Type} [Field K] [LinearOrder K] [IsStrictOrderedRing K] [FloorRing K] (c : Gen K)
    (hp : ∀ t, c.post = some t → OnlySubst t) (rng rng' : ℕ → ℕ → ℕ → K) (box : List (V3 K)) {cs : List (V3 K)} {zs : List ℤ}
    (h : (c.supply rng box).2 = .ok (cs, zs)) :
    ∃ zs', (c.supply rng' box).2 = .ok (cs, zs') ∧ zs'.length = zs.length ∧ (c.post = none ∨ rng = rng' → zs' = zs) := by
  unfold Gen.supply at h ⊢
  cases hx : c.voxel with
  | none => rw [hx] at h; simp at h
  | some x =>
  simp only [hx] at h ⊢
  cases h1 : x.getExtents box with
  | error e => rw [h1] at h; simp at h
  | ok q =>
    rw [h1] at h
    cases h2 : c.struct with
    | none => rw [h2] at h; simp at h
    | some u =>
      rw [h2] at h
      simp only at h ⊢
      cases h3 : Gen.rawAtoms x u.sites box with
      | error e => rw [h3] at h; simp at h
      | ok atoms =>
        rw [h3] at h
        simp only at h ⊢
        generalize atoms.map Atom.pos = ps at h ⊢
        generalize atoms.map Atom.Z = ys at h ⊢
        cases hpo : c.post with
        | none =>
          rw [hpo] at h
          exact ⟨zs, h, rfl, fun _ => rfl⟩
        | some t =>
          rw [hpo] at h
          simp only at h ⊢
          obtain ⟨p1, l1⟩ := C37_sequences_keep_atoms t (hp t hpo) rng 0 ps ys
          obtain ⟨p2, l2⟩ := C37_sequences_keep_atoms t (hp t hpo) rng' 0 ps ys
          simp only [p1] at h
          simp only [p2]
          cases hst : c.strain with
          | none =>
            rw [hst] at h
            simp only [Except.ok.injEq] at h
            refine ⟨(t.run rng' 0 ps ys).2.2, ?_, ?_, ?_⟩
            · simp only [Except.ok.injEq]
              refine Prod.ext ?_ rfl
              rw [p2, ← p1, h]
            · rw [l2, ← l1, h]
            · rintro (h' | rfl)
              · cases h'
              · rw [h]
          | some st =>
            rw [hst] at h
            simp only at h ⊢
            cases ha : (st.scrape x.sbases x.origin).apply ps with
            | error e => rw [ha] at h; simp at h
            | ok qs =>
              rw [ha] at h
              simp only [Except.ok.injEq, Prod.mk.injEq] at h
              refine ⟨(t.run rng' 0 ps ys).2.2, ?_, ?_, ?_⟩
              · simp only [Except.ok.injEq, Prod.mk.injEq, and_true]
                exact h.1
              · rw [l2, ← l1, h.2]
              · rintro (h' | rfl)
                · cases h'
                · rw [h.2]

/-- **C17 (translations).** A Volume without points that could be populated: shifting it (with its generator) and populating it
again succeeds and gives exactly the shifted atoms in the same order.  This holds for every combination of spheres, planes
and cylinders, every form of the voxel scale, every basis, chemical substitutions, and every strain field about the
generator's origin; no site near the surface is lost or gained.  The species are the same when there are no substitutions or
when these draw the same random numbers. -/
theorem C17_translation (env : Env) (v : Vol) (hp : v.points = none) (htr : v.tri = none) (c : Gen ℝ) (x : Voxel ℝ)
    (hg : v.gen = some (.crystal c)) (hx : c.voxel = some x) (hB : x.bases.det ≠ 0) (hd : x.sbases.det ≠ 0)
    (hpo : ∀ t, c.post = some t → OnlySubst t) (hst : ∀ st, c.strain = some st → st.fromGenerator = true)
    (s : V3 ℝ) (n n' : ℕ) (v1 : Vol) (h1 : v.populate env n = (v1, .ok ())) :
    ∃ v2 v3 as zs zs', v1.atoms = some as ∧ v1.species = some zs ∧
      v1.transform env (.translation s true false) = (v2, .ok ()) ∧ v2.populate env n' = (v3, .ok ()) ∧
      v3.atoms = some (as.map (· + s)) ∧ v3.species = some zs' ∧ zs'.length = zs.length ∧
      (c.post = none ∨ env.rng n = env.rng n' → zs' = zs) := by
  obtain ⟨b, g, g', cs, zs, hbb, hg', hsup, hlen, rfl⟩ := Vol.populate_inv h1
  rw [hg] at hg'
  obtain rfl := Option.some.inj hg'
  unfold GenObj.supply at hsup
  simp only [hx] at hsup
  cases b with
  | cleared => simp at hsup
  | single p => simp at hsup
  | tuple p q => simp at hsup
  | none => simp at hsup
  | rows box =>
  simp only [Prod.mk.injEq] at hsup
  obtain ⟨rfl, hs2⟩ := hsup
  obtain ⟨zs', hs3, hl3, hz3⟩ := supply_positions c hpo (env.rng n) (env.rng n') box hs2
  let w : Voxel ℝ := ⟨x.bases, x.scale, x.origin + s⟩
  let c1 : Gen ℝ := { c with strain := c.strain.map fun st => st.scrape x.sbases x.origin }
  let c2 : Gen ℝ := { c1 with voxel := some w }
  have hcov : (c2.supply (env.rng n') (box.map (· + s))).2 = .ok (cs.map (· + s), zs') := by
    have := supply_covariant (g := c1) (v := x) (w := w) (L := 1) (f := (· + s)) hx hd
      (by rw [M3.det_one]; exact one_ne_zero) (by rw [M3.one_mul']; rfl) rfl
      (by intro p q; rw [M3.mulVec_one, add_sub_add_right_eq_sub]) hpo (by
        intro st hst'
        refine ⟨?_, .inr rfl⟩
        simp only [c1, Option.map_eq_some_iff] at hst'
        obtain ⟨st0, h0, rfl⟩ := hst'
        have := hst st0 h0
        unfold HStrain.scrape
        split_ifs <;> simp_all) (env.rng n') box
    rw [supply_scraped c, hs3] at this
    exact this
  have hint : ∀ (w2 : Vol), w2.tri = none → w2.algs = v.algs.map (shiftAlg s) → ∀ p, w2.interior env (p + s) = v.interior env p := by
    intro w2 h2 h3 p
    unfold Vol.interior
    rw [h2, h3, htr, List.all_map]
    congr 1
    congr 1
    funext a
    exact shiftAlg_interior a p
  have hc1 : (c.supply (env.rng n) box).1 = c1 := supply_after hx (Prod.ext rfl hs2)
  let v1 : Vol := { v with
    gen := some (.crystal (c.supply (env.rng n) box).1)
    atoms := some (maskSel (cs.map (v.interior env)) cs)
    species := some (maskSel (cs.map (v.interior env)) zs) }
  let v2 : Vol := { v1 with algs := v.algs.map (shiftAlg s), gen := some (.crystal c2) }
  have htrans : v1.transform env (.translation s true false) = (v2, .ok ()) := by
    unfold Vol.transform Vol.transformRest
    simp only [v1, hp, hc1, transformAlgs_shift, Tr.locked, if_true, GenObj.transform, Gen.transform, c1, hx, Tr.bases,
      basesSet_of_det hB, Tr.basisOnly, Tr.apply, v2, c2, w]
    rfl
  have hbox2 : v2.boundingBox env = .ok (.rows (box.map (· + s))) := boundingBox_shift (w := v2) (s := s) env hp hp rfl hbb
  have hsup2 : GenObj.supply env n' (.crystal c2) (.rows (box.map (· + s))) =
      (.crystal (c2.supply (env.rng n') (box.map (· + s))).1, .ok (cs.map (· + s), zs')) := by
    unfold GenObj.supply
    simp only [c2]
    rw [← hcov]
  have hmask : (cs.map (· + s)).map (v2.interior env) = cs.map (v.interior env) := by
    rw [List.map_map]
    exact List.map_congr_left fun p _ => hint v2 htr rfl p
  refine ⟨v2, _, _, _, _, rfl, rfl, htrans, Vol.populate_ok hbox2 rfl hsup2 ?_, ?_, rfl, ?_, ?_⟩
  · rw [List.length_map, hl3, hlen]
  · simp only [hmask, maskSel_map_right]
  · simp only [hmask]
    exact maskSel_length_eq _ _ _ hl3
  · intro h
    simp only [hmask]
    rw [hz3 h]

/-! ## Strained crystals in a region (C38) -/

/-- Where the site with fractional coordinates `f` in cell `n` of the crystal with cell `B` and origin `o` is after a strain
`M` about the origin of the crystal, given in crystal coordinates (row vector times matrix). -/
def strainedSite {K : Type} [Field K] (M B : M3 K) (o : V3 K) (n : V3 ℤ) (f : V3 K) : V3 K :=
  cart B o (rowTimes ⟨(n.x : K) + f.x, (n.y : K) + f.y, (n.z : K) + f.z⟩ M)

/-- A crystal strained in crystal coordinates about its own origin, without substitutions. -/
structure Strained {K : Type} [Field K] (c : Gen K) (x : Voxel K) (sites : List (V3 K × ℤ)) (M : M3 K) : Prop where
  voxel : c.voxel = some x
  sites : ∃ L, c.struct = some ⟨L, sites⟩
  post : c.post = none
  strain : ∃ st, c.strain = some st ∧ st.mode = "crystal" ∧ st.fromGenerator = true ∧ st.matrix = M

theorem supply_strained {K : Type} [Field K] [LinearOrder K] [IsStrictOrderedRing K] [FloorRing K] {c : Gen K} {x : Voxel K}
    {sites : List (V3 K × ℤ)} {M : M3 K} (h : Strained c x sites M) (hd : x.sbases.det ≠ 0) {box : List (V3 K)} {lo hi : V3 ℤ}
    (he : x.getExtents box = .ok (lo, hi)) (rng : ℕ → ℕ → ℕ → K) :
    (c.supply rng box).2 = .ok
      (((Gen.cells lo hi).flatMap fun n => sites.map fun f => (strainedSite M x.sbases x.origin n f.1, f.2)).map Prod.fst,
       ((Gen.cells lo hi).flatMap fun n => sites.map fun f => (strainedSite M x.sbases x.origin n f.1, f.2)).map Prod.snd) := by
  obtain ⟨h1, ⟨Lm, h2⟩, h3, st, h4, hm, hgen, hM⟩ := h
  obtain ⟨m1, m2, m3, m4⟩ := scrape_fields st x.sbases x.origin
  rw [hgen, if_pos rfl] at m4
  have hb : (st.scrape x.sbases x.origin).mode = "crystal" → ∃ B, (st.scrape x.sbases x.origin).bases = some B ∧ B.det ≠ 0 :=
    fun _ => ⟨_, m3 hm, hd⟩
  choose k hk using applyPt_ok _ hb
  have hsite : ∀ n f, k (siteAt x.sbases x.origin n f) = strainedSite M x.sbases x.origin n f := by
    intro n f
    have := C34_crystal_mode (st.scrape x.sbases x.origin) x.sbases (m2.trans hm) (m3 hm) hd
      ⟨(n.x : K) + f.x, (n.y : K) + f.y, (n.z : K) + f.z⟩
    rw [m4, m1, hM] at this
    have h5 := hk (siteAt x.sbases x.origin n f)
    unfold siteAt at h5 ⊢
    rw [this] at h5
    rw [← Except.ok.inj h5]
    rfl
  unfold Gen.supply
  simp only [h1, he, h2, h3, h4, Gen.rawAtoms_eq _ _ _ _ _ he, apply_map _ _ hb hk]
  simp only [List.map_flatMap, List.map_map, Function.comp_def, hsite]

/-- **C38 (partial).** A Volume filled by a strained crystal has only atoms of the strained crystal that lie inside it, and it
has every such atom whose unstrained position lies in the bounding box (basis atoms with fractional coordinates strictly between
-1 and 1).  Missing: the atoms whose unstrained position is outside the box (`C38_volume_refuted`). -/
theorem C38_volume_partial (env : Env) (v : Vol) (box : List (V3 ℝ)) (hb : v.boundingBox env = .ok (.rows box)) (hbox : box ≠ [])
    (c : Gen ℝ) (x : Voxel ℝ) (sites : List (V3 ℝ × ℤ)) (M : M3 ℝ) (hg : v.gen = some (.crystal c)) (hc : Strained c x sites M)
    (hd : x.sbases.det ≠ 0) (n : ℕ) :
    ∃ v' ps zs, v.populate env n = (v', .ok ()) ∧ v'.atoms = some ps ∧ v'.species = some zs ∧ ps.length = zs.length ∧
      (∀ a ∈ ps.zip zs, (∃ m, ∃ f ∈ sites, a = (strainedSite M x.sbases x.origin m f.1, f.2)) ∧ Inside env (.vol v) a.1) ∧
      (FracNearCell sites → ∀ m, ∀ f ∈ sites, siteAt x.sbases x.origin m f.1 ∈ Region box →
        Inside env (.vol v) (strainedSite M x.sbases x.origin m f.1) →
        (strainedSite M x.sbases x.origin m f.1, f.2) ∈ ps.zip zs) := by
  obtain ⟨⟨lo, hi⟩, he⟩ := Voxel.getExtents_ok hd hbox
  have hs := supply_strained hc hd he (env.rng n)
  generalize hA : ((Gen.cells lo hi).flatMap fun n => sites.map fun f => (strainedSite M x.sbases x.origin n f.1, f.2)) = A at hs
  have hsup : GenObj.supply env n (.crystal c) (.rows box) =
      (.crystal (c.supply (env.rng n) box).1, .ok (A.map Prod.fst, A.map Prod.snd)) := by
    unfold GenObj.supply
    simp only [hc.voxel]
    rw [← hs]
  have hpop := Vol.populate_ok hb hg hsup (by simp)
  rw [List.map_map, maskSel_map_map, maskSel_map_map] at hpop
  refine ⟨_, _, _, hpop, rfl, rfl, by simp, ?_, ?_⟩
  · intro a ha
    rw [List.zip_map', List.mem_map] at ha
    obtain ⟨a, ha, rfl⟩ := ha
    rw [List.mem_filter, ← hA, List.mem_flatMap] at ha
    obtain ⟨⟨m, -, hm⟩, hin⟩ := ha
    obtain ⟨f, hf, rfl⟩ := List.mem_map.mp hm
    exact ⟨⟨m, f, hf, rfl⟩, (Vol.interior_iff env v _).mp hin⟩
  · intro hfr m f hf hr hI
    rw [List.zip_map', List.mem_map]
    refine ⟨(strainedSite M x.sbases x.origin m f.1, f.2), ?_, rfl⟩
    rw [List.mem_filter, ← hA, List.mem_flatMap]
    exact ⟨⟨m, cell_mem he (hfr f hf) hr, List.mem_map.mpr ⟨f, hf, rfl⟩⟩, (Vol.interior_iff env v _).mpr hI⟩

/-- A strain field that halves all crystal coordinates. -/
noncomputable def halving : HStrain ℝ := ⟨⟨1 / 2, 0, 0, 0, 1 / 2, 0, 0, 0, 1 / 2⟩, "crystal", 0, true, none⟩

/-- `unitBall` with a compressed crystal. -/
noncomputable def squeezedBall : Vol :=
  { unitBall 0 with gen := some (.crystal ⟨some ⟨1, [(0, 6)]⟩, some unitVoxel, some halving, none⟩) }

theorem squeezedBall_box (env : Env) : squeezedBall.boundingBox env = .ok (.rows (Vol.sphereBox ⟨1, 0, 1 / 10⟩)) :=
  unitBall_box env 0

theorem halving_site (B : M3 ℝ) (m : V3 ℤ) : strainedSite halving.matrix B 0 m 0 = B.mulVec ⟨m.x / 2, m.y / 2, m.z / 2⟩ := by
  unfold strainedSite
  rw [cart_eq, add_zero]
  congr 1
  ext <;> simp [rowTimes, halving] <;> ring

/-- The atoms of `squeezedBall` come from cells -1, 0, 1 in x. -/
theorem squeezedBall_atoms (env : Env) (n : ℕ) : ∃ v' ps zs, squeezedBall.populate env n = (v', .ok ()) ∧
    v' = { squeezedBall with
      gen := some (.crystal ⟨some ⟨1, [(0, 6)]⟩, some unitVoxel, some (halving.scrape 1 0), none⟩)
      atoms := some ps
      species := some zs } ∧
    ∀ p ∈ ps, ∃ m : V3 ℤ, -1 ≤ m.x ∧ m.x ≤ 1 ∧ p = ⟨m.x / 2, m.y / 2, m.z / 2⟩ := by
  obtain ⟨⟨lo, hi⟩, he⟩ := Voxel.getExtents_ok (v := unitVoxel) (box := Vol.sphereBox ⟨1, 0, 1 / 10⟩)
    (by rw [unitVoxel_sbases, M3.det_one]; norm_num) (by simp [Vol.sphereBox, Vol.rectPrism])
  obtain ⟨hlo, hhi⟩ := extents_tight unitVoxel_sbases rfl he fun p hp => unitBox_bound hp
  have hS : Strained (⟨some ⟨1, [(0, 6)]⟩, some unitVoxel, some halving, none⟩ : Gen ℝ) unitVoxel [(0, 6)] halving.matrix :=
    ⟨rfl, ⟨1, rfl⟩, rfl, _, rfl, rfl, rfl, rfl⟩
  have hs := supply_strained hS (by rw [unitVoxel_sbases, M3.det_one]; norm_num) he (env.rng n)
  generalize hA : ((Gen.cells lo hi).flatMap fun n => [((0 : V3 ℝ), (6 : ℤ))].map fun f =>
    (strainedSite halving.matrix unitVoxel.sbases unitVoxel.origin n f.1, f.2)) = A at hs
  have h1 := supply_after (c := (⟨some ⟨1, [(0, 6)]⟩, some unitVoxel, some halving, none⟩ : Gen ℝ)) (x := unitVoxel) rfl (Prod.ext rfl hs)
  have hsup : GenObj.supply env n (.crystal ⟨some ⟨1, [(0, 6)]⟩, some unitVoxel, some halving, none⟩)
      (.rows (Vol.sphereBox ⟨1, 0, 1 / 10⟩)) =
      (.crystal ⟨some ⟨1, [(0, 6)]⟩, some unitVoxel, some (halving.scrape 1 0), none⟩, .ok (A.map Prod.fst, A.map Prod.snd)) := by
    unfold GenObj.supply
    simp only
    rw [← hs]
    refine Prod.ext ?_ rfl
    refine congrArg GenObj.crystal (h1.trans ?_)
    rw [unitVoxel_sbases]
    rfl
  have hpop := Vol.populate_ok (squeezedBall_box env) (show squeezedBall.gen = _ from rfl) hsup (by simp)
  rw [List.map_map, maskSel_map_map, maskSel_map_map] at hpop
  refine ⟨_, _, _, hpop, rfl, ?_⟩
  intro p hp
  obtain ⟨a, ha, rfl⟩ := List.mem_map.mp hp
  rw [List.mem_filter, ← hA, List.mem_flatMap] at ha
  obtain ⟨⟨m, hm, ha⟩, -⟩ := ha
  simp only [List.map_cons, List.map_nil, List.mem_singleton] at ha
  subst ha
  rw [Gen.mem_cells] at hm
  refine ⟨m, by omega, by omega, ?_⟩
  simp only
  rw [unitVoxel_sbases, show unitVoxel.origin = 0 from rfl, halving_site, M3.mulVec_one]

theorem squeezed_missing {ps : List (V3 ℝ)} (h : ∀ p ∈ ps, ∃ m : V3 ℤ, -1 ≤ m.x ∧ m.x ≤ 1 ∧ p = ⟨m.x / 2, m.y / 2, m.z / 2⟩) :
    (⟨-1, 0, 0⟩ : V3 ℝ) ∉ ps := by
  intro hm
  obtain ⟨m, h1, h2, h3⟩ := h _ hm
  have := congrArg V3.x h3
  simp only at this
  have h4 : ((m.x + 2 : ℤ) : ℝ) = ((0 : ℤ) : ℝ) := by push_cast; linarith
  have := Int.cast_injective h4
  omega

/-- **C38, finding.** A compressed crystal leaves a gap at the surface: in a ball of radius 1 filled by a unit cubic crystal
compressed to half, the site at (-1, 0, 0) is missing. -/
theorem C38_volume_refuted (env : Env) (n : ℕ) :
    ∃ v' ps, squeezedBall.populate env n = (v', .ok ()) ∧ v'.atoms = some ps ∧
      strainedSite halving.matrix unitVoxel.sbases unitVoxel.origin ⟨-2, 0, 0⟩ 0 = ⟨-1, 0, 0⟩ ∧
      Inside env (.vol squeezedBall) ⟨-1, 0, 0⟩ ∧ (⟨-1, 0, 0⟩ : V3 ℝ) ∉ ps := by
  obtain ⟨v', ps, zs, h1, h2, h3⟩ := squeezedBall_atoms env n
  refine ⟨v', ps, h1, by rw [h2], ?_, ?_, squeezed_missing h3⟩
  · rw [unitVoxel_sbases, show unitVoxel.origin = 0 from rfl, halving_site, M3.mulVec_one]
    ext <;> norm_num
  · refine .vol _ _ (by simp [squeezedBall, unitBall]) ?_
    intro a ha
    simp only [squeezedBall, unitBall, List.mem_singleton] at ha
    subst ha
    simp [Alg.interior, Sphere.interior, V3.normSq, V3.dot]
    norm_num

/-- **C17, finding.** The gap closes in places when the ball is rotated, because the box stays along the axes: after the
rotation the ball has an atom that is not the image of an atom it had before. -/
theorem C17_strained_refuted (env : Env) (n n' : ℕ) :
    ∃ t v1 v2 v3 ps qs, RigidMotion t ∧ t.locked = true ∧ t.basisOnly = false ∧
      squeezedBall.populate env n = (v1, .ok ()) ∧ v1.atoms = some ps ∧
      v1.transform env t = (v2, .ok ()) ∧ v2.populate env n' = (v3, .ok ()) ∧ v3.atoms = some qs ∧
      ∃ p, p ∉ ps ∧ t.apply p ∈ qs := by
  obtain ⟨v1, ps, zs, h1, h2, h3⟩ := squeezedBall_atoms env n
  let t : Tr ℝ := .matrix .general rot345 none true false
  let y : Voxel ℝ := ⟨rot345 * 1, .scalar 1, 0⟩
  let c' : Gen ℝ := ⟨some ⟨1, [(0, 6)]⟩, some y, some (halving.scrape 1 0), none⟩
  let v2 : Vol := { v1 with gen := some (.crystal c') }
  have hset : Voxel.basesSet (rot345 * 1) = .ok (rot345 * 1) :=
    basesSet_of_det (by rw [M3.det_mul, rot345_det, M3.det_one]; norm_num)
  have hsb : y.sbases = rot345 * 1 := by
    have := sbases_mul (v := unitVoxel) trivial rot345 0
    rw [unitVoxel_sbases] at this
    exact this
  have ht : v1.transform env t = (v2, .ok ()) := by
    rw [h2]
    unfold Vol.transform Vol.transformRest
    simp [squeezedBall, unitBall, Vol.transformAlgs, t, Tr.alg, Tr.matAlg, Tr.matApply, Tr.locked, GenObj.transform, Gen.transform,
      unitVoxel, Tr.bases, hset, Tr.basisOnly, Tr.apply, M3.mulVec_zero, v2, h2, c', y]
  have hbb : v2.boundingBox env = .ok (.rows (Vol.sphereBox ⟨1, 0, 1 / 10⟩)) := by
    simp only [v2, h2]
    exact squeezedBall_box env
  have hd : y.sbases.det ≠ 0 := by rw [hsb, M3.det_mul, rot345_det, M3.det_one]; norm_num
  obtain ⟨⟨lo, hi⟩, he⟩ := Voxel.getExtents_ok (v := y) (box := Vol.sphereBox ⟨1, 0, 1 / 10⟩) hd
    (by simp [Vol.sphereBox, Vol.rectPrism])
  have hS : Strained c' y [(0, 6)] halving.matrix := ⟨rfl, ⟨1, rfl⟩, rfl, _, rfl, rfl, rfl, rfl⟩
  have hs := supply_strained hS hd he (env.rng n')
  have hcell : (⟨-2, 0, 0⟩ : V3 ℤ) ∈ Gen.cells lo hi := by
    refine cell_mem he (f := ⟨3 / 5, 1 / 5, 0⟩) (by norm_num) ?_
    have e := segment_mem (region_convex (Vol.sphereBox ⟨1, 0, 1 / 10⟩)) (c := ⟨-1, -1, 0⟩) (u := ⟨0, 0, 1⟩) (s := 0) ?_ ?_ (by simp)
    · convert e using 1
      rw [hsb, M3.one_def]
      ext <;> norm_num [siteAt, cart, rot345, M3.mul_def, M3.col0, M3.col1, M3.col2, y]
    · apply region_mem
      refine List.mem_map.mpr ⟨⟨0, 0, 2 * 1⟩, by simp [Vol.rectPrism], ?_⟩
      ext <;> norm_num
    · apply region_mem
      refine List.mem_map.mpr ⟨⟨0, 0, 0⟩, by simp [Vol.rectPrism], ?_⟩
      ext <;> norm_num
  generalize hA : ((Gen.cells lo hi).flatMap fun n => [((0 : V3 ℝ), (6 : ℤ))].map fun f =>
    (strainedSite halving.matrix y.sbases y.origin n f.1, f.2)) = A at hs
  have hsup : GenObj.supply env n' (.crystal c') (.rows (Vol.sphereBox ⟨1, 0, 1 / 10⟩)) =
      (.crystal (c'.supply (env.rng n') (Vol.sphereBox ⟨1, 0, 1 / 10⟩)).1, .ok (A.map Prod.fst, A.map Prod.snd)) := by
    unfold GenObj.supply
    simp only [c']
    rw [← hs]
  have hpop := Vol.populate_ok hbb (show v2.gen = some (.crystal c') from rfl) hsup (by simp)
  rw [List.map_map, maskSel_map_map] at hpop
  refine ⟨t, v1, v2, _, ps, _, .matrix _ _ _ _ rot345_orth, rfl, rfl, h1, by rw [h2], ht, hpop, rfl, ⟨-1, 0, 0⟩, squeezed_missing h3, ?_⟩
  have hp : t.apply ⟨-1, 0, 0⟩ = ⟨-3 / 5, -4 / 5, 0⟩ := by
    simp only [t, Tr.apply, Tr.matApply]
    ext <;> norm_num [rot345, M3.mulVec]
  rw [hp]
  refine List.mem_map.mpr ⟨(⟨-3 / 5, -4 / 5, 0⟩, 6), ?_, rfl⟩
  rw [List.mem_filter, ← hA, List.mem_flatMap]
  refine ⟨⟨⟨-2, 0, 0⟩, hcell, ?_⟩, ?_⟩
  · simp only [List.map_cons, List.map_nil, List.mem_singleton]
    rw [show y.origin = 0 from rfl, halving_site, hsb, M3.one_def]
    ext1
    · ext <;> norm_num [rot345, M3.mulVec, M3.mul_def]
    · rfl
  · refine (Vol.interior_iff env v2 _).mpr (.vol _ _ (by simp [v2, h2, squeezedBall, unitBall]) ?_)
    intro a ha
    simp only [v2, h2, squeezedBall, unitBall, List.mem_singleton] at ha
    subst ha
    simp [Alg.interior, Sphere.interior, V3.normSq, V3.dot]
    norm_num

/-- Concrete case of `C17_translation` and `C38_volume_partial`: the compressed ball. -/
example (env : Env) (n n' : ℕ) : ∃ v1 v2 v3 as, squeezedBall.populate env n = (v1, .ok ()) ∧ v1.atoms = some as ∧
    v1.transform env (.translation ⟨1, 2, 3⟩ true false) = (v2, .ok ()) ∧ v2.populate env n' = (v3, .ok ()) ∧
    v3.atoms = some (as.map (· + ⟨1, 2, 3⟩)) := by
  obtain ⟨v1, ps, zs, h1, -, -⟩ := squeezedBall_atoms env n
  obtain ⟨v2, v3, as, _, _, h2, -, h3, h4, h5, -⟩ := C17_translation env squeezedBall rfl rfl _ unitVoxel rfl rfl
    (by simp [unitVoxel, M3.det_one]) (by rw [unitVoxel_sbases, M3.det_one]; norm_num) (by rintro t ⟨⟩)
    (by rintro st ⟨⟩; rfl) ⟨1, 2, 3⟩ n n' v1 h1
  exact ⟨v1, v2, v3, as, h1, h2, h3, h4, h5⟩

example : Strained (⟨some ⟨1, [(0, 6)]⟩, some unitVoxel, some halving, none⟩ : Gen ℝ) unitVoxel [(0, 6)] halving.matrix :=
  ⟨rfl, ⟨1, rfl⟩, rfl, _, rfl, rfl, rfl, rfl⟩

end CZ
