import Verif.VolumeLemmas
import Verif.Props.Generator
import Verif.Props.Transform

/-!
# Properties C12-C14, C16, C18-C23, C27, C42 (volumes)
-/

set_option linter.unusedSectionVars false

namespace CZ

open Spec

/-! ## C12 -/

/-- **C12.** After a successful `populate_atoms()` of a tree of volumes, of any depth and width, the atoms and species
held by the root are, up to order, exactly the sites that the tree contains according to `Fills`: at every MultiVolume a
site of an owned volume is kept iff it is inside no other owned volume of smaller or equal priority number. -/
theorem C12_nested_resolution (env : Env) (t t' : VTree) (n n' : ℕ) (h : t.populate env n = (t', n', .ok ())) :
    ∃ as ss cs, t'.held = some (as, ss) ∧ as.length = ss.length ∧ Fills env t cs ∧ (as.zip ss).Perm cs := by
  obtain ⟨cs, hf, ⟨as, ss, h1, h2, h3⟩, -, -⟩ := VTree.populate_spec env t n t' n' h
  exact ⟨as, ss, cs, h1, h2, hf, h3⟩

/-- Every Volume of the tree has a generator that supplies equally many positions and species whenever asked, and no
MultiVolume is empty. -/
inductive Supplying (env : Env) : VTree → Prop
  | vol (v : Vol) (h : ∀ n, ∃ b g g' ps zs, v.boundingBox env = .ok b ∧ v.gen = some g ∧
      g.supply env n b = (g', .ok (ps, zs)) ∧ ps.length = zs.length) : Supplying env (.vol v)
  | multi (vs : List VTree) (pr : ℤ) (hd : Option (List (V3 ℝ) × List ℤ)) (hne : vs ≠ [])
      (h : ∀ t ∈ vs, Supplying env t) : Supplying env (.multi vs pr hd)

theorem Vol.populate_ok {env : Env} {v : Vol} {n : ℕ} {b : BBox} {g g' : GenObj} {ps : List (V3 ℝ)} {zs : List ℤ}
    (hb : v.boundingBox env = .ok b) (hg : v.gen = some g) (hs : g.supply env n b = (g', .ok (ps, zs)))
    (hl : ps.length = zs.length) :
    v.populate env n = ({ v with
        gen := (some g' : Option GenObj)
        atoms := some (maskSel (ps.map (v.interior env)) ps)
        species := some (maskSel (ps.map (v.interior env)) zs) }, .ok ()) := by
  unfold Vol.populate
  rw [hb]
  simp only [hg, hs, Vol.check_eq]
  have hi : Vol.interior env { v with gen := (some g' : Option GenObj) } = v.interior env := rfl
  rw [hi]
  simp [npMask, hl]

/-- **C12 (success).** The call succeeds on every such tree. -/
theorem C12_populate_succeeds (env : Env) (t : VTree) (h : Supplying env t) :
    ∀ n, ∃ t' n', t.populate env n = (t', n', .ok ()) := by
  induction h with
  | vol v h =>
    intro n
    obtain ⟨b, g, g', ps, zs, hb, hg, hs, hl⟩ := h n
    rw [VTree.populate, Vol.populate_ok hb hg hs hl]
    exact ⟨_, _, rfl⟩
  | multi vs pr hd hne h ih =>
    intro n
    have loop : ∀ ws : List VTree, (∀ t ∈ ws, ∀ n, ∃ t' n', t.populate env n = (t', n', .ok ())) → ∀ n,
        ∃ ws' n', VTree.populateList env ws n = (ws', n', .ok ()) ∧ ws'.length = ws.length ∧
          ∀ w ∈ ws', ∃ as ss, w.held = some (as, ss) ∧ as.length = ss.length := by
      intro ws hws
      induction ws with
      | nil => intro n; exact ⟨[], n, by rw [VTree.populateList], rfl, by simp⟩
      | cons w ws ihw =>
        intro n
        obtain ⟨w', m, hw⟩ := hws w List.mem_cons_self n
        obtain ⟨ws', m', h1, h2, h3⟩ := ihw (fun t ht => hws t (List.mem_cons_of_mem _ ht)) m
        refine ⟨w' :: ws', m', ?_, by simp [h2], ?_⟩
        · rw [VTree.populateList, hw]; simp only [h1]
        · intro x hx
          rcases List.mem_cons.mp hx with rfl | hx
          · obtain ⟨_, -, ⟨as, ss, ha, hl, -⟩, -, -⟩ := VTree.populate_spec env w n _ m hw
            exact ⟨as, ss, ha, hl⟩
          · exact h3 x hx
    obtain ⟨ws', m, h1, h2, h3⟩ := loop vs ih n
    have hne' : ws' ≠ [] := by
      intro h0; apply hne; rw [h0] at h2; exact List.eq_nil_of_length_eq_zero h2.symm
    obtain ⟨as, ss, hr, -, -⟩ := VTree.resolve_spec env ws' hne' h3
    rw [VTree.populate, h1]
    simp only [hr]
    exact ⟨_, _, rfl⟩

/-- **C12, finding.** A MultiVolume without volumes cannot be populated (`np.vstack([])` raises ValueError). -/
theorem C12_empty_multivolume_raises (env : Env) (pr : ℤ) (hd : Option (List (V3 ℝ) × List ℤ)) (n : ℕ) :
    VTree.populate env (.multi [] pr hd) n = (.multi [] pr hd, n, .error .value) := by
  simp [VTree.populate, VTree.populateList, VTree.resolve, stableSort, Precedence.checks, bind, Except.bind, pure,
    Except.pure, throw, throwThe, MonadExceptOf.throw]

noncomputable section
open Classical

/-- A sphere-bounded Volume whose amorphous generator returns a stored result. -/
def ballVol (c : V3 ℝ) (r : ℝ) (pr : ℤ) (ps : List (V3 ℝ)) : Vol :=
  ⟨none, none, none, [.sphere ⟨r, c, 1 / 10 ^ 5⟩],
    some (.amorphous ⟨none, 1, 1, 6, true, some (ps, List.replicate ps.length 6)⟩), pr, 1 / 10 ^ 10, none, none⟩

theorem ballVol_supplying (env : Env) (c : V3 ℝ) (r : ℝ) (pr : ℤ) (ps : List (V3 ℝ)) :
    Supplying env (.vol (ballVol c r pr ps)) := by
  refine .vol _ fun n => ⟨_, _, .amorphous ⟨none, 1, 1, 6, true, some (ps, List.replicate ps.length 6)⟩, ps,
    List.replicate ps.length 6, rfl, rfl, rfl, by simp⟩

/-- Concrete case: a MultiVolume owning a ball and a nested MultiVolume of two overlapping balls. -/
example (env : Env) : ∃ t' n', VTree.populate env
    (.multi [.vol (ballVol 0 2 1 [⟨0, 0, 0⟩, ⟨1, 0, 0⟩]),
      .multi [.vol (ballVol ⟨1, 0, 0⟩ 1 0 [⟨1, 0, 0⟩]), .vol (ballVol ⟨2, 0, 0⟩ 1 0 [⟨2, 0, 0⟩, ⟨1, 0, 0⟩])] 0 none] 0 none)
    0 = (t', n', .ok ()) := by
  apply C12_populate_succeeds
  refine .multi _ _ _ (by simp) ?_
  simp only [List.mem_cons, List.not_mem_nil, or_false, forall_eq_or_imp, forall_eq]
  refine ⟨ballVol_supplying _ _ _ _ _, .multi _ _ _ (by simp) ?_⟩
  simp only [List.mem_cons, List.not_mem_nil, or_false, forall_eq_or_imp, forall_eq]
  exact ⟨ballVol_supplying _ _ _ _ _, ballVol_supplying _ _ _ _ _⟩

/-! ## C13 -/

/-- **C13.** `checkIfInterior` of a batch has one answer per row, and each answer says whether the row belongs to the
volume: intersection of hull and algebraic objects for a Volume, union over owned volumes for a MultiVolume,
recursively (`Inside`). -/
theorem C13_region (env : Env) (t : VTree) (ps : List (V3 ℝ)) :
    (t.check env ps).length = ps.length ∧
      ∀ (i : ℕ) (h : i < (t.check env ps).length) (h' : i < ps.length), (t.check env ps)[i] = true ↔ Inside env t ps[i] := by
  refine ⟨by rw [VTree.check_eq]; simp, fun i h h' => ?_⟩
  have : (t.check env ps)[i] = t.interior env ps[i] := by
    simp [VTree.check_eq]
  rw [this, VTree.interior_iff]

/-- **C13 (single point).** A point of shape (3,) is treated as a batch of one. -/
theorem C13_single_point (env : Env) (v : Vol) (p : V3 ℝ) :
    v.checkIfInterior env (.vec p) = [decide (Inside env (.vol v) p)] := by
  unfold Vol.checkIfInterior
  rw [Vol.check_eq]
  simp only [Vol.rowsOf, List.map_cons, List.map_nil, List.cons.injEq, and_true]
  rw [Bool.eq_iff_iff, Vol.interior_iff, decide_eq_true_eq]

/-- **C13 (members).** Union and intersection spelled out. -/
theorem C13_union_intersection (env : Env) (vs : List VTree) (pr : ℤ) (hd : Option (List (V3 ℝ) × List ℤ)) (v : Vol)
    (p : V3 ℝ) :
    (VTree.interior env (.multi vs pr hd) p = true ↔ ∃ w ∈ vs, VTree.interior env w p = true) ∧
    (VTree.interior env (.vol v) p = true ↔
      (∀ t, v.tri = some t → env.inHull t v.tol p = true) ∧ ∀ a ∈ v.algs, a.interior p = true) := by
  simp only [VTree.interior_iff]
  constructor
  · constructor
    · rintro (_ | ⟨_, _, _, w, _, hw, hi⟩); exact ⟨w, hw, hi⟩
    · rintro ⟨w, hw, hi⟩; exact .multi _ _ _ w p hw hi
  · constructor
    · rintro (⟨_, _, hh, ha⟩ | _); exact ⟨hh, ha⟩
    · rintro ⟨hh, ha⟩; exact .vol v p hh ha

/-- Concrete case: the point (1,0,0) is in the union of two balls, being in the second one only. -/
example (env : Env) : Inside env (.multi [.vol (ballVol 0 (1/2) 0 []), .vol (ballVol ⟨1, 0, 0⟩ 1 0 [])] 0 none)
    (⟨1, 0, 0⟩ : V3 ℝ) ∧ ¬ Inside env (.vol (ballVol 0 (1/2) 0 [])) (⟨1, 0, 0⟩ : V3 ℝ) := by
  constructor
  · refine .multi _ _ _ (.vol (ballVol ⟨1, 0, 0⟩ 1 0 [])) _ (by simp) (.vol _ _ (by simp [ballVol]) ?_)
    intro a ha
    simp only [ballVol, List.mem_singleton] at ha
    subst ha
    simp only [Alg.interior, Sphere.interior_iff, V3.normSq, V3.dot, V3.sub_x, V3.sub_y, V3.sub_z]
    norm_num
  · rintro (⟨_, _, _, ha⟩ | _)
    have := ha _ (List.mem_singleton.mpr rfl)
    simp only [Alg.interior, Sphere.interior_iff, V3.normSq, V3.dot, V3.sub_x, V3.sub_y, V3.sub_z, V3.zero_x, V3.zero_y,
      V3.zero_z] at this
    norm_num at this

/-! ## C14 -/

theorem mem_contents {P S : Type} {bs : List (Body P S)} {q : P × S} (h : q ∈ contents bs) :
    ∃ b ∈ bs, q ∈ b.sites := by
  unfold contents contributed at h
  obtain ⟨i, -, hq⟩ := List.mem_flatMap.mp h
  exact ⟨bs[i], List.getElem_mem _, (List.mem_filter.mp hq).1⟩

theorem fills_inside {env : Env} {t : VTree} {cs : List (V3 ℝ × ℤ)} (h : Fills env t cs) :
    ∀ a ∈ cs, ∃ v ds, Leaf t v ∧ Supplied env v ds ∧ a ∈ ds ∧ Inside env (.vol v) a.1 ∧ Inside env t a.1 := by
  induction h with
  | vol v cs h =>
    intro a ha
    obtain ⟨h1, h2⟩ := List.mem_filter.mp ha
    have h2 := of_decide_eq_true h2
    exact ⟨v, cs, .vol v, h, h1, h2, h2⟩
  | multi parts pr held h ih =>
    intro a ha
    obtain ⟨b, hb, hab⟩ := mem_contents ha
    obtain ⟨x, hx, rfl⟩ := List.mem_map.mp hb
    obtain ⟨v, ds, h1, h2, h3, h4, h5⟩ := ih x hx a hab
    exact ⟨v, ds, .multi _ _ _ x.1 v (List.mem_map.mpr ⟨x, hx, rfl⟩) h1, h2, h3, h4,
      .multi _ _ _ x.1 _ (List.mem_map.mpr ⟨x, hx, rfl⟩) h5⟩

/-- **C14.** After a successful `populate_atoms()` every atom of the volume is inside the volume, and it was supplied
with that species by the generator of one of the Volumes at the leaves, inside which it also is. -/
theorem C14_atoms_inside (env : Env) (t t' : VTree) (n n' : ℕ) (h : t.populate env n = (t', n', .ok ()))
    (as : List (V3 ℝ)) (ss : List ℤ) (hh : t'.held = some (as, ss)) :
    as.length = ss.length ∧ ∀ a ∈ as.zip ss, Inside env t' a.1 ∧ Inside env t a.1 ∧
      ∃ v ds, Leaf t v ∧ Supplied env v ds ∧ a ∈ ds ∧ Inside env (.vol v) a.1 := by
  obtain ⟨cs, hf, ⟨as', ss', h1, h2, h3⟩, -, hin⟩ := VTree.populate_spec env t n t' n' h
  rw [h1] at hh
  injection hh with hh
  injection hh with h4 h5
  subst h4 h5
  refine ⟨h2, fun a ha => ?_⟩
  obtain ⟨v, ds, hl, hs, hd, hv, ht⟩ := fills_inside hf a (h3.mem_iff.mp ha)
  exact ⟨(hin _).mpr ht, ht, v, ds, hl, hs, hd, hv⟩

/-- Concrete case: a ball with two supplied atoms, one of them outside. -/
example (env : Env) : ∃ t' n', VTree.populate env (.vol (ballVol 0 1 0 [⟨0, 0, 0⟩, ⟨5, 0, 0⟩])) 0 = (t', n', .ok ()) :=
  C12_populate_succeeds env _ (ballVol_supplying env 0 1 0 _) 0

/-! ## C16, C21 -/

/-- Volumes given by algebraic surfaces only, every surface well formed (unit normals and axes). -/
inductive SurfaceBounded : VTree → Prop
  | vol (v : Vol) (hp : v.points = none) (ht : v.tri = none) (ha : ∀ a ∈ v.algs, a.WF) : SurfaceBounded (.vol v)
  | multi (vs : List VTree) (pr : ℤ) (hd : Option (List (V3 ℝ) × List ℤ)) (h : ∀ t ∈ vs, SurfaceBounded t) :
      SurfaceBounded (.multi vs pr hd)

theorem transformAlgs_rigid {t : Tr ℝ} (ht : RigidMotion t) (as : List Alg) (ha : ∀ a ∈ as, a.WF) :
    ∃ bs, Vol.transformAlgs t as = (bs, .ok ()) ∧ bs.length = as.length ∧ (∀ b ∈ bs, b.WF) ∧
      ∀ p, bs.all (·.interior (t.apply p)) = as.all (·.interior p) := by
  induction as with
  | nil => exact ⟨[], rfl, rfl, by simp, by simp⟩
  | cons a as ih =>
    obtain ⟨a', h1, h2, h3⟩ := alg_rigid ht a (ha a List.mem_cons_self)
    obtain ⟨bs, h4, h5, h6, h7⟩ := ih fun x hx => ha x (List.mem_cons_of_mem _ hx)
    refine ⟨a' :: bs, ?_, by simp [h5], ?_, ?_⟩
    · rw [Vol.transformAlgs, h1]; simp only [h4]
    · intro b hb
      rcases List.mem_cons.mp hb with rfl | hb
      · exact h2
      · exact h6 b hb
    · intro p; simp [h3, h7]

theorem Inside.vol_iff {env : Env} {v : Vol} (ht : v.tri = none) (p : V3 ℝ) :
    Inside env (.vol v) p ↔ v.algs.all (·.interior p) = true := by
  rw [← Vol.interior_iff, Vol.interior, ht]; simp

theorem Inside.multi_iff {env : Env} {vs : List VTree} {pr : ℤ} {hd : Option (List (V3 ℝ) × List ℤ)} (p : V3 ℝ) :
    Inside env (.multi vs pr hd) p ↔ ∃ w ∈ vs, Inside env w p := by
  constructor
  · rintro (_ | ⟨_, _, _, w, _, hw, hi⟩); exact ⟨w, hw, hi⟩
  · rintro ⟨w, hw, hi⟩; exact .multi _ _ _ w p hw hi

theorem Vol.transform_rigid {env : Env} {v : Vol} (hp : v.points = none) (ha : ∀ a ∈ v.algs, a.WF) {t : Tr ℝ}
    (h : RigidMotion t) :
    ∃ bs g r, v.transform env t = ({ v with algs := bs, gen := g }, r) ∧ (∀ b ∈ bs, b.WF) ∧
      (∀ p, bs.all (·.interior (t.apply p)) = v.algs.all (·.interior p)) ∧
      (g, r) = if t.locked then
          match v.gen with
          | none => (none, .ok ())
          | some g => (some (g.transform t).1, (g.transform t).2)
        else (v.gen, .ok ()) := by
  obtain ⟨bs, h1, h2, h3, h4⟩ := transformAlgs_rigid h v.algs ha
  obtain ⟨pts, hull, tri, algs, gen, prio, tol, at', sp⟩ := v
  simp only at hp h1 h4
  subst hp
  unfold Vol.transform Vol.transformRest
  simp only [h1]
  cases hl : t.locked with
  | false => exact ⟨bs, gen, .ok (), by simp, h3, h4, by simp⟩
  | true =>
    cases gen with
    | none => exact ⟨bs, none, .ok (), by simp, h3, h4, by simp⟩
    | some g => exact ⟨bs, some (g.transform t).1, (g.transform t).2, by simp, h3, h4, by simp⟩

/-- `C16_interior_carried` for trees of Volumes bounded by algebraic surfaces. -/
theorem interior_carried_surfaces (env : Env) (t : Tr ℝ) (ht : RigidMotion t) (w : VTree) (hw : SurfaceBounded w) :
    ∀ w', w.transform env t = (w', .ok ()) →
      SurfaceBounded w' ∧ ∀ p, Inside env w' (t.apply p) ↔ Inside env w p := by
  induction hw with
  | vol v hp htri ha =>
    intro w' h
    obtain ⟨bs, g, r, h1, h2, h3, -⟩ := Vol.transform_rigid (env := env) hp ha ht
    rw [VTree.transform, h1] at h
    simp only [Prod.mk.injEq] at h
    obtain ⟨rfl, -⟩ := h
    refine ⟨.vol _ hp htri h2, fun p => ?_⟩
    rw [Inside.vol_iff htri, Inside.vol_iff (v := { v with algs := bs, gen := g }) htri]
    simp only [h3]
  | multi vs pr hd h ih =>
    intro w' hw'
    rw [VTree.transform] at hw'
    simp only [Prod.mk.injEq] at hw'
    obtain ⟨rfl, hok⟩ := hw'
    have loop : ∀ ws : List VTree, (∀ w ∈ ws, ∀ w', w.transform env t = (w', .ok ()) →
        SurfaceBounded w' ∧ ∀ p, Inside env w' (t.apply p) ↔ Inside env w p) →
        (VTree.transformList env t ws).2 = .ok () → (∀ w' ∈ (VTree.transformList env t ws).1, SurfaceBounded w') ∧
        ∀ p, (∃ w' ∈ (VTree.transformList env t ws).1, Inside env w' (t.apply p)) ↔ ∃ w ∈ ws, Inside env w p := by
      intro ws hws
      induction ws with
      | nil => intro _; simp [VTree.transformList]
      | cons w ws ihw =>
        intro hok
        rw [VTree.transformList] at hok ⊢
        rcases hw : w.transform env t with ⟨w', r⟩
        rw [hw] at hok
        cases r with
        | error e => simp at hok
        | ok u =>
          simp only at hok ⊢
          obtain ⟨h1, h2⟩ := hws w List.mem_cons_self w' hw
          obtain ⟨h3, h4⟩ := ihw (fun x hx => hws x (List.mem_cons_of_mem _ hx)) hok
          refine ⟨?_, fun p => ?_⟩
          · intro x hx
            rcases List.mem_cons.mp hx with rfl | hx
            · exact h1
            · exact h3 x hx
          · simp only [List.mem_cons, exists_eq_or_imp, h2, h4]
    obtain ⟨h1, h2⟩ := loop vs ih hok
    exact ⟨.multi _ _ _ h1, fun p => by rw [Inside.multi_iff, Inside.multi_iff]; exact h2 p⟩

/-- Volumes as the constructors and methods make them: a triangulation only together with points, every surface well formed. -/
inductive WellMade : VTree → Prop
  | vol (v : Vol) (ht : v.points = none → v.tri = none) (ha : ∀ a ∈ v.algs, a.WF) : WellMade (.vol v)
  | multi (vs : List VTree) (pr : ℤ) (hd : Option (List (V3 ℝ) × List ℤ)) (h : ∀ t ∈ vs, WellMade t) : WellMade (.multi vs pr hd)

theorem transform_ok_points {env : Env} {v v' : Vol} {t : Tr ℝ} (h : v.transform env t = (v', .ok ())) : v.points = none := by
  unfold Vol.transform at h
  cases hp : v.points with
  | none => rfl
  | some x =>
    rw [hp] at h
    cases x <;> simp [Vol.setPoints, Vol.addPoints] at h

/-- A tree that can be transformed has no Volume with points. -/
theorem transform_ok_surfaces (env : Env) (t : Tr ℝ) (w : VTree) (hw : WellMade w) :
    ∀ w', w.transform env t = (w', .ok ()) → SurfaceBounded w := by
  induction hw with
  | vol v ht ha =>
    intro w' h
    rw [VTree.transform] at h
    rcases hv : v.transform env t with ⟨v', r⟩
    rw [hv] at h
    simp only [Prod.mk.injEq] at h
    obtain ⟨-, rfl⟩ := h
    have hp := transform_ok_points hv
    exact .vol v hp (ht hp) ha
  | multi vs pr hd h ih =>
    intro w' hw'
    rw [VTree.transform] at hw'
    simp only [Prod.mk.injEq] at hw'
    obtain ⟨-, hok⟩ := hw'
    refine .multi _ _ _ ?_
    clear h
    induction vs with
    | nil => simp
    | cons w ws ihw =>
      rw [VTree.transformList] at hok
      rcases hw : w.transform env t with ⟨w', r⟩
      rw [hw] at hok
      cases r with
      | error e => simp at hok
      | ok u =>
        simp only at hok
        intro x hx
        rcases List.mem_cons.mp hx with rfl | hx
        · exact ih x List.mem_cons_self w' hw
        · exact ihw (fun x hx => ih x (List.mem_cons_of_mem _ hx)) hok x hx

/-- **C16.** For every tree of Volumes and every composition of translations, rotations and inversions: when `transform(T)` returns, `T(p)`
is interior to the result iff `p` was interior before.  (Volumes with points never get there, see C18.) -/
theorem C16_interior_carried (env : Env) (t : Tr ℝ) (ht : RigidMotion t) (w w' : VTree) (hw : WellMade w)
    (h : w.transform env t = (w', .ok ())) : WellMade w' ∧ ∀ p, Inside env w' (t.apply p) ↔ Inside env w p := by
  obtain ⟨h1, h2⟩ := interior_carried_surfaces env t ht w (transform_ok_surfaces env t w hw w' h) w' h
  refine ⟨?_, h2⟩
  clear h2 h hw
  induction h1 with
  | vol v hp ht ha => exact .vol v (fun _ => ht) ha
  | multi vs pr hd _ ih => exact .multi vs pr hd ih

theorem rigid_invertible {t : Tr ℝ} (h : RigidMotion t) : InvertibleTr t := by
  refine RigidMotion.induct (P := fun t => InvertibleTr t) ?_ ?_ ?_ h
  · intro s l b; exact .translation s l b
  · intro k M o l b hM _; exact .matrix k M o l b (orth_det_ne hM)
  · intro ts _ h; exact .multi ts h

/-- Every Volume of the tree has no generator or a crystalline one with linearly independent basis vectors. -/
inductive CrystalFilled : VTree → Prop
  | vol (v : Vol) (h : ∀ g, v.gen = some g → ∃ c x, g = .crystal c ∧ c.voxel = some x ∧ x.bases.det ≠ 0) :
      CrystalFilled (.vol v)
  | multi (vs : List VTree) (pr : ℤ) (hd : Option (List (V3 ℝ) × List ℤ)) (h : ∀ t ∈ vs, CrystalFilled t) :
      CrystalFilled (.multi vs pr hd)

theorem gen_transform_ok {c : Gen ℝ} {x : Voxel ℝ} (hx : c.voxel = some x) (hd : x.bases.det ≠ 0) {t : Tr ℝ}
    (ht : InvertibleTr t) : ∃ o, c.transform t = ({ c with voxel := some { x with bases := t.bases x.bases, origin := o } }, .ok ()) ∧
      o = if t.basisOnly then x.origin else t.apply x.origin := by
  obtain ⟨L, hL, hLb, -⟩ := ht.linearPart
  have hset : Voxel.basesSet (t.bases x.bases) = .ok (t.bases x.bases) :=
    basesSet_of_det (by rw [hLb, M3.det_mul]; exact mul_ne_zero hL hd)
  unfold Gen.transform
  rw [hx]
  simp only [hset]
  cases t.basisOnly
  · exact ⟨t.apply x.origin, rfl, by simp⟩
  · exact ⟨x.origin, rfl, by simp⟩

/-- **C16/C21 (partial).** On trees bounded by algebraic surfaces and filled by crystals (or nothing), a rigid motion never
fails, so there is no failure that could leave a volume half transformed. -/
theorem C21_rigid_never_fails_partial (env : Env) (t : Tr ℝ) (ht : RigidMotion t) (w : VTree) (hw : SurfaceBounded w)
    (hc : CrystalFilled w) : ∃ w', w.transform env t = (w', .ok ()) := by
  induction hw with
  | vol v hp htri ha =>
    cases hc with
    | vol _ hg =>
      obtain ⟨bs, g, r, h1, -, -, h4⟩ := Vol.transform_rigid (env := env) hp ha ht
      rw [VTree.transform, h1]
      suffices r = .ok () by rw [this]; exact ⟨_, rfl⟩
      cases hl : t.locked with
      | false => rw [hl] at h4; simp only [Bool.false_eq_true, if_false, Prod.mk.injEq] at h4; exact h4.2
      | true =>
        rw [hl] at h4
        cases hv : v.gen with
        | none => rw [hv] at h4; simp only [if_true, Prod.mk.injEq] at h4; exact h4.2
        | some g0 =>
          rw [hv] at h4
          obtain ⟨c, x, rfl, hx, hd⟩ := hg g0 hv
          obtain ⟨o, ho, -⟩ := gen_transform_ok hx hd (rigid_invertible ht)
          simp only [if_true, Prod.mk.injEq, GenObj.transform, ho] at h4
          exact h4.2
  | multi vs pr hd h ih =>
    cases hc with
    | multi _ _ _ hcs =>
      have loop : ∀ ws : List VTree, (∀ w ∈ ws, ∃ w', w.transform env t = (w', .ok ())) →
          (VTree.transformList env t ws).2 = .ok () := by
        intro ws hws
        induction ws with
        | nil => simp [VTree.transformList]
        | cons w ws ihw =>
          obtain ⟨w', hw'⟩ := hws w List.mem_cons_self
          rw [VTree.transformList, hw']
          exact ihw fun x hx => hws x (List.mem_cons_of_mem _ hx)
      rw [VTree.transform]
      simp only [loop vs fun w hw => ih w hw (hcs w hw)]
      exact ⟨_, rfl⟩

/-- Concrete case: a ball with a simple cubic crystal, any rigid motion. -/
example : SurfaceBounded (.vol ⟨none, none, none, [.sphere ⟨1, 0, 1⟩], some (.crystal ⟨none, some ⟨1, .scalar 1, 0⟩, none, none⟩), 0, 1,
      none, none⟩) ∧
    CrystalFilled (.vol ⟨none, none, none, [.sphere ⟨1, 0, 1⟩], some (.crystal ⟨none, some ⟨1, .scalar 1, 0⟩, none, none⟩), 0, 1,
      none, none⟩) ∧ RigidMotion (.multi [.translation ⟨1, 2, 3⟩ true false, Tr.mkInversion none true false]) := by
  refine ⟨.vol _ rfl rfl ?_, .vol _ ?_, .multi _ ?_⟩
  · intro a ha; simp only [List.mem_singleton] at ha; subst ha
    simp [Alg.WF]
  · intro g hg; simp only [Option.some.injEq] at hg; subst hg
    exact ⟨_, _, rfl, rfl, by rw [M3.det_one]; norm_num⟩
  · intro t ht
    simp only [List.mem_cons, List.not_mem_nil, or_false] at ht
    rcases ht with rfl | rfl
    · exact .translation _ _ _
    · exact .inversion _ _ _

/-- **C21, finding.** A ball with an amorphous generator: a locked translation moves the ball and then raises
AttributeError, because amorphous generators have no `transform`. -/
theorem C21_failed_transform_refuted (env : Env) :
    ¬ ∀ (v v' : Vol) (t : Tr ℝ) (e : PyErr), v.transform env t = (v', .error e) →
      v'.points = v.points ∧ v'.algs = v.algs ∧ v'.gen = v.gen := by
  intro h
  have h1 := h (ballVol 0 1 0 []) (ballVol ⟨1, 0, 0⟩ 1 0 []) (.translation ⟨1, 0, 0⟩ true false) .attribute (by
    simp only [Vol.transform, ballVol, Vol.transformRest, Vol.transformAlgs, Tr.alg, Tr.locked, GenObj.transform]
    simp)
  have h2 := h1.2.1
  simp only [ballVol, List.cons.injEq, Alg.sphere.injEq, Sphere.mk.injEq, V3.ext_iff] at h2
  norm_num at h2

/-- **C21, finding.** A failing transform of a Volume given by points loses the points: they are cleared before the
error. -/
theorem C21_points_lost (env : Env) (v : Vol) (ps : List (V3 ℝ)) (hp : v.points = some (.arr ps)) (t : Tr ℝ) :
    (v.transform env t).1.points = some .cleared ∧ (v.transform env t).2 = .error .value := by
  unfold Vol.transform
  rw [hp]
  simp [Vol.setPoints, Vol.addPoints]

/-! ## C18 -/

/-- **C18, finding.** `transform` of a Volume given by points raises ValueError for every transformation: the points
setter clears the array to shape (0,) and then tries to append an (N,3) array to it. -/
theorem C18_always_raises (env : Env) (v : Vol) (ps : List (V3 ℝ)) (hp : v.points = some (.arr ps)) (t : Tr ℝ) :
    (v.transform env t).2 = .error .value := (C21_points_lost env v ps hp t).2

/-- **C18, finding.** Hence the property fails for every point-defined Volume. -/
theorem C18_points_transform_refuted (env : Env) (ps : List (V3 ℝ)) :
    ¬ ∃ (v v' : Vol) (t : Tr ℝ), v.points = some (.arr ps) ∧ v.transform env t = (v', .ok ()) := by
  rintro ⟨v, v', t, hp, h⟩
  have := C18_always_raises env v ps hp t
  rw [h] at this
  cases this

theorem foldl_addAlg (as : List Alg) : ∀ v : Vol, as.foldl Vol.addAlg v = { v with algs := v.algs ++ as } := by
  induction as with
  | nil => intro v; simp
  | cons a as ih => intro v; rw [List.foldl_cons, ih]; simp [Vol.addAlg]

theorem make_points (env : Env) (ps : List (V3 ℝ)) (h3 : 3 < ps.length) (hq : env.hullOk ps = true) (as : List Alg)
    (pr : ℤ) (tol : ℝ) :
    Vol.make env (some ps) as none pr tol none =
      .ok ⟨some (.arr ps), some ps, some ps, as, none, pr, tol, none, none⟩ := by
  simp [Vol.make, Vol.addPoints, Vol.updateHull, Vol.blank, Vol.createHull, h3, hq, bind, Except.bind, pure, Except.pure,
    foldl_addAlg]

theorem make_surfaces (env : Env) (as : List Alg) (pr : ℤ) (tol : ℝ) :
    Vol.make env none as none pr tol none = .ok ⟨none, none, none, as, none, pr, tol, none, none⟩ := by
  simp [Vol.make, Vol.blank, bind, Except.bind, pure, Except.pure, foldl_addAlg]

/-- Concrete case: such Volumes exist, whenever qhull accepts the points. -/
example (env : Env) (ps : List (V3 ℝ)) (h3 : 3 < ps.length) (hq : env.hullOk ps = true) :
    ∃ v, Vol.make env (some ps) [] none 0 (1 / 10 ^ 10) none = .ok v ∧ v.points = some (.arr ps) :=
  ⟨_, make_points env ps h3 hq [] 0 _, rfl⟩

/-! ## C19 -/

/-- Contract of qhull's point location in exact arithmetic: the points of the hull are found, and with tolerance 0 no
others. -/
structure ExactHull (env : Env) : Prop where
  mem : ∀ ps tol p, 0 ≤ tol → p ∈ Region ps → env.inHull ps tol p = true
  only : ∀ ps p, env.inHull ps 0 p = true → p ∈ Region ps

/-- An environment with exact geometry: a point is found iff a point of the hull is within the tolerance (in every
coordinate). -/
def exactEnv : Env where
  inHull ps tol p := decide (∃ q ∈ Region ps, |p.x - q.x| ≤ tol ∧ |p.y - q.y| ≤ tol ∧ |p.z - q.z| ≤ tol)
  hullOk ps := decide (3 < ps.length)
  planesBox _ := ([], 0)
  rng _ _ _ _ := 0
  substrate _ _ := []

theorem exactEnv_exact : ExactHull exactEnv := by
  constructor
  · intro ps tol p ht hp
    simp only [exactEnv, decide_eq_true_eq]
    exact ⟨p, hp, by simpa using ht, by simpa using ht, by simpa using ht⟩
  · intro ps p h
    simp only [exactEnv, decide_eq_true_eq] at h
    obtain ⟨q, hq, h1, h2, h3⟩ := h
    have : p = q := by
      ext
      · exact sub_eq_zero.mp (abs_nonpos_iff.mp h1)
      · exact sub_eq_zero.mp (abs_nonpos_iff.mp h2)
      · exact sub_eq_zero.mp (abs_nonpos_iff.mp h3)
    rw [this]; exact hq

/-- **C19 (partial).** The points given first (which create the hull) are interior to the volume.  Missing from C19:
points added later, for which it fails. -/
theorem C19_initial_points_partial (env : Env) (he : ExactHull env) (ps : List (V3 ℝ)) (pr : ℤ) (tol : ℝ) (ht : 0 ≤ tol)
    (v : Vol) (h : Vol.make env (some ps) [] none pr tol none = .ok v) (q : V3 ℝ) (hq : q ∈ Region ps) :
    Inside env (.vol v) q := by
  by_cases h3 : 3 < ps.length
  · by_cases ho : env.hullOk ps = true
    · rw [make_points env ps h3 ho] at h
      injection h with h
      subst h
      refine .vol _ _ ?_ (by simp)
      intro t htt
      simp only [Option.some.injEq] at htt
      subst htt
      exact he.mem _ _ _ ht hq
    · simp [Vol.make, Vol.addPoints, Vol.updateHull, Vol.blank, Vol.createHull, h3, ho, bind, Except.bind] at h
  · simp [Vol.make, Vol.addPoints, Vol.updateHull, Vol.blank, Vol.createHull, h3, bind, Except.bind] at h

/-- **C19, finding.** On a Volume that has a hull, `addPoints` succeeds and extends the list of points, but the interior
test is exactly what it was: the triangulation is never rebuilt. -/
theorem C19_interior_never_grows (env : Env) (v : Vol) (qs h : List (V3 ℝ)) (hp : v.points = some (.arr qs))
    (hh : v.hull = some h) (a : PtArg) :
    ∃ v', v.addPoints env a = (v', .ok ()) ∧ v'.points = some (.arr (qs ++ Vol.rowsOf a)) ∧
      ∀ p, Inside env (.vol v') p ↔ Inside env (.vol v) p := by
  refine ⟨{ v with points := some (.arr (qs ++ Vol.rowsOf a)), hull := some (h ++ Vol.rowsOf a) }, ?_, rfl, fun p => ?_⟩
  · unfold Vol.addPoints
    rw [hp]
    simp only [Vol.updateHull, hh]
  · rw [← Vol.interior_iff, ← Vol.interior_iff]; rfl

/-- The corners of a unit tetrahedron. -/
def tetra : List (V3 ℝ) := [⟨0, 0, 0⟩, ⟨1, 0, 0⟩, ⟨0, 1, 0⟩, ⟨0, 0, 1⟩]

theorem region_le {ps : List (V3 ℝ)} {c : ℝ} (f : V3 ℝ → ℝ) (hf : ∀ (p q : V3 ℝ) (a b : ℝ), f (a • p + b • q) = a * f p + b * f q)
    (h : ∀ p ∈ ps, f p ≤ c) {p : V3 ℝ} (hp : p ∈ Region ps) : f p ≤ c := by
  have hconv : Convex ℝ {p : V3 ℝ | f p ≤ c} := by
    intro x hx y hy a b ha hb hab
    simp only [Set.mem_ofPred_eq] at hx hy ⊢
    rw [hf]
    calc a * f x + b * f y ≤ a * c + b * c := by
          exact add_le_add (mul_le_mul_of_nonneg_left hx ha) (mul_le_mul_of_nonneg_left hy hb)
      _ = c := by rw [← add_mul, hab, one_mul]
  exact convexHull_min (s := {p | p ∈ ps}) (fun p hp => h p hp) hconv hp

/-- **C19, finding.** Adding the point (5,0,0) to a tetrahedron: it is not interior afterwards. -/
theorem C19_added_points_refuted :
    ¬ ∀ (v v' : Vol) (q : V3 ℝ), v.algs = [] → v.hull ≠ none → v.addPoints exactEnv (.vec q) = (v', .ok ()) →
      Inside exactEnv (.vol v') q := by
  intro h
  have hm := make_points exactEnv tetra (by simp [tetra]) (by simp [exactEnv, tetra]) [] 0 0
  obtain ⟨v', h1, -, h3⟩ := C19_interior_never_grows exactEnv
    ⟨some (.arr tetra), some tetra, some tetra, [], none, 0, 0, none, none⟩ tetra tetra rfl rfl (.vec ⟨5, 0, 0⟩)
  have := (h3 _).mp (h _ v' _ rfl (by simp) h1)
  rcases this with ⟨_, _, hh, _⟩ | _
  have hr := exactEnv_exact.only _ _ (hh tetra rfl)
  have := region_le (c := 1) V3.x (fun p q a b => by simp) (by
    intro p hp; simp only [tetra, List.mem_cons, List.not_mem_nil, or_false] at hp
    rcases hp with rfl | rfl | rfl | rfl <;> norm_num) hr
  norm_num at this

/-! ## C20 -/

/-- **C20, finding.** A Volume without points and spheres that is bounded by more than three planes can never be
populated with a crystalline generator or a freshly computed amorphous one: the bounding box is a tuple. -/
theorem C20_planes_always_raise (env : Env) (v : Vol) (n : ℕ) (hp : v.points = none) (hs : v.spheres = [])
    (hpl : 3 < v.planes.length)
    (hg : (∃ g x, v.gen = some (.crystal g) ∧ g.voxel = some x) ∨ ∃ a, v.gen = some (.amorphous a) ∧ a.old = none) :
    v.populate env n = (v, .error .value) := by
  have hb : v.boundingBox env = .ok (.tuple (env.planesBox v.planes).1 (env.planesBox v.planes).2) := by
    unfold Vol.boundingBox
    rw [hp, hs]
    simp [hpl]
  unfold Vol.populate
  rw [hb]
  obtain ⟨pts, hull, tri, algs, gen, prio, tol, at', sp⟩ := v
  rcases hg with ⟨g, x, hg, hx⟩ | ⟨a, hg, hx⟩
  · simp only at hg
    subst hg
    simp [GenObj.supply, hx]
  · simp only at hg
    subst hg
    simp [GenObj.supply, hx]

/-- The six faces of the unit cube. -/
def cubeFaces : List Alg :=
  [.plane ⟨⟨-1, 0, 0⟩, 0, 1 / 10 ^ 5⟩, .plane ⟨⟨0, -1, 0⟩, 0, 1 / 10 ^ 5⟩, .plane ⟨⟨0, 0, -1⟩, 0, 1 / 10 ^ 5⟩,
   .plane ⟨⟨1, 0, 0⟩, ⟨1, 1, 1⟩, 1 / 10 ^ 5⟩, .plane ⟨⟨0, 1, 0⟩, ⟨1, 1, 1⟩, 1 / 10 ^ 5⟩, .plane ⟨⟨0, 0, 1⟩, ⟨1, 1, 1⟩, 1 / 10 ^ 5⟩]

/-- **C20, finding.** The unit cube as six planes, with a crystal. -/
theorem C20_planes_refuted (env : Env) :
    ¬ ∀ (v : Vol) (n : ℕ), v.points = none → v.spheres = [] → 3 < v.planes.length →
      (∃ g x, v.gen = some (.crystal g) ∧ g.voxel = some x) → ∃ v', v.populate env n = (v', .ok ()) := by
  intro h
  obtain ⟨v', hv⟩ := h ⟨none, none, none, cubeFaces, some (.crystal ⟨some ⟨1, [(0, 6)]⟩, some ⟨1, .scalar 1, 0⟩, none, none⟩), 0, 1,
    none, none⟩ 0 rfl (by simp [Vol.spheres, cubeFaces]) (by simp [Vol.planes, cubeFaces]) ⟨_, _, rfl, rfl⟩
  rw [C20_planes_always_raise env _ 0 rfl (by simp [Vol.spheres, cubeFaces]) (by simp [Vol.planes, cubeFaces])
    (Or.inl ⟨_, _, rfl, rfl⟩)] at hv
  simp at hv

/-! ## C22 -/

theorem transformRest_gen (v : Vol) (t : Tr ℝ) (hl : t.locked = false) : (v.transformRest t).1.gen = v.gen := by
  unfold Vol.transformRest
  rcases Vol.transformAlgs t v.algs with ⟨as, r⟩
  cases r with
  | error e => rfl
  | ok u => simp [hl]

theorem updateHull_gen (env : Env) (v : Vol) (ps : List (V3 ℝ)) : (Vol.updateHull env v ps).1.gen = v.gen := by
  unfold Vol.updateHull Vol.createHull
  split
  · rfl
  · split
    · split
      · rfl
      · split <;> rfl
    all_goals rfl

/-- **C22 (locked).** A transformation with `locked=False` never changes the generator of the Volume, whether or not the
call succeeds. -/
theorem C22_unlocked_keeps_generator (env : Env) (v : Vol) (t : Tr ℝ) (hl : t.locked = false) :
    (v.transform env t).1.gen = v.gen := by
  unfold Vol.transform
  cases hp : v.points with
  | none => exact transformRest_gen v t hl
  | some a =>
    cases a with
    | cleared => rfl
    | arr ps => simp [Vol.setPoints, Vol.addPoints]
    | single p => simp [Vol.setPoints, Vol.addPoints]

/-- The voxel of a Volume's crystalline generator. -/
def voxelOf (v : Vol) : Option (Voxel ℝ) :=
  match v.gen with
  | some (.crystal g) => g.voxel
  | _ => none

theorem transform_voxel (env : Env) (v : Vol) (t : Tr ℝ) (hp : v.points = none) :
    ((v.transform env t).1.gen = v.gen) ∨ ∃ g, v.gen = some g ∧ (v.transform env t).1.gen = some (g.transform t).1 ∧
      (v.transform env t).2 = (g.transform t).2 := by
  unfold Vol.transform
  rw [hp]
  simp only [Vol.transformRest]
  rcases Vol.transformAlgs t v.algs with ⟨as, r⟩
  cases r with
  | error e => exact Or.inl rfl
  | ok u =>
    simp only
    cases hl : t.locked with
    | false => exact Or.inl rfl
    | true =>
      cases hg : v.gen with
      | none => exact Or.inl rfl
      | some g => exact Or.inr ⟨g, rfl, rfl, rfl⟩

/-- **C22 (basis_only).** A transformation with `basis_only=True` never changes the origin of the generator, nor its
scale. -/
theorem C22_basis_only_keeps_origin (env : Env) (v : Vol) (t : Tr ℝ) (hb : t.basisOnly = true) (x : Voxel ℝ)
    (hx : voxelOf v = some x) :
    ∃ y, voxelOf (v.transform env t).1 = some y ∧ y.origin = x.origin ∧ y.scale = x.scale := by
  cases hp : v.points with
  | some a =>
    have : (v.transform env t).1.gen = v.gen := by
      unfold Vol.transform
      rw [hp]
      cases a with
      | cleared => rfl
      | arr ps => simp [Vol.setPoints, Vol.addPoints]
      | single p => simp [Vol.setPoints, Vol.addPoints]
    exact ⟨x, by rw [← hx]; unfold voxelOf; rw [this], rfl, rfl⟩
  | none =>
    rcases transform_voxel env v t hp with h | ⟨g, hg, h, -⟩
    · exact ⟨x, by rw [← hx]; unfold voxelOf; rw [h], rfl, rfl⟩
    · unfold voxelOf at hx ⊢
      rw [hg] at hx
      rw [h]
      cases g with
      | amorphous a => cases hx
      | null => cases hx
      | crystal c =>
        simp only at hx
        simp only [GenObj.transform, Gen.transform, hx]
        cases Voxel.basesSet (t.bases x.bases) with
        | error e => exact ⟨x, hx, rfl, rfl⟩
        | ok b => simp only [hb, if_true]; exact ⟨_, rfl, rfl, rfl⟩

/-- **C22 (otherwise).** A locked transformation without `basis_only` that succeeds transforms both the bases and the
origin. -/
theorem C22_locked_moves_both (env : Env) (v v' : Vol) (t : Tr ℝ) (hl : t.locked = true) (hb : t.basisOnly = false)
    (h : v.transform env t = (v', .ok ())) (x : Voxel ℝ) (hx : voxelOf v = some x) :
    voxelOf v' = some ⟨t.bases x.bases, x.scale, t.apply x.origin⟩ := by
  cases hp : v.points with
  | some a =>
    exfalso
    unfold Vol.transform at h
    rw [hp] at h
    cases a with
    | cleared => simp at h
    | arr ps => simp [Vol.setPoints, Vol.addPoints] at h
    | single p => simp [Vol.setPoints, Vol.addPoints] at h
  | none =>
    unfold Vol.transform at h
    rw [hp] at h
    simp only [Vol.transformRest] at h
    rcases hA : Vol.transformAlgs t v.algs with ⟨as, r⟩
    rw [hA] at h
    cases r with
    | error e => simp at h
    | ok u =>
      simp only [hl, if_true] at h
      unfold voxelOf at hx ⊢
      cases hg : v.gen with
      | none => rw [hg] at hx; cases hx
      | some g =>
        rw [hg] at hx h
        simp only [Prod.mk.injEq] at h
        obtain ⟨rfl, h2⟩ := h
        cases g with
        | amorphous a => cases hx
        | null => cases hx
        | crystal c =>
          simp only at hx
          simp only [GenObj.transform, Gen.transform, hx] at h2 ⊢
          have hset : ∀ B b : M3 ℝ, Voxel.basesSet B = .ok b → b = B := by
            intro B b hB
            unfold Voxel.basesSet at hB
            split_ifs at hB
            injection hB with hB
            exact hB.symm
          cases hs : Voxel.basesSet (t.bases x.bases) with
          | error e => rw [hs] at h2; simp at h2
          | ok b =>
            rw [hset _ _ hs]
            simp [hb]

/-- Concrete case: the three kinds of flags on a ball with a cubic crystal. -/
example (env : Env) (l b : Bool) : ∃ v', Vol.transform env ⟨none, none, none, [.sphere ⟨1, 0, 1⟩],
    some (.crystal ⟨none, some ⟨1, .scalar 1, 0⟩, none, none⟩), 0, 1, none, none⟩ (.translation ⟨1, 0, 0⟩ l b) = (v', .ok ()) := by
  have := C21_rigid_never_fails_partial env (.translation ⟨1, 0, 0⟩ l b) (.translation _ _ _)
    (.vol ⟨none, none, none, [.sphere ⟨1, 0, 1⟩], some (.crystal ⟨none, some ⟨1, .scalar 1, 0⟩, none, none⟩), 0, 1, none, none⟩)
    (.vol _ rfl rfl (by
      intro a ha; simp only [List.mem_singleton] at ha; subst ha; simp [Alg.WF]))
    (.vol _ (by
      intro g hg; simp only [Option.some.injEq] at hg; subst hg
      exact ⟨_, _, rfl, rfl, by rw [M3.det_one]; norm_num⟩))
  obtain ⟨w, hw⟩ := this
  rw [VTree.transform] at hw
  simp only [Prod.mk.injEq] at hw
  exact ⟨_, Prod.ext rfl hw.2⟩

/-! ## C23 -/

/-- **C23 (partial).** For a Volume as constructed (hull and triangulation belong to its points), with the default
tolerance and with a generator, `from_volume()` succeeds and the copy has the same region, priority and generator.
Missing from C23: other tolerances, missing generators, and hulls extended by `addPoints`, for all of which it fails. -/
theorem C23_copy_partial (env : Env) (v : Vol) (g : GenObj) (hg : v.gen = some g) (ht : v.tol = 1 / 10 ^ 10)
    (hcon : (v.points = none ∧ v.tri = none) ∨
      ∃ ps, v.points = some (.arr ps) ∧ v.tri = some ps ∧ 3 < ps.length ∧ env.hullOk ps = true) :
    ∃ w, v.fromVolume env none [] = .ok w ∧ (∀ p, Inside env (.vol w) p ↔ Inside env (.vol v) p) ∧
      w.priority = v.priority ∧ w.gen = v.gen := by
  have hadd : ∀ w : Vol, w.addGenerator (some g) none = ({ w with gen := (some g : Option GenObj) }, .ok ()) := by
    intro w; cases g <;> rfl
  rcases hcon with ⟨hp, htr⟩ | ⟨ps, hp, htr, h3, ho⟩
  · refine ⟨⟨none, none, none, v.algs, some g, v.priority, 1 / 10 ^ 10, none, none⟩, ?_, ?_, ?_, ?_⟩
    · unfold Vol.fromVolume
      simp only [hp, make_surfaces, bind, Except.bind, pure, Except.pure, Option.getD_none, hg, hadd, Vol.transformAll]
    · intro p; rw [← Vol.interior_iff, ← Vol.interior_iff]; simp [Vol.interior, htr]
    · rfl
    · exact hg.symm
  · refine ⟨⟨some (.arr ps), some ps, some ps, v.algs, some g, v.priority, 1 / 10 ^ 10, none, none⟩, ?_, ?_, ?_, ?_⟩
    · unfold Vol.fromVolume
      simp only [hp, make_points env ps h3 ho, bind, Except.bind, pure, Except.pure, Option.getD_none, hg, hadd,
        Vol.transformAll]
    · intro p; rw [← Vol.interior_iff, ← Vol.interior_iff]; simp [Vol.interior, htr, ht]
    · rfl
    · exact hg.symm

/-- Concrete case: a hull of accepted points with a crystal. -/
example (env : Env) (ps : List (V3 ℝ)) (h3 : 3 < ps.length) (hq : env.hullOk ps = true) (g : Gen ℝ) :
    ∃ v, Vol.make env (some ps) [] (some (.crystal g)) 3 (1 / 10 ^ 10) none = .ok v ∧ v.gen = some (.crystal g) ∧
      v.tol = 1 / 10 ^ 10 ∧ v.points = some (.arr ps) ∧ v.tri = some ps := by
  refine ⟨⟨some (.arr ps), some ps, some ps, [], some (.crystal g), 3, 1 / 10 ^ 10, none, none⟩, ?_, rfl, rfl, rfl, rfl⟩
  simp [Vol.make, Vol.addPoints, Vol.updateHull, Vol.blank, Vol.createHull, Vol.addGenerator, h3, hq, bind, Except.bind, pure,
    Except.pure]

/-- **C23, finding.** A Volume without generator cannot be copied at all. -/
theorem C23_no_generator_raises (env : Env) (v : Vol) (hg : v.gen = none) (ts : List (Tr ℝ)) :
    ¬ ∃ w, v.fromVolume env none ts = .ok w := by
  rintro ⟨w, h⟩
  unfold Vol.fromVolume at h
  simp only [bind, Except.bind, Option.getD_none, hg, Vol.addGenerator] at h
  repeat' split at h
  all_goals simp_all

theorem tetra_z {p : V3 ℝ} (h : p ∈ Region tetra) : 0 ≤ p.z := by
  have := region_le (ps := tetra) (c := 0) (fun p => -p.z) (fun p q a b => by simp; ring) (by
    intro p hp; simp only [tetra, List.mem_cons, List.not_mem_nil, or_false] at hp
    rcases hp with rfl | rfl | rfl | rfl <;> norm_num) h
  simpa using this

/-- **C23, finding.** The tolerance is not copied: a tetrahedron with tolerance 1 contains (0, 0, -1/2), its copy does
not. -/
theorem C23_tolerance_refuted :
    ∃ v w : Vol, Vol.make exactEnv (some tetra) [] (some .null) 0 1 none = .ok v ∧ v.fromVolume exactEnv none [] = .ok w ∧
      Inside exactEnv (.vol v) ⟨0, 0, -1 / 2⟩ ∧ ¬ Inside exactEnv (.vol w) ⟨0, 0, -1 / 2⟩ := by
  have h3 : 3 < tetra.length := by simp [tetra]
  have hq : exactEnv.hullOk tetra = true := by simp [exactEnv, tetra]
  refine ⟨⟨some (.arr tetra), some tetra, some tetra, [], some .null, 0, 1, none, none⟩,
    ⟨some (.arr tetra), some tetra, some tetra, [], some .null, 0, 1 / 10 ^ 10, none, none⟩, ?_, ?_, ?_, ?_⟩
  · simp [Vol.make, Vol.addPoints, Vol.updateHull, Vol.blank, Vol.createHull, Vol.addGenerator, h3, hq, bind, Except.bind, pure,
      Except.pure]
  · simp [Vol.fromVolume, Vol.make, Vol.addPoints, Vol.updateHull, Vol.blank, Vol.createHull, Vol.addGenerator, h3, hq, bind,
      Except.bind, pure, Except.pure, Vol.transformAll]
  · refine .vol _ _ ?_ (by simp)
    intro t ht
    simp only [Option.some.injEq] at ht
    subst ht
    simp only [exactEnv, decide_eq_true_eq]
    refine ⟨0, subset_convexHull ℝ _ ?_, by simp, by simp, by norm_num⟩
    show (0 : V3 ℝ) ∈ tetra
    rw [tetra, show (⟨0, 0, 0⟩ : V3 ℝ) = 0 from rfl]
    exact List.mem_cons_self
  · rintro (⟨_, _, hh, _⟩ | _)
    have := hh tetra rfl
    simp only [exactEnv, decide_eq_true_eq] at this
    obtain ⟨q, hq, -, -, h⟩ := this
    have hz := tetra_z hq
    have := (abs_le.mp h).1
    norm_num at this
    linarith

/-- **C23, finding.** After `addPoints` the copy is a different region: it is built from all points, while the original
still uses its first triangulation. -/
theorem C23_added_points_refuted :
    ∃ v v' w : Vol, Vol.make exactEnv (some tetra) [] (some .null) 0 0 none = .ok v ∧
      v.addPoints exactEnv (.vec ⟨5, 0, 0⟩) = (v', .ok ()) ∧ v'.fromVolume exactEnv none [] = .ok w ∧
      ¬ Inside exactEnv (.vol v') ⟨5, 0, 0⟩ ∧ Inside exactEnv (.vol w) ⟨5, 0, 0⟩ := by
  have h3 : 3 < tetra.length := by simp [tetra]
  have hq : exactEnv.hullOk tetra = true := by simp [exactEnv, tetra]
  have h3' : 3 < (tetra ++ [(⟨5, 0, 0⟩ : V3 ℝ)]).length := by simp [tetra]
  have hq' : exactEnv.hullOk (tetra ++ [⟨5, 0, 0⟩]) = true := by simp [exactEnv, tetra]
  refine ⟨⟨some (.arr tetra), some tetra, some tetra, [], some .null, 0, 0, none, none⟩,
    ⟨some (.arr (tetra ++ [⟨5, 0, 0⟩])), some (tetra ++ [⟨5, 0, 0⟩]), some tetra, [], some .null, 0, 0, none, none⟩,
    ⟨some (.arr (tetra ++ [⟨5, 0, 0⟩])), some (tetra ++ [⟨5, 0, 0⟩]), some (tetra ++ [⟨5, 0, 0⟩]), [], some .null, 0,
      1 / 10 ^ 10, none, none⟩, ?_, rfl, ?_, ?_, ?_⟩
  · simp [Vol.make, Vol.addPoints, Vol.updateHull, Vol.blank, Vol.createHull, Vol.addGenerator, h3, hq, bind, Except.bind, pure,
      Except.pure]
  · unfold Vol.fromVolume
    simp only [make_points exactEnv _ h3' hq', bind, Except.bind, pure, Except.pure, Option.getD_none, Vol.addGenerator,
      Vol.transformAll]
  · rintro (⟨_, _, hh, _⟩ | _)
    have hr := exactEnv_exact.only _ _ (hh tetra rfl)
    have := region_le (c := 1) V3.x (fun p q a b => by simp) (by
      intro p hp; simp only [tetra, List.mem_cons, List.not_mem_nil, or_false] at hp
      rcases hp with rfl | rfl | rfl | rfl <;> norm_num) hr
    norm_num at this
  · refine .vol _ _ ?_ (by simp)
    intro t ht
    simp only [Option.some.injEq] at ht
    subst ht
    refine exactEnv_exact.mem _ _ _ (by positivity) (subset_convexHull ℝ _ ?_)
    show _ ∈ tetra ++ [_]
    simp

/-! ## C27 (volumes) -/

/-- **C27 (partial).** For Volumes: Python ints are stored, every other value except booleans is rejected with TypeError
and the old priority stays.  Missing from C27: booleans, which are accepted. -/
theorem C27_volume_partial (old : ℤ) (x : PyVal) :
    (∀ n, x = .int n → volPrioritySet old x = (n, .ok ())) ∧
    ((∀ n, x ≠ .int n) → (∀ b, x ≠ .bool b) → volPrioritySet old x = (old, .error .type)) := by
  refine ⟨fun n h => by subst h; rfl, fun h1 h2 => ?_⟩
  cases x with
  | int n => exact absurd rfl (h1 n)
  | bool b => exact absurd rfl (h2 b)
  | _ => rfl

/-- **C27, finding.** `volume.priority = True` is accepted; the priority becomes 1. -/
theorem C27_volume_refuted : ∃ x : PyVal, (∀ n, x ≠ .int n) ∧ volPrioritySet 5 x = (1, .ok ()) :=
  ⟨.bool true, by simp, rfl⟩

/-- Concrete case: a float and a numpy integer are rejected. -/
example : volPrioritySet 5 (.float 2) = (5, .error .type) ∧ volPrioritySet 5 (.npInt 2) = (5, .error .type) := ⟨rfl, rfl⟩

/-! ## C42 (volumes) -/

theorem transformAlgs_cons (t : Tr ℝ) (ts : List (Tr ℝ)) (as : List Alg) : ∀ bs cs, Vol.transformAlgs t as = (bs, .ok ()) →
    Vol.transformAlgs (.multi ts) bs = (cs, .ok ()) → Vol.transformAlgs (.multi (t :: ts)) as = (cs, .ok ()) := by
  induction as with
  | nil =>
    intro bs cs h1 h2
    simp only [Vol.transformAlgs, Prod.mk.injEq] at h1
    obtain ⟨rfl, -⟩ := h1
    exact h2
  | cons a as ih =>
    intro bs cs h1 h2
    rw [Vol.transformAlgs] at h1
    rcases ha : t.alg a with ⟨a', r⟩
    rw [ha] at h1
    cases r with
    | error e => simp at h1
    | ok u =>
      rcases hr : Vol.transformAlgs t as with ⟨bs', r'⟩
      rw [hr] at h1
      simp only [Prod.mk.injEq] at h1
      obtain ⟨rfl, rfl⟩ := h1
      rw [Vol.transformAlgs] at h2 ⊢
      have : Tr.alg (.multi (t :: ts)) a = Tr.alg (.multi ts) a' := by
        rw [Tr.alg, Tr.alg, Tr.algList, ha]
      rw [this]
      rcases hb : Tr.alg (.multi ts) a' with ⟨a'', r''⟩
      rw [hb] at h2
      cases r'' with
      | error e => simp at h2
      | ok u =>
        rcases hs : Vol.transformAlgs (.multi ts) bs' with ⟨cs', r3⟩
        rw [hs] at h2
        simp only [Prod.mk.injEq] at h2
        obtain ⟨rfl, rfl⟩ := h2
        simp only [ih _ _ hr hs]

theorem lockedList_uniform {ts : List (Tr ℝ)} {l : Bool} (h : ∀ t ∈ ts, t.locked = l) (hne : ts ≠ []) : Tr.lockedList ts = l := by
  induction ts with
  | nil => exact absurd rfl hne
  | cons t ts ih =>
    rw [Tr.lockedList, h t List.mem_cons_self]
    cases ts with
    | nil => simp [Tr.lockedList]
    | cons u us => rw [ih (fun x hx => h x (List.mem_cons_of_mem _ hx)) (by simp)]; simp

theorem basisOnlyList_uniform {ts : List (Tr ℝ)} {b : Bool} (h : ∀ t ∈ ts, t.basisOnly = b) (hne : ts ≠ []) :
    Tr.basisOnlyList ts = b := by
  induction ts with
  | nil => exact absurd rfl hne
  | cons t ts ih =>
    rw [Tr.basisOnlyList, h t List.mem_cons_self]
    cases ts with
    | nil => simp [Tr.basisOnlyList]
    | cons u us => rw [ih (fun x hx => h x (List.mem_cons_of_mem _ hx)) (by simp)]; simp

/-- **C42 for volumes (partial).** For a Volume without points whose generator, if crystalline, has independent bases: if
the members are invertible and agree in their flags, and applying them in turn succeeds, `MultiTransform` succeeds with
the same result.  Missing: members with different flags (`C42_volume_refuted`). -/
theorem C42_volume_partial (env : Env) (l b : Bool) (ts : List (Tr ℝ)) (hl : ∀ t ∈ ts, t.locked = l)
    (hb : ∀ t ∈ ts, t.basisOnly = b) (hi : ∀ t ∈ ts, InvertibleTr t) : ∀ (v v' : Vol), v.points = none →
    (∀ c x, v.gen = some (.crystal c) → c.voxel = some x → x.bases.det ≠ 0) → v.transformAll env ts = (v', .ok ()) →
    v.transform env (.multi ts) = (v', .ok ()) := by
  induction ts with
  | nil =>
    intro v v' hp _ h
    simp only [Vol.transformAll, Prod.mk.injEq] at h
    obtain ⟨rfl, -⟩ := h
    have : ∀ as, Vol.transformAlgs (.multi []) as = (as, .ok ()) := by
      intro as
      induction as with
      | nil => rfl
      | cons a as ih => simp [Vol.transformAlgs, Tr.alg, Tr.algList, ih]
    unfold Vol.transform Vol.transformRest
    simp only [hp, this, Tr.locked, Tr.lockedList, Bool.false_eq_true, if_false]
    rw [← hp]
  | cons t ts ih =>
    intro v v' hp hd h
    rw [Vol.transformAll] at h
    rcases h1 : v.transform env t with ⟨v1, r⟩
    rw [h1] at h
    cases r with
    | error e => simp at h
    | ok u =>
      simp only at h
      have hl' := fun x hx => hl x (List.mem_cons_of_mem t hx)
      have hb' := fun x hx => hb x (List.mem_cons_of_mem t hx)
      have hi' := fun x hx => hi x (List.mem_cons_of_mem t hx)
      have hit := hi t List.mem_cons_self
      unfold Vol.transform at h1
      rw [hp] at h1
      simp only [Vol.transformRest] at h1
      rcases hA : Vol.transformAlgs t v.algs with ⟨as, r⟩
      rw [hA] at h1
      cases r with
      | error e => simp at h1
      | ok u =>
        obtain ⟨L, hL, hLb, -⟩ := hit.linearPart
        have hloc := hl t List.mem_cons_self
        have hbo := hb t List.mem_cons_self
        -- the state after the first member
        have key : v1.points = none ∧ (∀ c x, v1.gen = some (.crystal c) → c.voxel = some x → x.bases.det ≠ 0) := by
          simp only at h1
          cases hll : t.locked with
          | false =>
            rw [hll] at h1
            simp only [Bool.false_eq_true, if_false, Prod.mk.injEq] at h1
            obtain ⟨rfl, -⟩ := h1
            exact ⟨hp, hd⟩
          | true =>
            rw [hll] at h1
            simp only [if_true] at h1
            cases hg : v.gen with
            | none =>
              rw [hg] at h1
              simp only [Prod.mk.injEq] at h1
              obtain ⟨rfl, -⟩ := h1
              exact ⟨hp, by simp⟩
            | some g =>
              rw [hg] at h1
              simp only [Prod.mk.injEq] at h1
              obtain ⟨rfl, h1⟩ := h1
              refine ⟨hp, ?_⟩
              intro c x hc hx
              cases g with
              | amorphous a => simp [GenObj.transform] at hc
              | null => simp [GenObj.transform] at hc
              | crystal c0 =>
                cases hv0 : c0.voxel with
                | none => simp [GenObj.transform, Gen.transform, hv0] at h1
                | some x0 =>
                  obtain ⟨o, ho, -⟩ := gen_transform_ok hv0 (hd c0 x0 hg hv0) hit
                  simp only [GenObj.transform, ho, Option.some.injEq, GenObj.crystal.injEq] at hc
                  subst hc
                  simp only [Option.some.injEq] at hx
                  subst hx
                  simp only [hLb, M3.det_mul]
                  exact mul_ne_zero hL (hd c0 x0 hg hv0)
        have h2 := ih hl' hb' hi' v1 v' key.1 key.2 h
        unfold Vol.transform at h2 ⊢
        rw [key.1] at h2
        rw [hp]
        simp only [Vol.transformRest] at h2 ⊢
        have hv1 : v1.algs = as := by
          simp only at h1
          split at h1
          · split at h1 <;> (simp only [Prod.mk.injEq] at h1; obtain ⟨rfl, -⟩ := h1; rfl)
          · simp only [Prod.mk.injEq] at h1; obtain ⟨rfl, -⟩ := h1; rfl
        rw [hv1] at h2
        rcases hB : Vol.transformAlgs (.multi ts) as with ⟨cs, r⟩
        rw [hB] at h2
        cases r with
        | error e => simp at h2
        | ok u =>
          rw [transformAlgs_cons t ts v.algs as cs hA hB]
          simp only at h1 h2 ⊢
          have hlm : Tr.locked (.multi (t :: ts)) = l := by rw [Tr.locked]; exact lockedList_uniform hl (by simp)
          have hbm : Tr.basisOnly (.multi (t :: ts)) = b := by rw [Tr.basisOnly]; exact basisOnlyList_uniform hb (by simp)
          rw [hlm]
          rw [hloc] at h1
          cases l with
          | false =>
            have : Tr.locked (.multi ts) = false := by
              rw [Tr.locked]
              cases ts with
              | nil => rfl
              | cons u us => exact lockedList_uniform hl' (by simp)
            rw [this] at h2
            simp only [Bool.false_eq_true, if_false, Prod.mk.injEq, and_true] at h1 h2 ⊢
            subst h1
            exact h2
          | true =>
            simp only [if_true] at h1 ⊢
            cases hg : v.gen with
            | none =>
              rw [hg] at h1
              simp only [Prod.mk.injEq, and_true] at h1 ⊢
              subst h1
              simp only at h2
              split at h2 <;> (simp only [Prod.mk.injEq, and_true] at h2; rw [← h2])
            | some g =>
              rw [hg] at h1
              simp only [Prod.mk.injEq] at h1
              obtain ⟨rfl, h1⟩ := h1
              cases g with
              | amorphous a => simp [GenObj.transform] at h1
              | null => simp [GenObj.transform] at h1
              | crystal c0 =>
                cases hv0 : c0.voxel with
                | none => simp [GenObj.transform, Gen.transform, hv0] at h1
                | some x0 =>
                  have hd0 := hd c0 x0 hg hv0
                  obtain ⟨o, ho, ho'⟩ := gen_transform_ok hv0 hd0 hit
                  obtain ⟨o2, ho2, ho2'⟩ := gen_transform_ok hv0 hd0 (InvertibleTr.multi (t :: ts) hi)
                  simp only [GenObj.transform, ho, ho2] at h2 ⊢
                  rw [hbm] at ho2'
                  rw [hbo] at ho'
                  cases ts with
                  | nil =>
                    simp only [Tr.locked, Tr.lockedList, Bool.false_eq_true, if_false, Prod.mk.injEq, and_true] at h2 ⊢
                    rw [← h2]
                    have : o2 = o := by rw [ho', ho2']; simp [Tr.apply, Tr.applyList]
                    simp [this, Tr.bases, Tr.basesList]
                  | cons u us =>
                    have hlu : Tr.locked (.multi (u :: us)) = true := by rw [Tr.locked]; exact lockedList_uniform hl' (by simp)
                    have hbu : Tr.basisOnly (.multi (u :: us)) = b := by
                      rw [Tr.basisOnly]; exact basisOnlyList_uniform hb' (by simp)
                    obtain ⟨o3, ho3, ho3'⟩ := gen_transform_ok
                      (c := { c0 with voxel := some { x0 with bases := t.bases x0.bases, origin := o } }) rfl
                      (by simp only [hLb, M3.det_mul]; exact mul_ne_zero hL hd0) (InvertibleTr.multi (u :: us) hi')
                    simp only [hlu, if_true, ho3, Prod.mk.injEq, and_true] at h2 ⊢
                    rw [hbu] at ho3'
                    have : o2 = o3 := by
                      rw [ho2', ho3', ho']
                      cases b <;> simp [Tr.apply, Tr.applyList]
                    rw [← h2]
                    simp [this, Tr.bases, Tr.basesList]

/-- **C42, finding (volumes).** Of an unlocked and a locked translation, the MultiTransform is locked as a whole: the
generator is shifted by both, while applying the members in turn shifts it by the second only. -/
theorem C42_volume_refuted (env : Env) :
    ∃ (v v1 v2 : Vol) (ts : List (Tr ℝ)), v.transform env (.multi ts) = (v1, .ok ()) ∧
      v.transformAll env ts = (v2, .ok ()) ∧ (voxelOf v1).map Voxel.origin = some ⟨1, 1, 0⟩ ∧
      (voxelOf v2).map Voxel.origin = some ⟨0, 1, 0⟩ := by
  have hs : Voxel.basesSet (1 : M3 ℝ) = .ok 1 := basesSet_of_det (by rw [M3.det_one]; norm_num)
  refine ⟨⟨none, none, none, [], some (.crystal ⟨none, some ⟨1, .scalar 1, 0⟩, none, none⟩), 0, 1, none, none⟩,
    ⟨none, none, none, [], some (.crystal ⟨none, some ⟨1, .scalar 1, ⟨1, 1, 0⟩⟩, none, none⟩), 0, 1, none, none⟩,
    ⟨none, none, none, [], some (.crystal ⟨none, some ⟨1, .scalar 1, ⟨0, 1, 0⟩⟩, none, none⟩), 0, 1, none, none⟩,
    [.translation ⟨1, 0, 0⟩ false false, .translation ⟨0, 1, 0⟩ true false], ?_, ?_, rfl, rfl⟩
  · simp [Vol.transform, Vol.transformRest, Vol.transformAlgs, Tr.locked, Tr.lockedList, GenObj.transform, Gen.transform,
      Tr.bases, Tr.basesList, hs, Tr.basisOnly, Tr.basisOnlyList, Tr.apply, Tr.applyList]
    ext <;> simp
  · simp [Vol.transformAll, Vol.transform, Vol.transformRest, Vol.transformAlgs, Tr.locked, GenObj.transform, Gen.transform,
      Tr.bases, hs, Tr.basisOnly, Tr.apply]

end

end CZ
