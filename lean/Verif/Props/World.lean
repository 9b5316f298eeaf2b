import Verif.Spec.World
import Verif.Props.Volume
import Verif.Props.VolumeFill
import Verif.Props.Molecule

/-!
# Properties C95-C97: scenes of actual objects
-/

namespace CZ
open Spec

theorem Item.interior_iff (env : Env) (x : Item) (p : V3 ℝ) : x.interior env p = true ↔ Occupies env x p := by
  cases x with
  | vol t => exact VTree.interior_iff env t p
  | mol m => simp [Item.interior, Mol.checkIfInterior, Occupies]

/-- What `populate_atoms` achieves on one object. -/
structure ItemPopulated (env : Env) (x x' : Item) (cs : List (V3 ℝ × ℤ)) : Prop where
  holds : Holds env x cs
  held : ∃ as ss, x'.held = some (as, ss) ∧ as.length = ss.length ∧ (as.zip ss).Perm cs
  prio : x'.priority = x.priority
  occupies : ∀ p, Occupies env x' p ↔ Occupies env x p

/-- Molecules have as many species as positions (an invariant, C74). -/
def Balanced (xs : List Item) : Prop := ∀ m, Item.mol m ∈ xs → m.species.length = m.atoms.length

theorem Item.populate_spec (env : Env) (x : Item) (hm : ∀ m, x = .mol m → m.species.length = m.atoms.length) (n : ℕ) (x' : Item) (n' : ℕ)
    (h : x.populate env n = (x', n', .ok ())) : ∃ cs, ItemPopulated env x x' cs := by
  cases x with
  | vol t =>
    simp only [Item.populate] at h
    rcases hp : t.populate env n with ⟨t', m, r⟩
    rw [hp] at h
    simp only [Prod.mk.injEq] at h
    obtain ⟨rfl, rfl, rfl⟩ := h
    obtain ⟨cs, h1, h2, h3, h4⟩ := VTree.populate_spec env t n t' m hp
    exact ⟨cs, .vol t cs h1, h2, h3, h4⟩
  | mol m =>
    simp only [Item.populate, Prod.mk.injEq] at h
    obtain ⟨rfl, -, -⟩ := h
    exact ⟨_, .mol m, ⟨_, _, rfl, (hm m rfl).symm, .refl _⟩, rfl, fun p => Iff.rfl⟩

theorem Item.populateList_spec (env : Env) (xs : List Item) (hm : Balanced xs) : ∀ n xs' n', Item.populateList env xs n = (xs', n', .ok ()) →
    ∃ parts : List (Item × Item × List (V3 ℝ × ℤ)), parts.map (fun x => x.1) = xs ∧ parts.map (fun x => x.2.1) = xs' ∧
      ∀ x ∈ parts, ItemPopulated env x.1 x.2.1 x.2.2 := by
  induction xs with
  | nil =>
    intro n xs' n' h
    simp only [Item.populateList, Prod.mk.injEq] at h
    exact ⟨[], rfl, by simpa using h.1, by simp⟩
  | cons x xs ih =>
    intro n xs' n' h
    rw [Item.populateList] at h
    rcases hp : x.populate env n with ⟨x', m, r⟩
    rw [hp] at h
    cases r with
    | error e => simp at h
    | ok u =>
      simp only [Prod.mk.injEq] at h
      obtain ⟨rfl, h2⟩ := h
      obtain ⟨cs, hcs⟩ := Item.populate_spec env x (fun y hy => hm y (by rw [hy]; exact List.mem_cons_self)) n x' m hp
      obtain ⟨parts, h3, h4, h5⟩ := ih (fun y hy => hm y (List.mem_cons_of_mem _ hy)) m (Item.populateList env xs m).1 n' (Prod.ext rfl h2)
      refine ⟨(x, x', cs) :: parts, by simp [h3], by simp [h4], ?_⟩
      intro y hy
      rcases List.mem_cons.mp hy with rfl | hy
      · exact hcs
      · exact h5 y hy

/-- What the queries of a scene return after the objects `xs'` have been populated. -/
theorem World.resolved (env : Env) (xs' : List Item) (hh : ∀ x ∈ xs', ∃ as ss, x.held = some (as, ss) ∧ as.length = ss.length) (w : World) :
    ∃ c as ss, Precedence.checks (((stableSort Item.priority xs').map (Item.view env)).map Scene.toObj) = .ok c ∧
      World.allAtoms env { w with objects := some (stableSort Item.priority xs'), checks := some c } = .ok as ∧
      World.allSpecies env { w with objects := some (stableSort Item.priority xs'), checks := some c } = .ok ss ∧ as.length = ss.length ∧
      as.zip ss = contents ((stableSort Item.priority xs').map fun x =>
        ⟨x.priority, (x.held.getD ([], [])).1.zip (x.held.getD ([], [])).2, Occupies env x⟩) := by
  have hmap : (stableSort Item.priority xs').map (Item.view env) = Scene.sortObjects (xs'.map (Item.view env)) := by
    unfold Scene.sortObjects
    apply stableSort_map
    intro x y; rfl
  have hcur : ∀ o ∈ (stableSort Item.priority xs').map (Item.view env), ∃ as ss, o.cur = some (as, ss) ∧ as.length = ss.length := by
    intro o ho
    obtain ⟨x, hx, rfl⟩ := List.mem_map.mp ho
    exact hh x ((stableSort_perm _ _).mem_iff.mp hx)
  obtain ⟨as, ss, h1, h2, h3, h4⟩ := Scene.gather_contents
    (World.view env { w with objects := some (stableSort Item.priority xs'), checks := some (Scene.masks (Scene.sortObjects (xs'.map (Item.view env)))) })
    _ rfl (by dsimp only [World.view]; rw [hmap]) hcur
  refine ⟨_, as, ss, by rw [hmap]; exact Scene.checks_sorted _, h1, h2, h3, ?_⟩
  rw [h4, List.map_map]
  congr 1
  apply List.map_congr_left
  intro x hx
  obtain ⟨as, ss, ha, hl⟩ := hh x ((stableSort_perm _ _).mem_iff.mp hx)
  simp only [Function.comp, Scene.bodyOf, Scene.toObj, Item.view, ha, Option.map_some, Option.getD_some]
  congr 1
  funext p
  rw [Item.interior_iff]

/-- **C95.** Whatever Volumes, nested MultiVolumes and Molecules a scene holds, whatever their generators and the random numbers
do: after a `populate()` that returns, the atoms and species of the scene are, up to order, what the precedence rule lets survive of
the contents of the objects. -/
theorem C95_scene_contents (env : Env) (w w' : World) (n n' : ℕ) (xs : List Item) (hx : w.objects = some xs) (hm : Balanced xs)
    (h : w.populate env n = (w', n', .ok ())) :
    ∃ as ss, w'.allAtoms env = .ok as ∧ w'.allSpecies env = .ok ss ∧ as.length = ss.length ∧
      ∃ parts : List (Item × List (V3 ℝ × ℤ)), parts.map Prod.fst = xs ∧ (∀ x ∈ parts, Holds env x.1 x.2) ∧
        (as.zip ss).Perm (contents (parts.map fun x => ⟨x.1.priority, x.2, Occupies env x.1⟩)) := by
  unfold World.populate at h
  rw [hx] at h
  simp only at h
  rcases hl : Item.populateList env xs n with ⟨xs', m, r⟩
  rw [hl] at h
  cases r with
  | error e => simp at h
  | ok u =>
    simp only at h
    obtain ⟨parts, hp1, hp2, hp3⟩ := Item.populateList_spec env xs hm n xs' m hl
    have hheld : ∀ x ∈ xs', ∃ as ss, x.held = some (as, ss) ∧ as.length = ss.length := by
      intro x hx
      rw [← hp2] at hx
      obtain ⟨y, hy, rfl⟩ := List.mem_map.mp hx
      obtain ⟨as, ss, h1, h2, -⟩ := (hp3 y hy).held
      exact ⟨as, ss, h1, h2⟩
    obtain ⟨c, as, ss, hc, h1, h2, h3, hz⟩ := World.resolved env xs' hheld w
    rw [hc] at h
    simp only [Prod.mk.injEq, and_true] at h
    obtain ⟨rfl, -⟩ := h
    refine ⟨as, ss, h1, h2, h3, parts.map fun x => (x.1, x.2.2), by rw [List.map_map, ← hp1]; rfl, ?_, ?_⟩
    · intro x hx
      obtain ⟨y, hy, rfl⟩ := List.mem_map.mp hx
      exact (hp3 y hy).holds
    · rw [hz]
      refine (contents_perm ((stableSort_perm Item.priority xs').map _)).trans ?_
      rw [← hp2, List.map_map, List.map_map]
      apply contents_congr
      · intro x hx; exact (hp3 x hx).prio
      · intro x hx p; exact (hp3 x hx).occupies p
      · intro x hx
        obtain ⟨as, ss, h1, h2, h3⟩ := (hp3 x hx).held
        simp only [Function.comp, h1, Option.getD_some]
        exact h3

/-- **C95 (success).** If every tree can be populated, so can the scene. -/
theorem C95_populate_succeeds (env : Env) (w : World) (n : ℕ) (xs : List Item) (hx : w.objects = some xs) (hm : Balanced xs)
    (hs : ∀ t, Item.vol t ∈ xs → Supplying env t) : ∃ w' n', w.populate env n = (w', n', .ok ()) := by
  have loop : ∀ (ys : List Item), (∀ t, Item.vol t ∈ ys → Supplying env t) → ∀ n, ∃ ys' n', Item.populateList env ys n = (ys', n', .ok ()) := by
    intro ys
    induction ys with
    | nil => intro _ n; exact ⟨_, _, rfl⟩
    | cons y ys ih =>
      intro hy n
      rw [Item.populateList]
      have : ∃ y' n', y.populate env n = (y', n', .ok ()) := by
        cases y with
        | vol t =>
          obtain ⟨t', n', ht⟩ := C12_populate_succeeds env t (hy t List.mem_cons_self) n
          exact ⟨.vol t', n', by simp [Item.populate, ht]⟩
        | mol m => exact ⟨_, _, rfl⟩
      obtain ⟨y', m, h1⟩ := this
      obtain ⟨ys', n', h2⟩ := ih (fun t ht => hy t (List.mem_cons_of_mem _ ht)) m
      exact ⟨y' :: ys', n', by simp [h1, h2]⟩
  obtain ⟨xs', n', hl⟩ := loop xs hs n
  obtain ⟨parts, hp1, hp2, hp3⟩ := Item.populateList_spec env xs hm n xs' n' hl
  obtain ⟨c, as, ss, hc, -⟩ := World.resolved env xs' (by
    intro x hx
    rw [← hp2] at hx
    obtain ⟨y, hy, rfl⟩ := List.mem_map.mp hx
    obtain ⟨as, ss, h1, h2, -⟩ := (hp3 y hy).held
    exact ⟨as, ss, h1, h2⟩) w
  exact ⟨{ w with objects := some (stableSort Item.priority xs'), checks := some c }, n', by
    unfold World.populate; rw [hx]; simp only [hl, hc]⟩

/-! ## crystals -/

theorem mem_contents_iff {P S : Type} {bs : List (Body P S)} {q : P × S} :
    q ∈ contents bs ↔ ∃ i : Fin bs.length, q ∈ bs[i].sites ∧ Survives bs i q.1 := by
  classical
  unfold contents contributed
  simp only [List.mem_flatMap, List.mem_finRange, true_and, List.mem_filter, decide_eq_true_eq]

/-- What the generator of a Volume filled by a plain crystal supplies. -/
theorem supplied_crystal {env : Env} {v : Vol} {c : Gen ℝ} {x : Voxel ℝ} {sites : List (V3 ℝ × ℤ)} {box : List (V3 ℝ)}
    (hb : v.boundingBox env = .ok (.rows box)) (hbox : box ≠ []) (hg : v.gen = some (.crystal c)) (hP : Gen.Plain c x sites)
    (hd : x.sbases.det ≠ 0) (hs : FracNearCell sites) {ds : List (V3 ℝ × ℤ)} (h : Supplied env v ds) :
    (∀ a ∈ ds, a ∈ Crystal x.sbases x.origin sites) ∧ ∀ a ∈ Crystal x.sbases x.origin sites, a.1 ∈ Region box → a ∈ ds := by
  obtain ⟨n, b, g, ps, zs, h1, h2, h3, h4, rfl⟩ := h
  rw [hb] at h1; injection h1 with h1; subst h1
  rw [hg] at h2; injection h2 with h2; subst h2
  obtain ⟨⟨lo, hi⟩, he⟩ := Voxel.getExtents_ok hd hbox
  simp only [GenObj.supply, hP.1, Gen.supply_plain hP, Gen.rawAtoms_eq _ _ _ _ _ he, Except.map] at h3
  injection h3 with h3
  injection h3 with h5 h6
  subst h5 h6
  rw [List.zip_map']
  constructor
  · intro a ha
    obtain ⟨q, hq, rfl⟩ := List.mem_map.mp ha
    obtain ⟨m, -, hq⟩ := List.mem_flatMap.mp hq
    obtain ⟨f, hf, rfl⟩ := List.mem_map.mp hq
    exact ⟨m, f, hf, rfl⟩
  · rintro _ ⟨m, f, hf, rfl⟩ hin
    refine List.mem_map.mpr ⟨⟨siteAt x.sbases x.origin m f.1, f.2⟩, ?_, rfl⟩
    exact List.mem_flatMap.mpr ⟨m, cell_mem he (hs f hf) hin, List.mem_map.mpr ⟨f, hf, rfl⟩⟩

/-- `Filled env x X R`: the object `x` is filled with (part of) the sites `X`, and gets at least those in the region `R`: Volumes
filled by an unstrained crystal, bounded by spheres or (for an exact hull test) by the hull of points, and further algebraic objects; Molecules. -/
inductive Filled (env : Env) : Item → Set (V3 ℝ × ℤ) → Set (V3 ℝ) → Prop
  | ball (v : Vol) (c : Gen ℝ) (x : Voxel ℝ) (sites : List (V3 ℝ × ℤ)) (hp : v.points = none) (ht : v.tri = none)
      (hsp : v.spheres ≠ []) (hr : ∀ s, Alg.sphere s ∈ v.algs → 0 < s.radius) (hg : v.gen = some (.crystal c))
      (hP : Gen.Plain c x sites) (hd : x.sbases.det ≠ 0) (hs : FracNearCell sites) :
      Filled env (.vol (.vol v)) (Crystal x.sbases x.origin sites)
        {p | (∀ s, Alg.sphere s ∈ v.algs → Spec.dist p s.center ≤ s.radius) ∧ ∀ b ∈ v.algs, b.interior p = true}
  | hull (henv : ExactHull env) (v : Vol) (ps : List (V3 ℝ)) (c : Gen ℝ) (x : Voxel ℝ) (sites : List (V3 ℝ × ℤ)) (hp : v.points = some (.arr ps))
      (ht : v.tri = some ps) (htol : 0 ≤ v.tol) (hne : ps ≠ []) (hg : v.gen = some (.crystal c))
      (hP : Gen.Plain c x sites) (hd : x.sbases.det ≠ 0) (hs : FracNearCell sites) :
      Filled env (.vol (.vol v)) (Crystal x.sbases x.origin sites) {p | p ∈ Region ps ∧ ∀ b ∈ v.algs, b.interior p = true}
  | mol (m : Mol ℝ) (h : m.species.length = m.atoms.length) : Filled env (.mol m) {a | a ∈ m.atoms.zip m.species} Set.univ

theorem filled_holds {env : Env} {x : Item} {X : Set (V3 ℝ × ℤ)} {R : Set (V3 ℝ)} (hf : Filled env x X R)
    {cs : List (V3 ℝ × ℤ)} (h : Holds env x cs) :
    (∀ a ∈ cs, a ∈ X) ∧ (∀ t, x = .vol t → ∀ a ∈ cs, Occupies env x a.1) ∧ ∀ a ∈ X, a.1 ∈ R → a ∈ cs := by
  classical
  cases hf with
  | ball v c x sites hp ht hsp hr hg hP hd hs =>
    cases h with
    | vol _ _ h =>
      cases h with
      | vol _ ds h =>
        obtain ⟨s, hm, hb⟩ := sphere_boundingBox (env := env) hp hsp
        have hm' := mem_spheres.mp hm
        obtain ⟨h1, h2⟩ := supplied_crystal hb (by simp [Vol.sphereBox, Vol.rectPrism]) hg hP hd hs h
        refine ⟨fun a ha => h1 a (List.mem_filter.mp ha).1, fun _ _ a ha => of_decide_eq_true (List.mem_filter.mp ha).2, ?_⟩
        rintro a ha ⟨hball, hal⟩
        refine List.mem_filter.mpr ⟨h2 a ha (ball_in_box s (hr s hm') _ (hball s hm')), decide_eq_true (.vol _ _ ?_ hal)⟩
        intro t htt
        rw [ht] at htt
        cases htt
  | hull henv v ps c x sites hp ht htol hne hg hP hd hs =>
    cases h with
    | vol _ _ h =>
      cases h with
      | vol _ ds h =>
        have hb : v.boundingBox env = .ok (.rows ps) := by unfold Vol.boundingBox; rw [hp]
        obtain ⟨h1, h2⟩ := supplied_crystal hb hne hg hP hd hs h
        refine ⟨fun a ha => h1 a (List.mem_filter.mp ha).1, fun _ _ a ha => of_decide_eq_true (List.mem_filter.mp ha).2, ?_⟩
        rintro a ha ⟨hreg, hal⟩
        refine List.mem_filter.mpr ⟨h2 a ha hreg, decide_eq_true (.vol _ _ ?_ hal)⟩
        intro t htt
        rw [ht] at htt
        injection htt with htt
        subst htt
        exact henv.mem _ _ _ htol hreg
  | mol m hl =>
    cases h with
    | mol => exact ⟨fun a ha => ha, fun t ht => (Item.noConfusion ht), fun a ha _ => ha⟩

theorem supplying_crystal {env : Env} {v : Vol} {c : Gen ℝ} {x : Voxel ℝ} {sites : List (V3 ℝ × ℤ)} {box : List (V3 ℝ)}
    (hb : v.boundingBox env = .ok (.rows box)) (hbox : box ≠ []) (hg : v.gen = some (.crystal c)) (hP : Gen.Plain c x sites)
    (hd : x.sbases.det ≠ 0) : Supplying env (.vol v) := by
  obtain ⟨⟨lo, hi⟩, he⟩ := Voxel.getExtents_ok hd hbox
  refine .vol v fun n => ?_
  have : GenObj.supply env n (.crystal c) (.rows box) = (.crystal c, .ok
      (((Gen.cells lo hi).flatMap fun n => sites.map fun f => (⟨siteAt x.sbases x.origin n f.1, f.2⟩ : Atom ℝ)).map Atom.pos,
       ((Gen.cells lo hi).flatMap fun n => sites.map fun f => (⟨siteAt x.sbases x.origin n f.1, f.2⟩ : Atom ℝ)).map Atom.Z)) := by
    simp only [GenObj.supply, hP.1, Gen.supply_plain hP, Gen.rawAtoms_eq _ _ _ _ _ he, Except.map]
  exact ⟨_, _, _, _, _, hb, hg, this, by simp⟩

/-- **C95 (crystals).** A scene of molecules and of bodies filled by crystals: `populate()` succeeds.  Every atom of the scene is
a site of the crystal (or an atom of the molecule) of an object `i`, inside that object if it is a body, and outside all other
bodies whose priority number is not larger.  Conversely every site of the crystal of object `i` in its region, outside those
bodies, is an atom of the scene. -/
theorem C95_crystals (env : Env) (w : World) (n : ℕ) (L : List (Item × Set (V3 ℝ × ℤ) × Set (V3 ℝ)))
    (hL : ∀ x ∈ L, Filled env x.1 x.2.1 x.2.2) (hx : w.objects = some (L.map Prod.fst)) :
    ∃ w' n' as ss, w.populate env n = (w', n', .ok ()) ∧ w'.allAtoms env = .ok as ∧ w'.allSpecies env = .ok ss ∧ as.length = ss.length ∧
      (∀ a ∈ as.zip ss, ∃ i : Fin L.length, a ∈ L[i].2.1 ∧ (∀ t, L[i].1 = .vol t → Inside env t a.1) ∧
        ∀ j : Fin L.length, j ≠ i → L[j].1.priority ≤ L[i].1.priority → ¬ Occupies env L[j].1 a.1) ∧
      ∀ (i : Fin L.length) (a : V3 ℝ × ℤ), a ∈ L[i].2.1 → a.1 ∈ L[i].2.2 →
        (∀ j : Fin L.length, j ≠ i → L[j].1.priority ≤ L[i].1.priority → ¬ Occupies env L[j].1 a.1) → a ∈ as.zip ss := by
  have hbal : Balanced (L.map Prod.fst) := by
    intro m hm
    obtain ⟨x, hx, he⟩ := List.mem_map.mp hm
    have := hL x hx
    rw [he] at this
    generalize x.2.1 = X at this
    generalize x.2.2 = R at this
    cases this with
    | mol _ h => exact h
  have hsup : ∀ t, Item.vol t ∈ L.map Prod.fst → Supplying env t := by
    intro t ht
    obtain ⟨x, hx, he⟩ := List.mem_map.mp ht
    have := hL x hx
    rw [he] at this
    generalize x.2.1 = X at this
    generalize x.2.2 = R at this
    cases this with
    | ball v c x sites hp ht hsp hr hg hP hd hs =>
      obtain ⟨s, hm, hb⟩ := sphere_boundingBox (env := env) hp hsp
      exact supplying_crystal hb (by simp [Vol.sphereBox, Vol.rectPrism]) hg hP hd
    | hull henv v ps c x sites hp ht htol hne hg hP hd hs =>
      exact supplying_crystal (box := ps) (by unfold Vol.boundingBox; rw [hp]) hne hg hP hd
  obtain ⟨w', n', hpop⟩ := C95_populate_succeeds env w n _ hx hbal hsup
  obtain ⟨as, ss, h1, h2, h3, parts, h4, h5, h6⟩ := C95_scene_contents env w w' n n' _ hx hbal hpop
  have hlen : parts.length = L.length := by simpa using congrArg List.length h4
  have hfst : ∀ (i : ℕ) (hi : i < parts.length) (hi' : i < L.length), (parts[i]).1 = (L[i]).1 := by
    intro i hi hi'
    have := List.getElem_of_eq h4 (i := i) (by simpa using hi)
    simpa using this
  have hget : ∀ (i : Fin (parts.map fun x : Item × List (V3 ℝ × ℤ) => (⟨x.1.priority, x.2, Occupies env x.1⟩ : Body (V3 ℝ) ℤ)).length) (hi' : (i : ℕ) < L.length),
      (parts.map fun x : Item × List (V3 ℝ × ℤ) => (⟨x.1.priority, x.2, Occupies env x.1⟩ : Body (V3 ℝ) ℤ))[i] =
        ⟨(L[(i : ℕ)]).1.priority, (parts[(i : ℕ)]'(by omega)).2, Occupies env (L[(i : ℕ)]).1⟩ := by
    intro i hi'
    simp only [Fin.getElem_fin, List.getElem_map]
    rw [hfst i (by omega) hi']
  refine ⟨w', n', as, ss, hpop, h1, h2, h3, ?_, ?_⟩
  · intro a ha
    obtain ⟨i, hi, hs⟩ := mem_contents_iff.mp (h6.mem_iff.mp ha)
    have hiL : (i : ℕ) < L.length := by have := i.isLt; simp at this; omega
    have hiP : (i : ℕ) < parts.length := by omega
    rw [hget i hiL] at hi
    have hh := h5 _ (List.getElem_mem hiP)
    rw [hfst i hiP hiL] at hh
    obtain ⟨k1, k2, -⟩ := filled_holds (hL _ (List.getElem_mem hiL)) hh
    refine ⟨⟨i, hiL⟩, k1 a hi, fun t ht => ?_, fun j hj hpr => ?_⟩
    · have ht' : (L[(i : ℕ)]).1 = .vol t := ht
      have := k2 t ht' a hi
      rw [ht'] at this
      exact this
    · have hjl : (j : ℕ) < (parts.map fun x : Item × List (V3 ℝ × ℤ) => (⟨x.1.priority, x.2, Occupies env x.1⟩ : Body (V3 ℝ) ℤ)).length := by
        have := j.isLt; simp; omega
      have := hs ⟨j, hjl⟩ (fun e => hj (Fin.ext (Fin.mk.inj_iff.mp e)))
      rw [hget i hiL, hget ⟨j, hjl⟩ j.isLt] at this
      exact this hpr
  · intro i a haX haR hs
    refine h6.mem_iff.mpr (mem_contents_iff.mpr ⟨⟨i, by have := i.isLt; simp; omega⟩, ?_, ?_⟩)
    · rw [hget ⟨i, _⟩ i.isLt]
      have hiP : (i : ℕ) < parts.length := by have := i.isLt; omega
      have hh := h5 _ (List.getElem_mem hiP)
      rw [hfst i hiP i.isLt] at hh
      exact (filled_holds (hL _ (List.getElem_mem i.isLt)) hh).2.2 a haX haR
    · intro j hj hpr
      have hjL : (j : ℕ) < L.length := by have := j.isLt; simp at this; omega
      rw [hget j hjL] at hpr ⊢
      rw [hget ⟨i, _⟩ i.isLt] at hpr
      exact hs ⟨j, hjL⟩ (fun e => hj (Fin.ext (Fin.mk.inj_iff.mp e))) hpr

/-- **C95 (no objects).** `populate`, `all_atoms`, `all_species` and a loop over the objects of a scene to which nothing was added raise
TypeError and change nothing. -/
theorem C95_no_objects (env : Env) (w : World) (n : ℕ) (h : w.objects = none) (t : Tr ℝ) :
    w.populate env n = (w, n, .error .type) ∧ w.allAtoms env = .error .type ∧ w.allSpecies env = .error .type ∧
    w.transform env t = (w, .error .type) := by
  refine ⟨?_, ?_, ?_, ?_⟩
  · simp [World.populate, h]
  · simp [World.allAtoms, World.view, Scene.allAtoms, Scene.gather, h]
  · simp [World.allSpecies, World.view, Scene.allSpecies, Scene.gather, h]
  · simp [World.transform, h]

end CZ
