import Verif.Props.WorldMotion

/-!
# Property C97: what a scene reports after its objects have been moved, before it is populated again
-/

namespace CZ
open Spec

theorem Vol.transform_held {env : Env} {v v' : Vol} {t : Tr ℝ} (h : v.transform env t = (v', .ok ())) :
    v'.atoms = v.atoms ∧ v'.species = v.species ∧ v'.priority = v.priority := by
  unfold Vol.transform at h
  cases hp : v.points with
  | none =>
    rw [hp] at h
    simp only [Vol.transformRest] at h
    split at h
    · simp at h
    · split at h
      · split at h
        · simp only [Prod.mk.injEq] at h; obtain ⟨rfl, -⟩ := h; exact ⟨rfl, rfl, rfl⟩
        · simp only [Prod.mk.injEq] at h; obtain ⟨rfl, -⟩ := h; exact ⟨rfl, rfl, rfl⟩
      · simp only [Prod.mk.injEq] at h; obtain ⟨rfl, -⟩ := h; exact ⟨rfl, rfl, rfl⟩
  | some p =>
    rw [hp] at h
    cases p with
    | cleared => simp at h
    | arr ps =>
      have := C18_always_raises env v ps hp t
      unfold Vol.transform at this
      rw [hp] at this
      simp only at this h
      rw [h] at this
      cases this
    | single p =>
      simp [Vol.setPoints, Vol.addPoints] at h

theorem VTree.transform_held {env : Env} {u u' : VTree} {t : Tr ℝ} (h : u.transform env t = (u', .ok ())) :
    u'.held = u.held ∧ u'.priority = u.priority := by
  cases u with
  | vol v =>
    rw [VTree.transform] at h
    rcases hv : v.transform env t with ⟨v', r⟩
    rw [hv] at h
    simp only [Prod.mk.injEq] at h
    obtain ⟨rfl, rfl⟩ := h
    obtain ⟨h1, h2, h3⟩ := Vol.transform_held hv
    exact ⟨by simp only [VTree.held, h1, h2], h3⟩
  | multi vs pr hd =>
    rw [VTree.transform] at h
    simp only [Prod.mk.injEq] at h
    obtain ⟨rfl, -⟩ := h
    exact ⟨rfl, rfl⟩

/-- What is left of the atoms of an object once it has been moved: a volume still holds the old array, a molecule the new one. -/
def Item.shown (t : Tr ℝ) : Item → List (V3 ℝ) → List (V3 ℝ)
  | .vol _, as => as
  | .mol _, as => as.map t.apply

theorem Item.transform_held {env : Env} {t : Tr ℝ} {x x' : Item} (hm : ∀ m, x = .mol m → m.species.length = m.atoms.length)
    (h : x.transform env t = (x', .ok ())) : x'.held = x.held.map fun r => (x.shown t r.1, r.2) := by
  cases x with
  | vol u =>
    simp only [Item.transform] at h
    rcases hu : u.transform env t with ⟨u', r⟩
    rw [hu] at h
    simp only [Prod.mk.injEq] at h
    obtain ⟨rfl, rfl⟩ := h
    simp only [Item.held, (VTree.transform_held hu).1]
    cases u.held <;> rfl
  | mol m =>
    simp only [Item.transform, Prod.mk.injEq] at h
    obtain ⟨rfl, -⟩ := h
    obtain ⟨h1, h2, -⟩ := Mol.transform_atoms m (hm m rfl) t true
    simp only [Item.held, h1, h2]
    rfl

theorem transformList_pairs {env : Env} {t : Tr ℝ} : ∀ {xs ys : List Item}, Item.transformList env t xs = (ys, .ok ()) →
    List.Forall₂ (fun x y => x.transform env t = (y, .ok ())) xs ys := by
  intro xs
  induction xs with
  | nil => intro ys h; simp only [Item.transformList, Prod.mk.injEq] at h; rw [← h.1]; exact .nil
  | cons x xs ih =>
    intro ys h
    rw [Item.transformList] at h
    rcases hx : x.transform env t with ⟨x', r⟩
    rw [hx] at h
    cases r with
    | error e => simp at h
    | ok u =>
      simp only [Prod.mk.injEq] at h
      obtain ⟨rfl, h2⟩ := h
      exact .cons hx (ih (Prod.ext rfl h2))

theorem maskSel_mapped {α β : Type} (f : α → β) : ∀ (m : List Bool) (l : List α), maskSel m (l.map f) = (maskSel m l).map f := by
  intro m
  induction m with
  | nil => intro l; cases l <;> rfl
  | cons b m ih =>
    intro l
    cases l with
    | nil => cases b <;> rfl
    | cons a l =>
      simp only [List.map_cons, maskSel_cons, ih]
      split <;> simp

theorem maskSel_shown (t : Tr ℝ) (x : Item) (m : List Bool) (l : List (V3 ℝ)) : maskSel m (x.shown t l) = x.shown t (maskSel m l) := by
  cases x with
  | vol u => rfl
  | mol u => exact maskSel_mapped _ _ _

/-- **C97 (exact).** Whatever a scene reports, once the caller has moved its objects by `ob.transform(T)` and before `populate()` is
called again, it reports for every volume the same atoms as before and for every molecule the images of those it reported before. -/
theorem C97_exact (env : Env) (w w' : World) (t : Tr ℝ) (xs : List Item) (hx : w.objects = some xs) (hm : Balanced xs)
    (ht : w.transform env t = (w', .ok ())) (as : List (V3 ℝ)) (ha : w.allAtoms env = .ok as) :
    ∃ parts : List (Item × List (V3 ℝ)), parts.map Prod.fst = xs ∧ as = parts.flatMap Prod.snd ∧
      (∀ i (hi : i < parts.length), (w.view env).speciesFromObject i = .ok parts[i].2) ∧
      w'.allAtoms env = .ok (parts.flatMap fun x => x.1.shown t x.2) ∧ w'.allSpecies env = w.allSpecies env := by
  unfold World.transform at ht
  rw [hx] at ht
  simp only [Prod.mk.injEq] at ht
  obtain ⟨rfl, hr⟩ := ht
  have hpairs : List.Forall₂ (fun x y => x.transform env t = (y, .ok ())) xs (Item.transformList env t xs).1 :=
    transformList_pairs (Prod.ext rfl hr)
  generalize (Item.transformList env t xs).1 = ys at hpairs
  simp only [World.allAtoms, World.allSpecies, World.view, Scene.allAtoms, Scene.allSpecies, Scene.gather, hx, Option.map_some] at ha ⊢
  -- the loop over the objects
  have key : ∀ (k : ℕ) (zs : List Item) (us : List Item), List.Forall₂ (fun x y => x.transform env t = (y, .ok ())) zs us → Balanced zs →
      (∀ parts, ((zs.map (Item.view env)).zipIdx k).mapM (fun x => Scene.maskedOf Prod.fst w.checks x.1 x.2) = .ok parts →
        ∃ L : List (Item × List (V3 ℝ)), L.map Prod.fst = zs ∧ L.map Prod.snd = parts ∧
        (∀ i (hi : i < L.length), Scene.maskedOf Prod.fst w.checks (L[i].1.view env) (i + k) = .ok L[i].2) ∧
        ((us.map (Item.view env)).zipIdx k).mapM (fun x => Scene.maskedOf Prod.fst w.checks x.1 x.2) = .ok (L.map fun x => x.1.shown t x.2)) ∧
      ((us.map (Item.view env)).zipIdx k).mapM (fun x => Scene.maskedOf Prod.snd w.checks x.1 x.2) =
        ((zs.map (Item.view env)).zipIdx k).mapM (fun x => Scene.maskedOf Prod.snd w.checks x.1 x.2) := by
    intro k zs us h
    induction h generalizing k with
    | nil =>
      intro _
      refine ⟨fun parts hp => ⟨[], rfl, ?_, by simp, rfl⟩, rfl⟩
      simp only [List.map_nil, List.zipIdx_nil, List.mapM_nil, pure, Except.pure] at hp
      injection hp
    | @cons x y zs us hxy hrest ih =>
      intro hbal
      have hheld := Item.transform_held (fun m e => hbal m (by rw [e]; exact List.mem_cons_self)) hxy
      obtain ⟨ih1, ih2⟩ := ih (k + 1) fun m hm => hbal m (List.mem_cons_of_mem _ hm)
      have hlen : ∀ l, (x.shown t l).length = l.length := by intro l; cases x <;> simp [Item.shown]
      refine ⟨?_, ?_⟩
      · intro parts hp
        simp only [List.map_cons, List.zipIdx_cons, List.mapM_cons] at hp
        cases h1 : Scene.maskedOf Prod.fst w.checks (x.view env) k with
        | error e => rw [h1] at hp; cases hp
        | ok a =>
          rw [h1] at hp
          cases h2 : ((zs.map (Item.view env)).zipIdx (k + 1)).mapM (fun x => Scene.maskedOf Prod.fst w.checks x.1 x.2) with
          | error e => rw [h2] at hp; cases hp
          | ok ps =>
            rw [h2] at hp
            injection hp with hp
            subst hp
            obtain ⟨L, l1, l2, l3, l4⟩ := ih1 ps h2
            refine ⟨(x, a) :: L, by simp [l1], by simp [l2], ?_, ?_⟩
            · intro i hi
              cases i with
              | zero => simpa using h1
              | succ i =>
                have := l3 i (by simpa using hi)
                rw [show i + 1 + k = i + (k + 1) by omega]
                exact this
            · simp only [List.map_cons, List.zipIdx_cons, List.mapM_cons, l4]
              have : Scene.maskedOf Prod.fst w.checks (y.view env) k = .ok (x.shown t a) := by
                unfold Scene.maskedOf at h1 ⊢
                cases hc : w.checks with
                | none => rw [hc] at h1; cases h1
                | some c =>
                  rw [hc] at h1
                  simp only [Item.view, hheld] at h1 ⊢
                  cases hg : pyGet c k with
                  | error e => rw [hg] at h1; cases h1
                  | ok m =>
                    rw [hg] at h1
                    cases hh : x.held with
                    | none => rw [hh] at h1; cases h1
                    | some r =>
                      rw [hh] at h1
                      simp only [bind, Except.bind, Option.map_some, npMask, hlen, maskSel_shown] at h1 ⊢
                      split at h1
                      · rename_i hl; rw [if_pos hl]; injection h1 with h1; rw [h1]
                      · cases h1
              rw [this]
              rfl
      · simp only [List.map_cons, List.zipIdx_cons, List.mapM_cons, ih2]
        have : Scene.maskedOf Prod.snd w.checks (y.view env) k = Scene.maskedOf Prod.snd w.checks (x.view env) k := by
          unfold Scene.maskedOf
          cases w.checks with
          | none => rfl
          | some c =>
            simp only [Item.view, hheld]
            cases pyGet c k with
            | error e => rfl
            | ok m => cases x.held <;> rfl
        rw [this]
  obtain ⟨k1, k2⟩ := key 0 xs ys hpairs hm
  cases h2 : ((xs.map (Item.view env)).zipIdx).mapM (fun x => Scene.maskedOf Prod.fst w.checks x.1 x.2) with
  | error e => rw [h2] at ha; cases ha
  | ok parts =>
    rw [h2] at ha
    injection ha with ha
    obtain ⟨L, l1, l2, l3, l4⟩ := k1 parts h2
    refine ⟨L, l1, ?_, ?_, ?_, ?_⟩
    · rw [← ha, ← l2, List.flatMap_def]
    · intro i hi
      have hx' : (xs.map (Item.view env))[i]? = some (L[i].1.view env) := by
        rw [← l1, List.map_map, List.getElem?_map, List.getElem?_eq_getElem hi]; rfl
      simp only [Scene.speciesFromObject, pyGet, hx', bind, Except.bind]
      exact l3 i hi
    · rw [l4]
      simp only [bind, Except.bind, pure, Except.pure, List.flatMap_def]
    · rw [k2]

/-- **C97 (volumes).** A scene of volumes reports the old positions. -/
theorem C97_volumes_stale (env : Env) (w w' : World) (t : Tr ℝ) (xs : List Item) (hx : w.objects = some xs) (hv : ∀ x ∈ xs, ∃ u, x = .vol u)
    (ht : w.transform env t = (w', .ok ())) (as : List (V3 ℝ)) (ha : w.allAtoms env = .ok as) : w'.allAtoms env = .ok as := by
  have hm : Balanced xs := by
    intro m hm
    obtain ⟨u, hu⟩ := hv _ hm
    cases hu
  obtain ⟨parts, h1, rfl, -, h3, -⟩ := C97_exact env w w' t xs hx hm ht as ha
  rw [h3]
  congr 1
  rw [List.flatMap_def, List.flatMap_def]
  congr 1
  apply List.map_congr_left
  intro x hx'
  obtain ⟨u, hu⟩ := hv x.1 (by rw [← h1]; exact List.mem_map.mpr ⟨x, hx', rfl⟩)
  rw [hu]; rfl

/-- **C97 (molecules, partial).** A scene of molecules reports the new positions at once.  Missing from C97: volumes. -/
theorem C97_molecules_partial (env : Env) (w w' : World) (t : Tr ℝ) (xs : List Item) (hx : w.objects = some xs) (hv : ∀ x ∈ xs, ∃ u, x = .mol u)
    (hm : Balanced xs) (ht : w.transform env t = (w', .ok ())) (as : List (V3 ℝ)) (ha : w.allAtoms env = .ok as) :
    w'.allAtoms env = .ok (as.map t.apply) ∧ w'.allSpecies env = w.allSpecies env := by
  obtain ⟨parts, h1, rfl, -, h3, h4⟩ := C97_exact env w w' t xs hx hm ht as ha
  refine ⟨?_, h4⟩
  rw [h3, List.map_flatMap]
  congr 1
  rw [List.flatMap_def, List.flatMap_def]
  congr 1
  apply List.map_congr_left
  intro x hx'
  obtain ⟨u, hu⟩ := hv x.1 (by rw [← h1]; exact List.mem_map.mpr ⟨x, hx', rfl⟩)
  rw [hu]; rfl

/-- **C97, finding.** A scene with one ball of crystal: after `populate()` and a translation of the ball by (5, 0, 0) the atoms
reported are not those of the moved ball. -/
theorem C97_refuted (env : Env) (b : V3 ℝ × V3 ℝ) (n : ℕ) : ∃ w1 n1 w2 as as',
    World.populate env ⟨some [.vol (.vol (unitBall 0))], none, b⟩ n = (w1, n1, .ok ()) ∧ w1.allAtoms env = .ok as ∧
      w1.transform env (.translation ⟨5, 0, 0⟩ true false) = (w2, .ok ()) ∧ w2.allAtoms env = .ok as' ∧
      (0 : V3 ℝ) ∈ as' ∧ ¬ as'.Perm (as.map (Tr.apply (.translation ⟨5, 0, 0⟩ true false))) := by
  have hB := unitBall_crystal env
  have hmov : ∀ x ∈ [Item.vol (.vol (unitBall 0))], Movable env Axes.none x := by
    intro x hx
    rw [List.mem_singleton] at hx
    subst hx
    exact .vol _ (.vol _ _ _ _ (.ball hB))
  obtain ⟨w1, n1, as, ss, hp, ha, hs, hl, hin, hall⟩ := C95_crystals env ⟨some [.vol (.vol (unitBall 0))], none, b⟩ n
    [(.vol (.vol (unitBall 0)), _, _)] (by
      intro x hx
      rw [List.mem_singleton] at hx
      subst hx
      exact .ball _ _ _ _ rfl rfl hB.spheres hB.radii rfl hB.body.plain hB.body.det hB.body.frac) rfl
  obtain ⟨pairs, ys, hpr, hy, hys, hpp⟩ := World.populate_movable (w := ⟨some [.vol (.vol (unitBall 0))], none, b⟩) rfl hmov hp
  have hvols : ∀ y ∈ ys, ∃ u, y = .vol u := by
    intro y hy'
    obtain ⟨x, hx, rfl⟩ := List.mem_map.mp (hys.mem_iff.mp hy')
    have hx1 : x.1 ∈ [Item.vol (.vol (unitBall 0))] := by rw [← hpr]; exact List.mem_map.mpr ⟨x, hx, rfl⟩
    rw [List.mem_singleton] at hx1
    have := (hpp x hx).2
    rw [hx1] at this
    generalize x.2 = z at this
    cases this with
    | vol _ t' _ => exact ⟨t', rfl⟩
  have hmy : ∀ y ∈ ys, Movable env Axes.none y := by
    intro y hy'
    obtain ⟨x, hx', rfl⟩ := List.mem_map.mp (hys.mem_iff.mp hy')
    exact (hpp x hx').1
  obtain ⟨w2, q, ht, -, -, -⟩ := World.transform_movable (t := .translation ⟨5, 0, 0⟩ true false) (.translation _ _ _) rfl rfl (Axes.none_turned _ Axes.none) hy hmy
  have hst := C97_volumes_stale env w1 w2 _ ys hy hvols ht as ha
  have h0 : ((0 : V3 ℝ), (6 : ℤ)) ∈ as.zip ss := by
    refine hall ⟨0, by simp⟩ _ ⟨0, _, List.mem_singleton.mpr rfl, ?_⟩ ⟨?_, ?_⟩ ?_
    · rw [unitVoxel_sbases, show unitVoxel.origin = 0 from rfl]
      ext1
      · simp only; rw [crystal_one]; ext <;> simp
      · rfl
    · intro s hs
      simp [unitBall] at hs
      subst hs
      simp [Spec.dist]
    · intro a ha
      simp only [unitBall, List.mem_singleton] at ha
      subst ha
      simp [Alg.interior, Sphere.interior, V3.normSq, V3.dot]
      norm_num
    · intro j hj
      exact absurd (Subsingleton.elim (α := Fin 1) j _) hj
  have h0' : (0 : V3 ℝ) ∈ as := (List.of_mem_zip h0).1
  refine ⟨w1, n1, w2, as, as, hp, ha, ht, hst, h0', ?_⟩
  intro hperm
  obtain ⟨p, hp', he⟩ := List.mem_map.mp (hperm.mem_iff.mp h0')
  obtain ⟨i, hi, hpi⟩ := List.getElem_of_mem hp'
  have hz : (p, ss[i]'(by omega)) ∈ as.zip ss := by
    have : i < (as.zip ss).length := by simp; omega
    have h3 := List.getElem_mem this
    rw [List.getElem_zip, hpi] at h3
    exact h3
  obtain ⟨k, -, hk, -⟩ := hin _ hz
  have hk0 : k = ⟨0, by simp⟩ := Subsingleton.elim (α := Fin 1) _ _
  subst hk0
  have hins := hk _ rfl
  cases hins with
  | vol _ _ _ hal =>
    have := hal (.sphere ⟨1, 0, 1 / 10⟩) (by simp [unitBall])
    have hx5 : p.x + 5 = 0 := by have := congrArg V3.x he; simpa [Tr.apply] using this
    rw [show (Alg.sphere ⟨1, 0, 1 / 10⟩).interior p = decide _ from rfl, decide_eq_true_iff] at this
    simp only [V3.normSq, V3.dot, V3.sub_x, V3.sub_y, V3.sub_z, V3.zero_x, V3.zero_y, V3.zero_z] at this
    have hx : p.x = -5 := by linarith
    rw [hx] at this
    norm_num at this
    nlinarith [sq_nonneg p.y, sq_nonneg p.z]

end CZ
