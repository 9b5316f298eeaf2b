import Verif.VolumeCalls
import Verif.Spec.Volume
import Verif.Props.Volume

/-!
# Property C111: what calls on a Volume change
-/

namespace CZ
open Spec

namespace Spec

/-- The surfaces a history adds to a Volume, in order. -/
def surfacesAdded : List VolOp → List Alg
  | [] => []
  | .addAlg (some a) :: os => a :: surfacesAdded os
  | _ :: os => surfacesAdded os

/-- The priority after a history: the last integer (or truth value, C27) assigned. -/
def lastPriority (old : ℤ) : List VolOp → ℤ
  | [] => old
  | .setPriority (.int n) :: os => lastPriority n os
  | .setPriority (.bool b) :: os => lastPriority (if b then 1 else 0) os
  | _ :: os => lastPriority old os

/-- The tolerance after a history: the last float assigned. -/
noncomputable def lastTolerance (old : ℝ) : List VolOp → ℝ
  | [] => old
  | .setTolerance (.float x) :: os => lastTolerance x os
  | _ :: os => lastTolerance old os

/-- The history does not move the Volume. -/
def Still (os : List VolOp) : Prop := ∀ o ∈ os, ∀ t, o ≠ .transform t

end Spec

namespace Vol

theorem addPoints_frame (env : Env) (v : Vol) (a : PtArg) :
    (v.addPoints env a).1.algs = v.algs ∧ (v.addPoints env a).1.gen = v.gen ∧ (v.addPoints env a).1.priority = v.priority ∧
    (v.addPoints env a).1.tol = v.tol ∧ (v.addPoints env a).1.atoms = v.atoms ∧ (v.addPoints env a).1.species = v.species := by
  have hc : ∀ w : Vol, (w.createHull env).1.algs = w.algs ∧ (w.createHull env).1.gen = w.gen ∧
      (w.createHull env).1.priority = w.priority ∧ (w.createHull env).1.tol = w.tol ∧
      (w.createHull env).1.atoms = w.atoms ∧ (w.createHull env).1.species = w.species := by
    intro w; unfold createHull; split <;> try (simp; done)
    split_ifs <;> simp
  have hu : ∀ (w : Vol) ps, (w.updateHull env ps).1.algs = w.algs ∧ (w.updateHull env ps).1.gen = w.gen ∧
      (w.updateHull env ps).1.priority = w.priority ∧ (w.updateHull env ps).1.tol = w.tol ∧
      (w.updateHull env ps).1.atoms = w.atoms ∧ (w.updateHull env ps).1.species = w.species := by
    intro w ps; unfold updateHull; split
    · simp
    · exact hc w
  unfold addPoints
  split
  · split
    · simp
    · exact hu _ _
  · exact hu _ _
  · simp
  · simp

theorem addGenerator_frame (v : Vol) (g : Option GenObj) (o : Option (V3 ℝ)) :
    (v.addGenerator g o).1 = { v with gen := (v.addGenerator g o).1.gen } := by
  unfold addGenerator
  repeat' split
  all_goals rfl

theorem populate_frame (env : Env) (n : ℕ) (v : Vol) :
    (v.populate env n).1 = { v with gen := (v.populate env n).1.gen, atoms := (v.populate env n).1.atoms,
                                    species := (v.populate env n).1.species } := by
  have key : ∀ w : Vol × Py Unit, (∃ g a s, w.1 = { v with gen := g, atoms := a, species := s }) →
      w.1 = { v with gen := w.1.gen, atoms := w.1.atoms, species := w.1.species } := by
    rintro w ⟨g, a, s, e⟩; rw [e]
  apply key
  unfold populate
  split
  · exact ⟨_, _, _, rfl⟩
  · split
    · exact ⟨_, _, _, rfl⟩
    · split
      · exact ⟨_, _, _, rfl⟩
      · dsimp only
        split
        all_goals exact ⟨_, _, _, rfl⟩

/-- **C111 (each call).** What a call on a Volume may change, whether it succeeds or raises: adding a surface only the list of surfaces,
adding points only points, hull and triangulation, and so on. -/
theorem C111_frame (env : Env) (n : ℕ) (v : Vol) :
    (∀ a, v.step env n (.addAlg (some a)) = ({ v with algs := v.algs ++ [a] }, .ok ())) ∧
    v.step env n (.addAlg none) = (v, .error .assertion) ∧
    (∀ a, ∃ p h t, (v.step env n (.addPoints a)).1 = { v with points := p, hull := h, tri := t }) ∧
    (∀ g o, ∃ g', (v.step env n (.addGenerator g o)).1 = { v with gen := g' }) ∧
    (∀ x, ∃ k, (v.step env n (.setPriority x)).1 = { v with priority := k }) ∧
    (∀ x, v.step env n (.setTolerance (.float x)) = ({ v with tol := x }, .ok ())) ∧
    (∀ x, (∀ r, x ≠ .float r) → v.step env n (.setTolerance x) = (v, .error .assertion)) ∧
    (∃ g a s, (v.step env n .populate).1 = { v with gen := g, atoms := a, species := s }) ∧
    ∀ t, ∃ p h r as g, (v.step env n (.transform t)).1 = { v with points := p, hull := h, tri := r, algs := as, gen := g } := by
  refine ⟨fun a => rfl, rfl, fun a => ?_, fun g o => ⟨_, addGenerator_frame v g o⟩, fun x => ⟨_, rfl⟩, fun x => rfl, ?_,
    ⟨_, _, _, populate_frame env n v⟩, fun t => ?_⟩
  · obtain ⟨h1, h2, h3, h4, h5, h6⟩ := addPoints_frame env v a
    refine ⟨(v.addPoints env a).1.points, (v.addPoints env a).1.hull, (v.addPoints env a).1.tri, ?_⟩
    show (v.addPoints env a).1 = _
    rw [← h1, ← h2, ← h3, ← h4, ← h5, ← h6]
  · intro x hx
    cases x with
    | float r => exact absurd rfl (hx r)
    | _ => rfl
  · have hr : ∀ w : Vol, ∃ as g, (w.transformRest t).1 = { w with algs := as, gen := g } := by
      intro w; unfold transformRest; repeat' split
      all_goals exact ⟨_, _, rfl⟩
    have hf : ∀ (w : Vol) (p h r as g), w = { v with points := p, hull := h, tri := r, algs := as, gen := g } →
        ∃ p h r as g, (w.transformRest t).1 = { v with points := p, hull := h, tri := r, algs := as, gen := g } := by
      rintro w p h r as g rfl
      obtain ⟨as', g', e⟩ := hr { v with points := p, hull := h, tri := r, algs := as, gen := g }
      exact ⟨p, h, r, as', g', e⟩
    show ∃ p h r as g, (v.transform env t).1 = _
    unfold transform
    split
    · exact hf v _ _ _ _ _ rfl
    · exact ⟨_, _, _, _, _, rfl⟩
    · rename_i pts _ _
      -- the points setter always raises here
      generalize hps : (match pts with | .arr ps => ps | .single p => [p] | .cleared => []) = ps
      simp only [setPoints, addPoints]
      exact ⟨_, _, _, _, _, rfl⟩

theorem step_algs (env : Env) (n : ℕ) (v : Vol) (o : VolOp) (h : ∀ t, o ≠ .transform t) :
    (v.step env n o).1.algs = v.algs ++ surfacesAdded [o] := by
  cases o with
  | addAlg a => cases a <;> simp [step, surfacesAdded, addAlg]
  | addPoints a =>
    have := (addPoints_frame env v a).1
    cases a <;> simp [step, surfacesAdded, this]
  | addGenerator g o => simp only [step, surfacesAdded]; rw [addGenerator_frame]; simp
  | setPriority x => simp [step, surfacesAdded]
  | setTolerance x => cases x <;> simp [step, surfacesAdded]
  | populate => simp only [step, surfacesAdded]; rw [populate_frame]; simp
  | transform t => exact absurd rfl (h t)

theorem surfacesAdded_cons (o : VolOp) (os : List VolOp) : surfacesAdded (o :: os) = surfacesAdded [o] ++ surfacesAdded os := by
  cases o with
  | addAlg a => cases a <;> simp [surfacesAdded]
  | _ => simp [surfacesAdded]

theorem step_priority (env : Env) (n : ℕ) (v : Vol) (o : VolOp) : (v.step env n o).1.priority = lastPriority v.priority [o] := by
  cases o with
  | addAlg a => cases a <;> simp [step, lastPriority, addAlg]
  | addPoints a => have := (addPoints_frame env v a).2.2.1; simp [step, lastPriority, this]
  | addGenerator g o => simp only [step, lastPriority]; rw [addGenerator_frame]
  | setPriority x => cases x <;> simp [step, lastPriority, volPrioritySet]
  | setTolerance x => cases x <;> simp [step, lastPriority]
  | populate => simp only [step, lastPriority]; rw [populate_frame]
  | transform t =>
    obtain ⟨p, h, r, as, g, e⟩ := (C111_frame env n v).2.2.2.2.2.2.2.2 t
    rw [e]; simp [lastPriority]

theorem lastPriority_cons (k : ℤ) (o : VolOp) (os : List VolOp) :
    lastPriority k (o :: os) = lastPriority (lastPriority k [o]) os := by
  cases o with
  | setPriority x => cases x <;> simp [lastPriority]
  | _ => simp [lastPriority]

theorem step_tol (env : Env) (n : ℕ) (v : Vol) (o : VolOp) : (v.step env n o).1.tol = lastTolerance v.tol [o] := by
  cases o with
  | addAlg a => cases a <;> simp [step, lastTolerance, addAlg]
  | addPoints a => have := (addPoints_frame env v a).2.2.2.1; simp [step, lastTolerance, this]
  | addGenerator g o => simp only [step, lastTolerance]; rw [addGenerator_frame]
  | setPriority x => simp [step, lastTolerance]
  | setTolerance x => cases x <;> simp [step, lastTolerance]
  | populate => simp only [step, lastTolerance]; rw [populate_frame]
  | transform t =>
    obtain ⟨p, h, r, as, g, e⟩ := (C111_frame env n v).2.2.2.2.2.2.2.2 t
    rw [e]; simp [lastTolerance]

theorem lastTolerance_cons (k : ℝ) (o : VolOp) (os : List VolOp) :
    lastTolerance k (o :: os) = lastTolerance (lastTolerance k [o]) os := by
  cases o with
  | setTolerance x => cases x <;> simp [lastTolerance]
  | _ => simp [lastTolerance]

/-- **C111 (settings).** After any history of calls, also failing ones, the Volume has the priority and the tolerance assigned last,
and (without motions) exactly the surfaces it had and those added, in this order. -/
theorem C111_settings (env : Env) (os : List VolOp) : ∀ (n : ℕ) (v : Vol),
    (v.runFrom env n os).priority = lastPriority v.priority os ∧ (v.runFrom env n os).tol = lastTolerance v.tol os ∧
    (Still os → (v.runFrom env n os).algs = v.algs ++ surfacesAdded os) := by
  induction os with
  | nil => intro n v; simp [runFrom, lastPriority, lastTolerance, surfacesAdded]
  | cons o os ih =>
    intro n v
    obtain ⟨h1, h2, h3⟩ := ih (n + 1) (v.step env n o).1
    refine ⟨?_, ?_, fun hs => ?_⟩
    · rw [runFrom, h1, step_priority]; exact (lastPriority_cons _ o os).symm
    · rw [runFrom, h2, step_tol]; exact (lastTolerance_cons _ o os).symm
    · rw [runFrom, h3 (fun x hx => hs x (List.mem_cons_of_mem _ hx)), step_algs env n v o (hs o (by simp)), surfacesAdded_cons o os,
        List.append_assoc]

/-- Points, hull and triangulation agree: there is a hull iff there is a triangulation, and it belongs to the first points. -/
def Coherent (v : Vol) : Prop :=
  (v.tri = none ↔ v.hull = none) ∧ ∀ t, v.tri = some t → ∃ more, v.points = some (.arr (t ++ more))

theorem step_tri (env : Env) (n : ℕ) (v : Vol) (hv : v.Coherent) (o : VolOp) (h : ∀ t, o ≠ .transform t) :
    (v.step env n o).1.Coherent ∧ ∀ t, v.tri = some t → (v.step env n o).1.tri = some t := by
  have same : ∀ w : Vol, w.points = v.points → w.hull = v.hull → w.tri = v.tri →
      w.Coherent ∧ ∀ t, v.tri = some t → w.tri = some t := by
    intro w h1 h2 h3
    exact ⟨by rw [Coherent, h1, h2, h3]; exact hv, fun t ht => by rw [h3, ht]⟩
  cases o with
  | addAlg a => cases a <;> exact same _ rfl rfl rfl
  | addGenerator g o => refine same _ ?_ ?_ ?_ <;> (simp only [step]; rw [addGenerator_frame])
  | setPriority x => exact same _ rfl rfl rfl
  | setTolerance x => cases x <;> exact same _ rfl rfl rfl
  | populate => refine same _ ?_ ?_ ?_ <;> (simp only [step]; rw [populate_frame])
  | transform t => exact absurd rfl (h t)
  | addPoints a =>
    simp only [step, addPoints]
    cases hp : v.points with
    | none =>
      have ht : v.tri = none := by
        by_contra hne
        obtain ⟨t, ht⟩ := Option.ne_none_iff_exists'.mp hne
        obtain ⟨m, hm⟩ := hv.2 t ht
        rw [hp] at hm; cases hm
      have hh := hv.1.mp ht
      cases a with
      | vec p => exact ⟨⟨by simp [ht, hh], fun t h' => by simp [ht] at h'⟩, fun t h' => by simp [ht] at h'⟩
      | rows ps =>
        simp only [updateHull, hh, createHull]
        refine ⟨?_, fun t h' => by simp [ht] at h'⟩
        split_ifs
        · exact ⟨by simp, fun t h' => ⟨[], by simp at h'; simp [h']⟩⟩
        · exact ⟨by simp [ht, hh], fun t h' => by simp [ht] at h'⟩
        · exact ⟨by simp [ht, hh], fun t h' => by simp [ht] at h'⟩
    | some pts =>
      cases pts with
      | cleared => exact same _ (by simp [hp]) rfl rfl
      | single p => exact same _ (by simp [hp]) rfl rfl
      | arr qs =>
        simp only [updateHull]
        cases hh : v.hull with
        | none =>
          have ht := hv.1.mpr hh
          simp only [createHull]
          refine ⟨?_, fun t h' => by simp [ht] at h'⟩
          split_ifs
          · exact ⟨by simp, fun t h' => ⟨[], by simp at h'; simp [h']⟩⟩
          · exact ⟨by simp [ht, hh], fun t h' => by simp [ht] at h'⟩
          · exact ⟨by simp [ht, hh], fun t h' => by simp [ht] at h'⟩
        | some hl =>
          refine ⟨⟨?_, fun t h' => ?_⟩, fun t h' => by simpa using h'⟩
          · have : v.tri ≠ none := fun h0 => by rw [hv.1.mp h0] at hh; cases hh
            simp [this]
          · simp only at h'
            obtain ⟨m, hm⟩ := hv.2 t h'
            rw [hp] at hm
            simp only [Option.some.injEq, PtsArr.arr.injEq] at hm
            exact ⟨m ++ rowsOf a, by simp [hm]⟩

/-- **C111 (region).** After any history of calls that does not move it, a Volume which has a hull is the intersection of that hull
with all surfaces, the old and the added ones. -/
theorem C111_region (env : Env) (os : List VolOp) (hs : Still os) (n : ℕ) (v : Vol) (hv : v.Coherent) (t : List (V3 ℝ))
    (ht : v.tri = some t) (p : V3 ℝ) :
    Inside env (.vol (v.runFrom env n os)) p ↔
      env.inHull t (lastTolerance v.tol os) p = true ∧ (∀ a ∈ v.algs, a.interior p = true) ∧
      ∀ a ∈ surfacesAdded os, a.interior p = true := by
  have htri : ∀ (os : List VolOp) (n : ℕ) (v : Vol), Still os → v.Coherent → v.tri = some t →
      (v.runFrom env n os).tri = some t := by
    intro os
    induction os with
    | nil => intro n v _ _ h; exact h
    | cons o os ih =>
      intro n v hs hv ht
      obtain ⟨h1, h2⟩ := step_tri env n v hv o (hs o (by simp))
      exact ih _ _ (fun x hx => hs x (List.mem_cons_of_mem _ hx)) h1 (h2 t ht)
  obtain ⟨-, h2, h3⟩ := C111_settings env os n v
  have h4 := htri os n v hs hv ht
  constructor
  · intro h
    cases h with
    | vol _ _ hh ha =>
      rw [h3 hs] at ha
      rw [← h2]
      exact ⟨hh t h4, fun a h => ha a (List.mem_append_left _ h), fun a h => ha a (List.mem_append_right _ h)⟩
  · rintro ⟨h5, h6, h7⟩
    refine Inside.vol _ _ (fun t' ht' => ?_) (fun a ha => ?_)
    · rw [h4] at ht'; cases ht'; rw [h2]; exact h5
    · rw [h3 hs, List.mem_append] at ha
      exact ha.elim (h6 a) (h7 a)

/-- **C111 (region without points).** The same for a Volume made of surfaces only, as long as no points are added. -/
theorem C111_region_surfaces (env : Env) (os : List VolOp) (hs : Still os) (hp : ∀ o ∈ os, ∀ a, o ≠ .addPoints a) (n : ℕ) (v : Vol)
    (ht : v.tri = none) (p : V3 ℝ) :
    Inside env (.vol (v.runFrom env n os)) p ↔ (∀ a ∈ v.algs, a.interior p = true) ∧ ∀ a ∈ surfacesAdded os, a.interior p = true := by
  have htri : ∀ (os : List VolOp) (n : ℕ) (v : Vol), Still os → (∀ o ∈ os, ∀ a, o ≠ .addPoints a) → v.tri = none →
      (v.runFrom env n os).tri = none := by
    intro os
    induction os with
    | nil => intro n v _ _ h; exact h
    | cons o os ih =>
      intro n v hs hp ht
      refine ih _ _ (fun x hx => hs x (List.mem_cons_of_mem _ hx)) (fun x hx => hp x (List.mem_cons_of_mem _ hx)) ?_
      cases o with
      | addAlg a => cases a <;> exact ht
      | addGenerator g o => simp only [step]; rw [addGenerator_frame]; exact ht
      | setPriority x => exact ht
      | setTolerance x => cases x <;> exact ht
      | populate => simp only [step]; rw [populate_frame]; exact ht
      | transform t => exact absurd rfl (hs _ (by simp) t)
      | addPoints a => exact absurd rfl (hp _ (by simp) a)
  obtain ⟨-, -, h3⟩ := C111_settings env os n v
  have h4 := htri os n v hs hp ht
  constructor
  · intro h
    cases h with
    | vol _ _ hh ha =>
      rw [h3 hs] at ha
      exact ⟨fun a h => ha a (List.mem_append_left _ h), fun a h => ha a (List.mem_append_right _ h)⟩
  · rintro ⟨h6, h7⟩
    refine Inside.vol _ _ (fun t' ht' => by rw [h4] at ht'; cases ht') (fun a ha => ?_)
    rw [h3 hs, List.mem_append] at ha
    exact ha.elim (h6 a) (h7 a)

/-- The generator which `Volume(..., generator=g, gen_origin=o)` keeps, if it can. -/
def keptGen : Option GenObj → Option (V3 ℝ) → Option (Option GenObj)
  | none, _ => some none
  | some (.amorphous a), _ => some (some (.amorphous a))
  | some g, none => some (some g)
  | some (.crystal g), some o => g.voxel.map fun x => some (.crystal { g with voxel := some { x with origin := o } })
  | some .null, some _ => none

/-- **C111 (constructor).** A Volume can be constructed exactly from more than three points that span a hull (or no points) and a
generator that can take the origin; it then holds what was given, no atoms yet, and hull and points agree. -/
theorem C111_constructor (env : Env) (points : Option (List (V3 ℝ))) (algs : List Alg) (gen : Option GenObj) (pr : ℤ) (tol : ℝ)
    (o : Option (V3 ℝ)) (v : Vol) :
    (Vol.make env points algs gen pr tol o = .ok v ↔
      (∀ ps, points = some ps → 3 < ps.length ∧ env.hullOk ps = true) ∧
      ∃ g, keptGen gen o = some g ∧ v = ⟨points.map .arr, points, points, algs, g, pr, tol, none, none⟩) ∧
    (Vol.make env points algs gen pr tol o = .ok v → v.Coherent) := by
  have hfold : ∀ (as : List Alg) (w : Vol), as.foldl addAlg w = { w with algs := w.algs ++ as } := by
    intro as; induction as with
    | nil => intro w; simp
    | cons a as ih => intro w; rw [List.foldl_cons, ih]; simp [addAlg]
  have main : Vol.make env points algs gen pr tol o = .ok v ↔
      (∀ ps, points = some ps → 3 < ps.length ∧ env.hullOk ps = true) ∧
      ∃ g, keptGen gen o = some g ∧ v = ⟨points.map .arr, points, points, algs, g, pr, tol, none, none⟩ := by
    cases points with
    | none =>
      have e : Vol.make env none algs gen pr tol o = (match keptGen gen o with
          | some g => .ok { blank tol with gen := g, priority := pr, algs := algs }
          | none => .error .attribute) := by
        unfold Vol.make
        simp only [pure_bind]
        cases gen with
        | none => simp only [keptGen, hfold]; rfl
        | some g =>
          cases g with
          | amorphous a => simp only [addGenerator, keptGen, hfold]; rfl
          | crystal g =>
            cases o with
            | none => simp only [addGenerator, keptGen, hfold]; rfl
            | some o => cases hx : g.voxel <;> simp only [addGenerator, keptGen, hx, hfold, Option.map] <;> rfl
          | null => cases o <;> simp only [addGenerator, keptGen, hfold] <;> rfl
      rw [e]
      cases keptGen gen o with
      | none => simp
      | some g =>
        simp only [Except.ok.injEq, Option.some.injEq, exists_eq_left', blank, Option.map_none]
        constructor
        · rintro rfl; exact ⟨fun ps h => by simp at h, rfl⟩
        · rintro ⟨-, rfl⟩; rfl
    | some ps =>
      by_cases hl : 3 < ps.length ∧ env.hullOk ps = true
      · have e : Vol.make env (some ps) algs gen pr tol o = (match keptGen gen o with
            | some g => .ok ⟨some (.arr ps), some ps, some ps, algs, g, pr, tol, none, none⟩
            | none => .error .attribute) := by
          unfold Vol.make
          simp only [addPoints, blank, updateHull, createHull, hl.1, hl.2, not_true_eq_false, if_false, if_true, pure_bind]
          cases gen with
          | none => simp only [keptGen, hfold]; rfl
          | some g =>
            cases g with
            | amorphous a => simp only [addGenerator, keptGen, hfold]; rfl
            | crystal g =>
              cases o with
              | none => simp only [addGenerator, keptGen, hfold]; rfl
              | some o => cases hx : g.voxel <;> simp only [addGenerator, keptGen, hx, hfold, Option.map] <;> rfl
            | null => cases o <;> simp only [addGenerator, keptGen, hfold] <;> rfl
        rw [e]
        cases keptGen gen o with
        | none => simp
        | some g =>
          simp only [Except.ok.injEq, Option.some.injEq, exists_eq_left', Option.map_some]
          constructor
          · rintro rfl; exact ⟨by rintro _ rfl; exact hl, rfl⟩
          · rintro ⟨-, rfl⟩; rfl
      · have e : ∃ er, Vol.make env (some ps) algs gen pr tol o = .error er := by
          unfold Vol.make
          simp only [addPoints, blank, updateHull, createHull]
          by_cases h3 : 3 < ps.length
          · have h4 : env.hullOk ps = false := by
              by_contra h5; exact hl ⟨h3, by simpa using h5⟩
            simp only [h3, h4, not_true_eq_false, if_false]
            exact ⟨_, rfl⟩
          · simp only [h3, not_false_eq_true, if_true]
            exact ⟨_, rfl⟩
        obtain ⟨er, e⟩ := e
        rw [e]
        constructor
        · intro h; cases h
        · rintro ⟨h, -⟩; exact absurd (h ps rfl) hl
  refine ⟨main, fun h => ?_⟩
  obtain ⟨-, g, -, rfl⟩ := main.mp h
  exact ⟨by simp, fun t ht => ⟨[], by simp at ht; simp [ht]⟩⟩

/-- **C16 (hypothesis).** What the constructor returns from well-formed surfaces is well made. -/
theorem C16_constructed (env : Env) (points : Option (List (V3 ℝ))) (algs : List Alg) (ha : ∀ a ∈ algs, a.WF) (gen : Option GenObj)
    (pr : ℤ) (tol : ℝ) (o : Option (V3 ℝ)) (v : Vol) (h : Vol.make env points algs gen pr tol o = .ok v) : WellMade (.vol v) := by
  obtain ⟨-, g, -, rfl⟩ := (C111_constructor env points algs gen pr tol o v).1.mp h
  refine .vol _ ?_ ha
  cases points <;> simp

/-- A ball gets a second surface and a priority between two failing calls. -/
example (env : Env) (s : Sphere) (pl : Plane) (p : V3 ℝ) :
    let v : Vol := ⟨none, none, none, [.sphere s], none, 0, 0, none, none⟩
    let os : List VolOp := [.addAlg none, .setPriority (.int 7), .addAlg (some (.plane pl)), .setPriority (.float 3), .populate]
    (v.runFrom env 0 os).priority = 7 ∧
    (Inside env (.vol (v.runFrom env 0 os)) p ↔ s.interior p = true ∧ pl.interior p = true) := by
  intro v os
  have hs : Still os := by intro o ho t; simp only [os, List.mem_cons, List.not_mem_nil, or_false] at ho; rcases ho with rfl | rfl | rfl | rfl | rfl <;> simp
  have hp : ∀ o ∈ os, ∀ a, o ≠ .addPoints a := by
    intro o ho t; simp only [os, List.mem_cons, List.not_mem_nil, or_false] at ho; rcases ho with rfl | rfl | rfl | rfl | rfl <;> simp
  refine ⟨by rw [(C111_settings env os 0 v).1]; rfl, ?_⟩
  rw [C111_region_surfaces env os hs hp 0 v rfl]
  simp [v, os, surfacesAdded, Alg.interior]

end Vol
end CZ
