import Verif.VolumeCalls
import Verif.Spec.Volume

/-!
# Property C111, exceptions: which calls on a Volume raise what
-/

namespace CZ
open Spec

namespace Vol

open Classical in
/-- **C111 (exceptions of the setters).**  `add_alg_object` of anything but a surface and `tolerance = x` of anything but a float: AssertionError;
`priority = x` of anything but an integer or truth value, `add_generator` of anything but a generator: TypeError; a generator origin for a
crystal without voxel or a NullGenerator: AttributeError.  Everything else is accepted. -/
theorem C111_setter_exceptions (env : Env) (n : ℕ) (v : Vol) :
    (v.step env n (.addAlg none)).2 = .error .assertion ∧ (∀ a, (v.step env n (.addAlg (some a))).2 = .ok ()) ∧
    (∀ x, (v.step env n (.setTolerance x)).2 = if ∃ r, x = .float r then .ok () else .error .assertion) ∧
    (∀ x, (v.step env n (.setPriority x)).2 = if (∃ k, x = .int k) ∨ ∃ b, x = .bool b then .ok () else .error .type) ∧
    (∀ o, (v.step env n (.addGenerator none o)).2 = .error .type) ∧
    (∀ g, (v.step env n (.addGenerator (some g) none)).2 = .ok ()) ∧
    (∀ a o, (v.step env n (.addGenerator (some (.amorphous a)) o)).2 = .ok ()) ∧
    (∀ o, (v.step env n (.addGenerator (some .null) (some o))).2 = .error .attribute) ∧
    ∀ g o, (v.step env n (.addGenerator (some (.crystal g)) (some o))).2 = if g.voxel = none then .error .attribute else .ok () := by
  refine ⟨rfl, fun _ => rfl, fun x => ?_, fun x => ?_, fun _ => rfl, fun g => ?_, fun _ _ => rfl, fun _ => rfl, fun g o => ?_⟩
  · cases x <;> simp [step]
  · cases x <;> simp [step, volPrioritySet]
  · cases g <;> simp [step, addGenerator]
  · cases hg : g.voxel <;> simp [step, addGenerator, hg]

/-- How `createHull` answers for the array of points it finds. -/
theorem createHull_status (env : Env) (v : Vol) : (v.createHull env).2 =
    match v.points with
    | none => .error .attribute
    | some (.arr ps) => if ps.length < 4 then .error .assertion else if env.hullOk ps then .ok () else .error .runtime
    | some _ => .error .assertion := by
  unfold createHull
  cases hp : v.points with
  | none => rfl
  | some a =>
    cases a with
    | arr ps =>
      simp only
      by_cases h : ps.length < 4
      · rw [if_pos (by omega), if_pos h]
      · rw [if_neg (by omega), if_neg h]
        split_ifs <;> rfl
    | cleared => rfl
    | single p => rfl

/-- **C111 (exceptions for points).**  `createHull` without points: AttributeError; with fewer than four: AssertionError; with points Qhull refuses: QhullError.
The first call of `addPoints` with a single point raises TypeError, and every call after it, or after an assignment to `points`, ValueError;
with rows it raises what `createHull` raises for the points so far, unless there is a hull already.  An assignment to `points` always raises
ValueError, and so does `transform` of a Volume with points. -/
theorem C111_point_exceptions (env : Env) (n : ℕ) (v : Vol) :
    (v.points = none → (v.createHull env).2 = .error .attribute) ∧
    (∀ ps, v.points = some (.arr ps) →
      (v.createHull env).2 = if ps.length < 4 then .error .assertion else if env.hullOk ps then .ok () else .error .runtime) ∧
    (v.points = none → ∀ p, (v.step env n (.addPoints (.vec p))).2 = .error .type) ∧
    (∀ p a, v.points = some (.single p) → (v.step env n (.addPoints a)).2 = .error .value) ∧
    (∀ a, v.points = some .cleared → (v.step env n (.addPoints a)).2 = .error .value) ∧
    (v.points = none → v.hull = none → ∀ ps, (v.step env n (.addPoints (.rows ps))).2 =
      if ps.length < 4 then .error .assertion else if env.hullOk ps then .ok () else .error .runtime) ∧
    (∀ qs, v.points = some (.arr qs) → v.hull = none → ∀ ps, (v.step env n (.addPoints (.rows ps))).2 =
      if (qs ++ ps).length < 4 then .error .assertion else if env.hullOk (qs ++ ps) then .ok () else .error .runtime) ∧
    (∀ qs h, v.points = some (.arr qs) → v.hull = some h → ∀ a, (v.step env n (.addPoints a)).2 = .ok ()) ∧
    (∀ ps, (v.setPoints env ps).2 = .error .value) ∧
    (v.points ≠ none → ∀ t, (v.step env n (.transform t)).2 = .error .value) := by
  have hset : ∀ ps, (v.setPoints env ps).2 = .error .value := fun _ => rfl
  refine ⟨fun h => ?_, fun ps h => ?_, fun h p => ?_, fun p a h => ?_, fun a h => ?_, fun h hh ps => ?_, fun qs h hh ps => ?_, fun qs g h hh a => ?_, hset,
    fun h t => ?_⟩
  · rw [createHull_status, h]
  · rw [createHull_status, h]
  · simp only [step, addPoints, h]
  · simp only [step, addPoints, h]
  · simp only [step, addPoints, h]
  · simp only [step, addPoints, h, updateHull, hh, createHull_status]
  · simp only [step, addPoints, h, updateHull, hh, createHull_status, rowsOf]
  · simp only [step, addPoints, h, updateHull, hh]
  · cases hp : v.points with
    | none => exact absurd hp h
    | some a =>
      cases a with
      | cleared => simp only [step, transform, hp]
      | arr ps =>
        simp only [step, transform, hp]
        rcases e : v.setPoints env (ps.map t.apply) with ⟨v1, o⟩
        have := hset (ps.map t.apply)
        rw [e] at this
        simp only at this
        subst this
        rfl
      | single p =>
        simp only [step, transform, hp]
        rcases e : v.setPoints env ([p].map t.apply) with ⟨v1, o⟩
        have := hset ([p].map t.apply)
        rw [e] at this
        simp only at this
        subst this
        rfl

/-- **C111 (exceptions of `transform` and `populate_atoms`).**  Without points and with surfaces the transformation accepts, a locked `transform` raises
AttributeError exactly if the generator is not a crystal with a voxel (or the voxel refuses the new bases), though the surfaces have moved by then.
`populate_atoms` without a generator: AttributeError.  A Volume without points, spheres and cylinders has no usable box: with up to three planes a
crystal raises TypeError and an amorphous generator ValueError, with more planes both raise ValueError, and a NullGenerator works. -/
theorem C111_fill_exceptions (env : Env) (n : ℕ) (v : Vol) (hp : v.points = none) :
    (∀ t, (∀ a ∈ v.algs, (t.alg a).2 = .ok ()) → t.locked = true → ∀ g, v.gen = some g → ((∃ a, g = .amorphous a) ∨ g = .null ∨ ∃ c, g = .crystal c ∧ c.voxel = none) →
      (v.step env n (.transform t)).2 = .error .attribute ∧ (v.step env n (.transform t)).1.algs = v.algs.map fun a => (t.alg a).1) ∧
    (v.gen = none → ∀ b, v.boundingBox env = .ok b → (v.step env n .populate).2 = .error .attribute) ∧
    (v.spheres = [] → v.cylinders = [] →
      (∀ c x, v.gen = some (.crystal c) → c.voxel = some x → (v.step env n .populate).2 = .error (if 3 < v.planes.length then .value else .type)) ∧
      (∀ a, v.gen = some (.amorphous a) → (a.useOld = false ∨ a.old = none) → (v.step env n .populate).2 = .error .value) ∧
      (v.gen = some .null → (v.step env n .populate).2 = .ok ())) := by
  refine ⟨fun t ha hl g hg hk => ?_, fun hg b hb => ?_, fun hs hc => ?_⟩
  · have hloop : ∀ as : List Alg, (∀ a ∈ as, (t.alg a).2 = .ok ()) → transformAlgs t as = (as.map fun a => (t.alg a).1, .ok ()) := by
      intro as
      induction as with
      | nil => intro _; rfl
      | cons a as ih =>
        intro h
        have h1 := h a List.mem_cons_self
        rw [transformAlgs]
        rcases e : t.alg a with ⟨a', o⟩
        rw [e] at h1
        simp only at h1
        subst h1
        simp only [ih fun b hb => h b (List.mem_cons_of_mem _ hb), List.map_cons, e]
    have ht : v.step env n (.transform t) = ({ v with algs := v.algs.map fun a => (t.alg a).1, gen := some (g.transform t).1 }, (g.transform t).2) := by
      simp only [step, transform, hp, transformRest, hloop v.algs ha, hl, if_true, hg]
    rw [ht]
    refine ⟨?_, rfl⟩
    rcases hk with ⟨a, rfl⟩ | rfl | ⟨c, rfl, hv⟩
    · rfl
    · rfl
    · simp only [GenObj.transform, Gen.transform, hv]
  · simp only [step, populate, hb, hg]
  · have hb : v.boundingBox env = .ok (if 3 < v.planes.length then .tuple (env.planesBox v.planes).1 (env.planesBox v.planes).2 else .none) := by
      simp only [boundingBox, hp, hs, hc]
      split_ifs <;> rfl
    refine ⟨fun c x hg hx => ?_, fun a hg ha => ?_, fun hg => ?_⟩
    · simp only [step, populate, hb, hg]
      split_ifs <;> simp only [GenObj.supply, hx]
    · have : ∀ b : BBox, (b = .none ∨ ∃ p s, b = .tuple p s) → (GenObj.amorphous a).supply env n b = (.amorphous a, .error .value) := by
        intro b hb
        rcases hb with rfl | ⟨p, s, rfl⟩ <;> rcases ha with ha | ha <;> simp only [GenObj.supply, ha] <;> cases a.useOld <;> simp
      simp only [step, populate, hb, hg]
      rw [this _ (by split_ifs; exacts [.inr ⟨_, _, rfl⟩, .inl rfl])]
    · simp only [step, populate, hb, hg, GenObj.supply]
      have hf : ∀ as : List Alg, as.foldl (fun _ _ => ([] : List Bool)) ([] : List Bool) = [] := by
        intro as
        induction as with
        | nil => rfl
        | cons a as ih => exact ih
      cases ht : v.tri <;> simp [npMask, check, ht, hf, npAnd]

end Vol

/-- Boxes without rows: amorphous generators raise ValueError for an empty array. -/
theorem C111_empty_box (env : Env) (n : ℕ) (a : Amorph) (h : a.useOld = false ∨ a.old = none) :
    ((GenObj.amorphous a).supply env n (.rows [])).2 = .error .value ∧ ((GenObj.amorphous a).supply env n .cleared).2 = .error .value ∧
    ∀ p, ((GenObj.amorphous a).supply env n (.single p)).2 = .error .index := by
  refine ⟨?_, ?_, fun p => ?_⟩ <;> rcases h with h | h <;> simp only [GenObj.supply, h, GenObj.boxDims] <;> cases a.useOld <;> simp

/-- Concrete case: a wedge of two planes filled by a crystal, by an amorphous generator and by nothing. -/
example (env : Env) (a : Amorph) (ha : a.useOld = false) : ∃ v : Vol, v.points = none ∧ v.spheres = [] ∧ v.cylinders = [] ∧ v.planes.length = 2 ∧
    v.gen = some (.amorphous a) ∧ (v.step env 0 .populate).2 = .error .value ∧
    (v.step env 0 (.transform (.translation 0 true false))).2 = .error .attribute := by
  refine ⟨⟨none, none, none, [.plane ⟨⟨0, 0, 1⟩, 0, 0⟩, .plane ⟨⟨0, 1, 0⟩, 0, 0⟩], some (.amorphous a), 0, 0, none, none⟩, rfl, rfl, rfl, rfl, rfl, ?_, ?_⟩
  · exact ((Vol.C111_fill_exceptions env 0 _ rfl).2.2 rfl rfl).2.1 a rfl (.inl ha)
  · refine (((Vol.C111_fill_exceptions env 0 _ rfl).1 (.translation 0 true false) ?_ rfl _ rfl (.inl ⟨a, rfl⟩))).1
    intro a h
    rcases List.mem_cons.1 h with rfl | h
    · rw [Tr.alg]
    · rw [List.mem_singleton.1 h, Tr.alg]

end CZ
