import Verif.Roster
import Verif.Props.Scene

/-!
# Property C132: scenes whose object list is edited

`present ops`: which objects the calls leave in the scene, `assigned`: the priority last assigned to an object.  Both read the calls
only; they know nothing of sorting, masks or arrays.
-/

namespace CZ
namespace Roster

open Spec (Body contents)
variable {P S : Type}

/-- The objects added and not removed since, one entry per addition. -/
def present (ops : List Op) : List ℕ :=
  ops.foldl (fun l o => match o with
    | .add i => l ++ [i]
    | .remove i => l.erase i
    | .clear => []
    | _ => l) []

/-- The priority of an object after the calls. -/
def assigned (prio : ℕ → ℤ) (ops : List Op) : ℕ → ℤ :=
  ops.foldl (fun f o => match o with
    | .prio i z => Function.update f i z
    | _ => f) prio

/-- The body object `i` stands for when its priority is `p i`. -/
def body (tbl : ℕ → Thing P S) (p : ℕ → ℤ) (i : ℕ) : Body P S :=
  { priority := p i
    sites := match (tbl i).supply with
      | .ok (a, s) => a.zip s
      | .error _ => []
    inside := fun x => (tbl i).interior x = true }

/-- An object that can be populated, with as many species as positions. -/
def Good (t : Thing P S) : Prop := ∃ a s, t.supply = .ok (a, s) ∧ a.length = s.length

/-! ### The calls -/

theorem run_append (tbl : ℕ → Thing P S) (r : Roster P S) (xs ys : List Op) :
    run tbl r (xs ++ ys) = run tbl (run tbl r xs) ys := by simp [run]

theorem run_cons (tbl : ℕ → Thing P S) (r : Roster P S) (x : Op) (ys : List Op) :
    run tbl r (x :: ys) = run tbl (step tbl r x).1 ys := rfl

theorem populate_objs (tbl : ℕ → Thing P S) (r : Roster P S) :
    ((populate tbl r).1.objs = none ↔ r.objs = none) ∧
      ((populate tbl r).1.objs.getD []).Perm (r.objs.getD []) ∧ (populate tbl r).1.prio = r.prio := by
  unfold populate
  cases ho : r.objs with
  | none => simp [ho]
  | some is =>
    rcases e : touchAll tbl is r.held with ⟨h, _ | u⟩
    · simp [ho, e]
    · cases e' : Precedence.checks ((stableSort r.prio is).map (obj tbl h r.prio)) with
      | error x => simp [e, e', stableSort_perm]
      | ok c => simp [e, e', stableSort_perm]

theorem run_objs (tbl : ℕ → Thing P S) (held : ℕ → Held P S) (prio : ℕ → ℤ) (ops : List Op) :
    ((run tbl (fresh held prio) ops).objs = none ↔ ∀ i, Op.add i ∉ ops) ∧
      ((run tbl (fresh held prio) ops).objs.getD []).Perm (present ops) ∧
      (run tbl (fresh held prio) ops).prio = assigned prio ops := by
  induction ops using List.reverseRecOn with
  | nil => simp [run, fresh, present, assigned]
  | append_singleton ops o ih =>
    obtain ⟨h1, h2, h3⟩ := ih
    rw [run_append]
    set r := run tbl (fresh held prio) ops with hr
    have e : run tbl r [o] = (step tbl r o).1 := rfl
    rw [e]
    have p1 : present (ops ++ [o]) = (fun l o => match o with
      | .add i => l ++ [i]
      | .remove i => l.erase i
      | .clear => []
      | _ => l) (present ops) o := by
      unfold present; rw [List.foldl_append]; rfl
    have p2 : assigned prio (ops ++ [o]) = (fun f o => match o with
      | .prio i z => Function.update f i z
      | _ => f) (assigned prio ops) o := by
      unfold assigned; rw [List.foldl_append]; rfl
    rw [p1, p2]
    cases o with
    | add i =>
      refine ⟨⟨fun hc => by simp [step] at hc, fun hc => absurd (List.mem_append_right ops (List.mem_singleton_self _)) (hc i)⟩,
        ?_, by simpa [step] using h3⟩
      simpa [step] using h2.append_right [i]
    | remove i =>
      cases hq : r.objs with
      | none =>
        have h1' := h1.mp hq
        rw [hq] at h2
        have : present ops = [] := by simpa using h2.symm
        refine ⟨by simpa [step, hq] using h1', by simp [step, hq, this], by simpa [step, hq] using h3⟩
      | some is =>
        have h1' : ¬ ∀ i, Op.add i ∉ ops := fun hc => by rw [h1.mpr hc] at hq; cases hq
        rw [hq, Option.getD_some] at h2
        by_cases hm : i ∈ is
        · refine ⟨by simpa [step, hq, hm] using h1', ?_, by simpa [step, hq, hm] using h3⟩
          simpa [step, hq, hm] using h2.erase i
        · refine ⟨by simpa [step, hq, hm] using h1', ?_, by simpa [step, hq, hm] using h3⟩
          have : i ∉ present ops := fun hc => hm (h2.mem_iff.mpr hc)
          simpa [step, hq, hm, List.erase_of_not_mem this] using h2
    | clear =>
      cases hq : r.objs with
      | none =>
        have h1' := h1.mp hq
        exact ⟨by simpa [step, hq] using h1', by simp [step, hq], by simpa [step, hq] using h3⟩
      | some is =>
        have h1' : ¬ ∀ i, Op.add i ∉ ops := fun hc => by rw [h1.mpr hc] at hq; cases hq
        exact ⟨by simpa [step, hq] using h1', by simp [step, hq], by simpa [step, hq] using h3⟩
    | prio i z => exact ⟨by simpa [step] using h1, by simpa [step] using h2, by simp [step, h3]⟩
    | own i => exact ⟨by simpa [step] using h1, by simpa [step] using h2, by simpa [step] using h3⟩
    | populate =>
      obtain ⟨q1, q2, q3⟩ := populate_objs tbl r
      refine ⟨?_, q2.trans h2, q3.trans h3⟩
      show (populate tbl r).1.objs = none ↔ _
      rw [q1, h1]
      simp

/-! ### Reading -/

/-- The object in the terms of `Scene`. -/
def sceneObj (tbl : ℕ → Thing P S) (held : ℕ → Held P S) (prio : ℕ → ℤ) (i : ℕ) : SceneObj P S :=
  { priority := prio i
    supply := (tbl i).supply
    cur := match held i with
      | .arrays a s => some (a, s)
      | _ => none
    interior := (tbl i).interior }

theorem toObj_sceneObj (tbl : ℕ → Thing P S) (held : ℕ → Held P S) (prio : ℕ → ℤ) (i : ℕ) :
    Scene.toObj (sceneObj tbl held prio i) = obj tbl held prio i := by
  unfold Scene.toObj sceneObj obj
  cases held i <;> rfl

/-- Object `i` holds what `populate_atoms()` gives it. -/
def Filled (tbl : ℕ → Thing P S) (held : ℕ → Held P S) (i : ℕ) : Prop :=
  ∃ a s, (tbl i).supply = .ok (a, s) ∧ a.length = s.length ∧ held i = .arrays a s

/-- The mask object `i`, `k`-th of the list, has when populated with the objects `is`. -/
def mask (tbl : ℕ → Thing P S) (r : Roster P S) (is : List ℕ) (k i : ℕ) : List Bool :=
  (obj tbl r.held r.prio i).atoms.map (Precedence.keepAt (is.map (obj tbl r.held r.prio)) k (r.prio i))

theorem mapM_same {α β : Type} (f g : α → Py β) (l : List α) (h : ∀ x ∈ l, f x = g x) : l.mapM f = l.mapM g := by
  induction l with
  | nil => rfl
  | cons a l ih => rw [List.mapM_cons, List.mapM_cons, h a (by simp), ih fun x hx => h x (by simp [hx])]

theorem read [Inhabited P] (tbl : ℕ → Thing P S) (r : Roster P S) (is : List ℕ) (c : List (List Bool)) (hobj : r.objs = some is)
    (hne : is ≠ []) (hc : r.checks = some c)
    (hm : ∀ k i, is[k]? = some i → c[k]? = some (mask tbl r is k i)) (hf : ∀ i ∈ is, Filled tbl r.held i) :
    ∃ as ss, allAtoms r = .ok as ∧ allSpecies r = .ok ss ∧ as.length = ss.length ∧
      as.zip ss = contents (is.map (body tbl r.prio)) := by
  have hmap : (is.map (sceneObj tbl r.held r.prio)).map Scene.toObj = is.map (obj tbl r.held r.prio) := by
    rw [List.map_map]; exact List.map_congr_left fun i _ => toObj_sceneObj tbl r.held r.prio i
  let s := is.map (sceneObj tbl r.held r.prio)
  let sc : Scene P S := { objects := some s, checks := some (Scene.masks s), bounds := (default, default) }
  have hcur : ∀ o ∈ s, ∃ as ss, o.cur = some (as, ss) ∧ as.length = ss.length := by
    intro o ho
    obtain ⟨i, hi, rfl⟩ := List.mem_map.mp ho
    obtain ⟨a, b, _, hl, hh⟩ := hf i hi
    exact ⟨a, b, by simp [sceneObj, hh], hl⟩
  obtain ⟨as, ss, h1, h2, h3, h4⟩ := Scene.gather_contents sc s rfl rfl hcur
  have key : ∀ {γ : Type} (f : List P × List S → List γ) (g : Held P S → Py (Option (List γ)))
      (_ : ∀ a b, g (.arrays a b) = .ok (some (f (a, b)))), gather g r = Scene.gather f sc := by
    intro γ f g hg
    unfold gather Scene.gather
    rw [hobj]
    have e : (is.zipIdx.mapM fun x => masked r.checks (g (r.held x.1)) x.2) =
        s.zipIdx.mapM fun x => Scene.maskedOf f sc.checks x.1 x.2 := by
      have : s.zipIdx = is.zipIdx.map (fun x => (sceneObj tbl r.held r.prio x.1, x.2)) := by
        simp [s, List.zipIdx_map, Prod.map_def]
      rw [this, List.mapM_map]
      apply mapM_same
      rintro ⟨i, k⟩ hx
      have hk : is[k]? = some i := by simpa using List.mem_zipIdx_iff_getElem?.mp hx
      have hi := List.mem_of_getElem? hk
      obtain ⟨a, b, _, hl, hh⟩ := hf i hi
      have hmk : (Scene.masks s)[k]? = some (mask tbl r is k i) := by
        have hkl : k < is.length := by
          by_contra hcon
          rw [List.getElem?_eq_none (by omega)] at hk; cases hk
        have hki : is[k] = i := by rw [List.getElem?_eq_getElem hkl] at hk; exact Option.some.inj hk
        unfold Scene.masks
        rw [hmap]
        simp [hkl, hki, mask, obj]
      simp only [masked, Function.comp, hh, hg, hc, bind, Except.bind, pyGet, hm k i hk, Scene.maskedOf, sc, hmk, sceneObj]
    simp only [e]
    have hlen : ∀ parts, s.zipIdx.mapM (fun x => Scene.maskedOf f sc.checks x.1 x.2) = .ok parts → parts ≠ [] := by
      intro parts hp hnil
      subst hnil
      cases hs : s with
      | nil => exact hne (by simpa [s] using hs)
      | cons y ys =>
        rw [hs, List.zipIdx_cons, List.mapM_cons] at hp
        cases e1 : Scene.maskedOf f sc.checks (y, 0).1 (y, 0).2 with
        | error x => simp [e1, bind, Except.bind] at hp
        | ok v =>
          cases e2 : (ys.zipIdx (0 + 1)).mapM fun x => Scene.maskedOf f sc.checks x.1 x.2 with
          | error x => simp [e1, e2, bind, Except.bind] at hp
          | ok w => simp [e1, e2, bind, Except.bind, pure, Except.pure] at hp
    show _ = (s.zipIdx.mapM fun x => Scene.maskedOf f sc.checks x.1 x.2) >>= _
    cases hp : s.zipIdx.mapM fun x => Scene.maskedOf f sc.checks x.1 x.2 with
    | error x => rfl
    | ok parts => simp only [bind, Except.bind]; rw [if_neg (hlen parts hp)]
  refine ⟨as, ss, (key Prod.fst Held.atoms fun _ _ => rfl).trans h1, (key Prod.snd Held.species fun _ _ => rfl).trans h2, h3, ?_⟩
  rw [h4, List.map_map]
  congr 1
  apply List.map_congr_left
  intro i hi
  obtain ⟨a, b, hs, hl, hh⟩ := hf i hi
  simp [Function.comp, Scene.bodyOf, Scene.toObj, sceneObj, hh, body, hs]

/-! ### populate() -/

theorem touchAll_ok (tbl : ℕ → Thing P S) : ∀ (is : List ℕ) (held : ℕ → Held P S), (∀ i ∈ is, Good (tbl i)) →
    ∃ h, touchAll tbl is held = (h, .ok ()) ∧ (∀ i ∈ is, Filled tbl h i) ∧ (∀ i, i ∉ is → h i = held i) ∧
      ∀ i, Filled tbl held i → Filled tbl h i
  | [], held, _ => ⟨held, rfl, by simp, fun _ _ => rfl, fun _ h => h⟩
  | j :: js, held, hg => by
    obtain ⟨a, s, hs, hl⟩ := hg j (by simp)
    have e : touch tbl held j = (Function.update held j (.arrays a s), .ok ()) := by simp [touch, hs]
    obtain ⟨h, h1, h2, h3, h4⟩ := touchAll_ok tbl js (Function.update held j (.arrays a s)) fun i hi => hg i (by simp [hi])
    have hj : Filled tbl h j := h4 j ⟨a, s, hs, hl, by simp⟩
    refine ⟨h, by simp [touchAll, e, h1], ?_, ?_, ?_⟩
    · intro i hi
      rcases List.mem_cons.mp hi with rfl | hi
      · exact hj
      · exact h2 i hi
    · intro i hi
      rw [List.mem_cons, not_or] at hi
      rw [h3 i hi.2, Function.update_of_ne hi.1]
    · intro i hi
      by_cases hij : i = j
      · subst hij; exact hj
      · obtain ⟨x, y, q1, q2, q3⟩ := hi
        exact h4 i ⟨x, y, q1, q2, by rw [Function.update_of_ne hij, q3]⟩

/-- State after a successful `populate()`. -/
theorem populate_state (tbl : ℕ → Thing P S) (r : Roster P S) (is : List ℕ) (hobj : r.objs = some is)
    (hg : ∀ i ∈ is, Good (tbl i)) :
    ∃ r', populate tbl r = (r', .ok ()) ∧ r'.objs = some (stableSort r.prio is) ∧ r'.prio = r.prio ∧
      (∀ i ∈ is, Filled tbl r'.held i) ∧
      ∃ c, r'.checks = some c ∧ c.length = is.length ∧
        ∀ k i, (stableSort r.prio is)[k]? = some i → c[k]? = some (mask tbl r' (stableSort r.prio is) k i) := by
  obtain ⟨h, h1, h2, h3, h4⟩ := touchAll_ok tbl is r.held hg
  set s := stableSort r.prio is with hs
  have hsort : ((s.map (obj tbl h r.prio)).map (·.priority)).Pairwise (· ≤ ·) := by
    rw [List.map_map]
    have e : ((fun o : Obj P S => o.priority) ∘ obj tbl h r.prio) = r.prio := rfl
    rw [e, List.pairwise_map]
    exact stableSort_sorted r.prio is
  have hck := Precedence.checks_spec _ hsort
  generalize hc : (s.map (obj tbl h r.prio)).zipIdx.map
    (fun x => x.1.atoms.map (Precedence.keepAt (s.map (obj tbl h r.prio)) x.2 x.1.priority)) = c at hck
  refine ⟨{ r with objs := some s, checks := some c, held := h }, ?_, rfl, rfl, h2, c, rfl, ?_, ?_⟩
  · unfold populate
    rw [hobj]
    simp only [h1]
    rw [← hs, hck]
  · simp [← hc, hs]
  · intro k i hk
    rw [← hc]
    have hkl : k < s.length := by
      by_contra hcon
      rw [List.getElem?_eq_none (by omega)] at hk; cases hk
    have hki : s[k] = i := by rw [List.getElem?_eq_getElem hkl] at hk; exact Option.some.inj hk
    simp [hkl, hki, mask, obj]

/-- **C132.** Whatever was added, removed, cleared, reprioritised, populated (successfully or not) and populated one by one before:
after `populate()` the scene holds what the objects now in it stand for at their present priorities, as in a scene made anew. -/
theorem C132_as_if_new [Inhabited P] (tbl : ℕ → Thing P S) (held : ℕ → Held P S) (prio : ℕ → ℤ) (ops : List Op)
    (hne : present ops ≠ []) (hg : ∀ i ∈ present ops, Good (tbl i)) :
    ∃ r as ss, step tbl (run tbl (fresh held prio) ops) .populate = (r, .ok ()) ∧ allAtoms r = .ok as ∧ allSpecies r = .ok ss ∧
      aseAtoms r = .ok (ss, as) ∧ as.length = ss.length ∧
      (as.zip ss).Perm (contents ((present ops).map (body tbl (assigned prio ops)))) := by
  obtain ⟨h1, h2, h3⟩ := run_objs tbl held prio ops
  set r := run tbl (fresh held prio) ops
  cases hq : r.objs with
  | none =>
    rw [hq] at h2
    exact absurd (by simpa using h2.symm) hne
  | some is =>
    rw [hq, Option.getD_some] at h2
    obtain ⟨r', e1, e2, e3, e4, c, e5, e6, e7⟩ := populate_state tbl r is hq fun i hi => hg i (h2.mem_iff.mp hi)
    have hne' : stableSort r.prio is ≠ [] := by
      intro hc
      have hl := (stableSort_perm r.prio is).length_eq
      rw [hc, h2.length_eq] at hl
      exact hne (List.eq_nil_of_length_eq_zero (by simpa using hl.symm))
    obtain ⟨as, ss, f1, f2, f3, f4⟩ := read tbl r' _ c e2 hne' e5 e7 fun i hi => e4 i (by simpa using hi)
    refine ⟨r', as, ss, e1, f1, f2, by simp [aseAtoms, f1, f2, f3, bind, Except.bind], f3, ?_⟩
    rw [f4, e3, h3]
    exact contents_perm (((stableSort_perm _ is).trans h2).map _)

/-- Four objects on a line: 0 (sites 0, 1, 2) and 1 (sites 2, 3) overlap in 2, 2 is a MultiVolume far away, 3 cannot be populated. -/
def exTbl : ℕ → Thing ℤ ℕ
  | 0 => ⟨.ok ([0, 1, 2], [6, 7, 8]), fun p => decide (0 ≤ p ∧ p ≤ 2)⟩
  | 1 => ⟨.ok ([2, 3, 4], [9, 10, 11]), fun p => decide (2 ≤ p ∧ p ≤ 4)⟩
  | 2 => ⟨.ok ([20], [12]), fun p => decide (p = 20)⟩
  | _ => ⟨.error .value, fun _ => false⟩

def exHeld : ℕ → Held ℤ ℕ
  | 2 => .freshMulti
  | _ => .freshVolume

/-- Added, failed to populate, removed the culprit, changed a priority. -/
def exOps : List Op := [.add 0, .add 3, .add 1, .populate, .remove 3, .populate, .add 2, .prio 0 1]

example : present exOps = [0, 1, 2] ∧ ∀ i ∈ present exOps, Good (exTbl i) := by
  refine ⟨by decide, ?_⟩
  intro i hi
  have : i = 0 ∨ i = 1 ∨ i = 2 := by
    have e : present exOps = [0, 1, 2] := by decide
    simpa [e] using hi
  rcases this with rfl | rfl | rfl
  · exact ⟨_, _, rfl, rfl⟩
  · exact ⟨_, _, rfl, rfl⟩
  · exact ⟨_, _, rfl, rfl⟩

/-- The change of priority counts: 2 now belongs to object 1 alone. -/
example : allAtoms (run exTbl (fresh exHeld fun _ => 0) (exOps ++ [.populate])) = .ok [2, 3, 4, 20, 0, 1] := by decide +kernel

/-- **C132, exceptions of populate().** The first object of the list that cannot be populated decides the exception.  The list and the
masks stay as they were; the objects before it hold new arrays, all others what they held. -/
theorem C132_raises (tbl : ℕ → Thing P S) (r : Roster P S) (pre post : List ℕ) (i : ℕ) (e : PyErr)
    (ho : r.objs = some (pre ++ i :: post)) (hpre : ∀ j ∈ pre, Good (tbl j)) (hi : (tbl i).supply = .error e) :
    ∃ r', step tbl r .populate = (r', .error e) ∧ r'.objs = r.objs ∧ r'.checks = r.checks ∧ r'.prio = r.prio ∧
      (∀ j ∈ pre, ∀ a s, (tbl j).supply = .ok (a, s) → r'.held j = .arrays a s) ∧ ∀ j, j ∉ pre → r'.held j = r.held j := by
  obtain ⟨h, h1, h2, h3, -⟩ := touchAll_ok tbl pre r.held hpre
  have e1 : touchAll tbl (pre ++ i :: post) r.held = (h, .error e) := by
    have app : ∀ (xs ys : List ℕ) (f g : ℕ → Held P S), touchAll tbl xs f = (g, .ok ()) →
        touchAll tbl (xs ++ ys) f = touchAll tbl ys g := by
      intro xs
      induction xs with
      | nil => intro ys f g hg; simp [touchAll] at hg; simp [hg]
      | cons x xs ih =>
        intro ys f g hg
        rw [touchAll] at hg
        rw [List.cons_append, touchAll]
        rcases hx : touch tbl f x with ⟨f', _ | u⟩
        · rw [hx] at hg; simp at hg
        · rw [hx] at hg; exact ih ys f' g hg
    rw [app pre (i :: post) r.held h h1, touchAll]
    simp [touch, hi]
  refine ⟨{ r with held := h }, by simp [step, populate, ho, e1], rfl, rfl, rfl, ?_, h3⟩
  intro j hj a s hs
  obtain ⟨a', s', q1, -, q3⟩ := h2 j hj
  rw [hs] at q1
  cases q1
  exact q3

example : (run exTbl (fresh exHeld fun _ => 0) [.add 0, .add 3, .add 1]).objs = some ([0] ++ 3 :: [1]) ∧ Good (exTbl 0) ∧
    (exTbl 3).supply = .error .value := ⟨rfl, ⟨_, _, rfl, rfl⟩, rfl⟩

/-! ### Scenes without objects, scenes never populated -/

theorem gather_none {γ : Type} (f : Held P S → Py (Option (List γ))) (r : Roster P S) (h : r.objs = none) :
    gather f r = .error .type := by simp [gather, h]

theorem gather_nil {γ : Type} (f : Held P S → Py (Option (List γ))) (r : Roster P S) (h : r.objs = some []) :
    gather f r = .error .value := by simp [gather, h, bind, Except.bind, pure, Except.pure]

/-- **C132.** A scene to which nothing was ever added cannot be read nor populated (TypeError); one that was emptied can be populated, but
reading it is ValueError. -/
theorem C132_empty (tbl : ℕ → Thing P S) (held : ℕ → Held P S) (prio : ℕ → ℤ) (ops : List Op) (he : present ops = []) (r : Roster P S)
    (hr : r = run tbl (fresh held prio) ops) :
    ((∀ i, Op.add i ∉ ops) → (step tbl r .populate).2 = .error .type ∧ allAtoms r = .error .type ∧ allSpecies r = .error .type ∧
      aseAtoms r = .error .type ∧ ∀ k, fromObject r k = .error .type) ∧
    ((∃ i, Op.add i ∈ ops) → (step tbl r .populate).2 = .ok () ∧ allAtoms r = .error .value ∧ allSpecies r = .error .value ∧
      aseAtoms r = .error .value ∧ (∀ k, fromObject r k = .error .index) ∧
      allAtoms (step tbl r .populate).1 = .error .value ∧ allSpecies (step tbl r .populate).1 = .error .value) := by
  obtain ⟨h1, h2, h3⟩ := run_objs tbl held prio ops
  rw [← hr] at h1 h2
  constructor
  · intro hno
    have ho := h1.mpr hno
    have hs := gather_none Held.species r ho
    exact ⟨by simp [step, populate, ho], gather_none _ r ho, hs, by simp [aseAtoms, allSpecies, hs, bind, Except.bind],
      fun k => by simp [fromObject, ho]⟩
  · rintro ⟨i, hi⟩
    cases ho : r.objs with
    | none => exact absurd hi (h1.mp ho i)
    | some is =>
      rw [ho, he, Option.getD_some] at h2
      have : is = [] := by simpa using h2
      subst this
      have hs := gather_nil Held.species r ho
      have hp : (step tbl r .populate).1.objs = some [] ∧ (step tbl r .populate).2 = .ok () := by
        have hc : Precedence.checks ([] : List (Obj P S)) = .ok [] := Precedence.checks_spec [] (by simp)
        simp [step, populate, ho, touchAll, stableSort, hc]
      exact ⟨hp.2, gather_nil _ r ho, hs, by simp [aseAtoms, allSpecies, hs, bind, Except.bind],
        fun k => by simp [fromObject, ho, pyGet, bind, Except.bind], gather_nil _ _ hp.1, gather_nil _ _ hp.1⟩

example : present [.add 4, .populate, .remove 4] = [] ∧ (∃ i, Op.add i ∈ [Op.add 4, .populate, .remove 4]) := by
  exact ⟨by decide, 4, by simp⟩

theorem mapM_error {α β : Type} (f : α → Py β) (a : α) (l : List α) (e : PyErr) (h : f a = .error e) :
    (a :: l).mapM f = .error e := by
  rw [List.mapM_cons, h]; rfl

theorem run_unpopulated (tbl : ℕ → Thing P S) (held : ℕ → Held P S) (prio : ℕ → ℤ) (ops : List Op) (hn : Op.populate ∉ ops) :
    (run tbl (fresh held prio) ops).objs.getD [] = present ops ∧ (run tbl (fresh held prio) ops).checks = none := by
  induction ops using List.reverseRecOn with
  | nil => exact ⟨rfl, rfl⟩
  | append_singleton ops o ih =>
    rw [List.mem_append, not_or] at hn
    obtain ⟨h2, h3⟩ := ih hn.1
    rw [run_append]
    set r := run tbl (fresh held prio) ops with hr
    have e : run tbl r [o] = (step tbl r o).1 := rfl
    rw [e]
    have p1 : present (ops ++ [o]) = (fun l o => match o with
      | .add i => l ++ [i]
      | .remove i => l.erase i
      | .clear => []
      | _ => l) (present ops) o := by
      unfold present; rw [List.foldl_append]; rfl
    rw [p1]
    cases o with
    | add i => exact ⟨by simpa [step] using h2, by simpa [step] using h3⟩
    | remove i =>
      cases hq : r.objs with
      | none =>
        rw [hq] at h2
        exact ⟨by simp [step, hq, ← h2], by simpa [step, hq] using h3⟩
      | some is =>
        rw [hq, Option.getD_some] at h2
        by_cases hm : i ∈ is
        · exact ⟨by simp [step, hq, hm, ← h2], by simpa [step, hq, hm] using h3⟩
        · exact ⟨by simp [step, hq, hm, ← h2, List.erase_of_not_mem hm], by simpa [step, hq, hm] using h3⟩
    | clear =>
      cases hq : r.objs with
      | none => exact ⟨by simp [step, hq], by simpa [step, hq] using h3⟩
      | some is => exact ⟨by simp [step, hq], by simpa [step, hq] using h3⟩
    | prio i z => exact ⟨by simpa [step] using h2, by simpa [step] using h3⟩
    | own i => exact ⟨by simpa [step] using h2, by simpa [step] using h3⟩
    | populate => exact absurd (by simp) hn.2

/-- The exception of reading `ob.atoms[...]` or `ob.species[...]` of an object for which the scene has no mask: that of the attribute if
it does not exist, otherwise the given one. -/
def missing {γ : Type} (attr : Py γ) (e : PyErr) : PyErr :=
  match attr with
  | .error x => x
  | .ok _ => e

/-- **C132.** A scene that was never populated cannot be read, whatever its objects hold: the exception is AttributeError when the first
object lacks the attribute (an unpopulated MultiVolume; for species also an unpopulated Volume), otherwise TypeError. -/
theorem C132_unpopulated (tbl : ℕ → Thing P S) (held : ℕ → Held P S) (prio : ℕ → ℤ) (ops : List Op) (hn : Op.populate ∉ ops)
    (i : ℕ) (is : List ℕ) (hp : present ops = i :: is) (r : Roster P S) (hr : r = run tbl (fresh held prio) ops) :
    allAtoms r = .error (missing (r.held i).atoms .type) ∧ allSpecies r = .error (missing (r.held i).species .type) ∧
      aseAtoms r = .error (missing (r.held i).species .type) ∧
      ∀ k j, (present ops)[k]? = some j → fromObject r k = .error (missing (r.held j).atoms .type) := by
  obtain ⟨h2, h3⟩ := run_unpopulated tbl held prio ops hn
  rw [← hr] at h2 h3
  have ho : r.objs = some (present ops) := by
    cases hq : r.objs with
    | none => rw [hq, hp] at h2; simp at h2
    | some js => rw [hq] at h2; simpa using h2
  have hm : ∀ {γ : Type} (x : Py (Option (List γ))) (k : ℕ), masked r.checks x k = .error (missing x .type) := by
    intro γ x k
    cases x <;> simp [masked, h3, missing, bind, Except.bind]
  have hg : ∀ {γ : Type} (f : Held P S → Py (Option (List γ))), gather f r = .error (missing (f (r.held i)) .type) := by
    intro γ f
    unfold gather
    rw [ho, hp]
    simp only
    rw [List.zipIdx_cons, mapM_error (fun x : ℕ × ℕ => masked r.checks (f (r.held x.1)) x.2) (i, 0) _ _ (hm (f (r.held i)) 0)]
    rfl
  refine ⟨hg _, hg _, ?_, ?_⟩
  · have := hg Held.species
    simp [aseAtoms, allSpecies, this, bind, Except.bind]
  · intro k j hk
    simp [fromObject, ho, pyGet, hk, bind, Except.bind, hm]

/-- The arrays of the objects may be there: `own 2` populates the MultiVolume by itself. -/
example : Op.populate ∉ [Op.add 2, .add 0, .own 2] ∧ present [.add 2, .add 0, .own 2] = [2, 0] :=
  ⟨by simp, by decide⟩

example : allAtoms (run exTbl (fresh exHeld fun _ => 0) [.add 2, .add 0]) = .error .attribute ∧
    allAtoms (run exTbl (fresh exHeld fun _ => 0) [.add 2, .add 0, .own 2]) = .error .type ∧
    allSpecies (run exTbl (fresh exHeld fun _ => 0) [.add 0, .add 2]) = .error .attribute := by decide +kernel

/-- **C132, objects by themselves.** Before the first `populate_atoms()` a Volume answers None for `atoms`, a MultiVolume AttributeError,
and `species`, `ase_atoms` and `to_file` are AttributeError for both; afterwards all of them give the supplied arrays. -/
theorem C132_object (tbl : ℕ → Thing P S) (held : ℕ → Held P S) (i : ℕ) :
    (held i = .freshVolume → (held i).atoms = .ok none ∧ (held i).species = .error .attribute ∧ (held i).aseAtoms = .error .attribute) ∧
    (held i = .freshMulti → (held i).atoms = .error .attribute ∧ (held i).species = .error .attribute ∧
      (held i).aseAtoms = .error .attribute) ∧
    (∀ a s, (tbl i).supply = .ok (a, s) → ((touch tbl held i).1 i).atoms = .ok (some a) ∧
      ((touch tbl held i).1 i).species = .ok (some s) ∧ ((touch tbl held i).1 i).aseAtoms = .ok (some s, some a)) ∧
    (∀ e, (tbl i).supply = .error e → touch tbl held i = (held, .error e)) := by
  refine ⟨fun h => by simp [h, Held.atoms, Held.species, Held.aseAtoms, bind, Except.bind],
    fun h => by simp [h, Held.atoms, Held.species, Held.aseAtoms, bind, Except.bind],
    fun a s h => by simp [touch, h, Held.atoms, Held.species, Held.aseAtoms, bind, Except.bind, pure, Except.pure],
    fun e h => by simp [touch, h]⟩

example : exHeld 0 = .freshVolume ∧ exHeld 2 = .freshMulti ∧ (∃ a s, (exTbl 1).supply = .ok (a, s)) ∧
    (∃ e, (exTbl 3).supply = .error e) := ⟨rfl, rfl, ⟨_, _, rfl⟩, ⟨_, rfl⟩⟩

/-! ### Objects added after populate() -/

/-- The objects a list of calls adds. -/
def addedBy (ops : List Op) : List ℕ := ops.filterMap fun o => match o with
  | .add i => some i
  | _ => none

/-- Calls that take nothing out of the list and do not populate the scene. -/
def Quiet : Op → Prop
  | .add _ => True
  | .own _ => True
  | .prio _ _ => True
  | _ => False

theorem quiet_run (tbl : ℕ → Thing P S) (is : List ℕ) : ∀ (later : List Op) (r : Roster P S) (js : List ℕ),
    (∀ o ∈ later, Quiet o) → r.objs = some (is ++ js) → (∀ i ∈ is, Filled tbl r.held i) →
    (run tbl r later).objs = some (is ++ (js ++ addedBy later)) ∧ (run tbl r later).checks = r.checks ∧
      ∀ i ∈ is, Filled tbl (run tbl r later).held i ∧ (run tbl r later).held i = r.held i
  | [], r, js, _, ho, hf => ⟨by simpa [run, addedBy] using ho, rfl, fun i hi => ⟨hf i hi, rfl⟩⟩
  | o :: later, r, js, hq, ho, hf => by
    rw [run_cons]
    have hq' : ∀ o ∈ later, Quiet o := fun x hx => hq x (by simp [hx])
    have h0 := hq o (by simp)
    cases o with
    | add i =>
      obtain ⟨q1, q2, q3⟩ := quiet_run tbl is later (step tbl r (.add i)).1 (js ++ [i]) hq' (by simp [step, ho]) hf
      exact ⟨by simpa [addedBy] using q1, q2, q3⟩
    | prio i z =>
      obtain ⟨q1, q2, q3⟩ := quiet_run tbl is later (step tbl r (.prio i z)).1 js hq' (by simp [step, ho]) hf
      exact ⟨by simpa [addedBy] using q1, q2, q3⟩
    | own i =>
      have keep : ∀ k ∈ is, (touch tbl r.held i).1 k = r.held k := by
        intro k hk
        unfold touch
        cases hs : (tbl i).supply with
        | error e => rfl
        | ok p =>
          by_cases hki : k = i
          · subst hki
            obtain ⟨a, s, e1, e2, e3⟩ := hf k hk
            rw [e1] at hs
            cases hs
            simp [e3]
          · simp [hki]
      obtain ⟨q1, q2, q3⟩ := quiet_run tbl is later (step tbl r (.own i)).1 js hq' (by simp [step, ho]) (by
        intro k hk
        obtain ⟨a, s, e1, e2, e3⟩ := hf k hk
        exact ⟨a, s, e1, e2, by rw [← e3]; exact keep k hk⟩)
      exact ⟨by simpa [addedBy] using q1, q2, fun k hk => ⟨(q3 k hk).1, (q3 k hk).2.trans (keep k hk)⟩⟩
    | remove i => exact h0.elim
    | clear => exact h0.elim
    | populate => exact h0.elim

theorem mapM_append_error {α β : Type} (f : α → Py β) (l : List α) (a : α) (l' : List α) (e : PyErr)
    (h : ∀ x ∈ l, ∃ y, f x = .ok y) (ha : f a = .error e) : (l ++ a :: l').mapM f = .error e := by
  induction l with
  | nil => exact mapM_error f a l' e ha
  | cons b l ih =>
    obtain ⟨y, hy⟩ := h b (by simp)
    rw [List.cons_append, List.mapM_cons, hy, ih fun x hx => h x (by simp [hx])]
    rfl

/-- **C132.** After a successful `populate()`, populating objects by themselves and assigning priorities changes nothing that is read,
and as soon as an object is added, reading raises: AttributeError if the first added object lacks the attribute, otherwise IndexError. -/
theorem C132_added (tbl : ℕ → Thing P S) (held : ℕ → Held P S) (prio : ℕ → ℤ) (ops later : List Op)
    (hg : ∀ i ∈ present ops, Good (tbl i)) (hq : ∀ o ∈ later, Quiet o) (r₁ r₂ : Roster P S)
    (h₁ : r₁ = run tbl (fresh held prio) (ops ++ [.populate])) (h₂ : r₂ = run tbl r₁ later) :
    (addedBy later = [] → allAtoms r₂ = allAtoms r₁ ∧ allSpecies r₂ = allSpecies r₁) ∧
    (∀ i js, addedBy later = i :: js → (∃ k, Op.add k ∈ ops) →
      allAtoms r₂ = .error (missing (r₂.held i).atoms .index) ∧ allSpecies r₂ = .error (missing (r₂.held i).species .index) ∧
      aseAtoms r₂ = .error (missing (r₂.held i).species .index)) := by
  obtain ⟨o1, o2, o3⟩ := run_objs tbl held prio ops
  rw [run_append] at h₁
  set r := run tbl (fresh held prio) ops with hr
  have e : run tbl r [.populate] = (populate tbl r).1 := rfl
  rw [e] at h₁
  cases ho : r.objs with
  | none =>
    have hr1 : r₁ = r := by rw [h₁]; simp [populate, ho]
    constructor
    · intro hnil
      have : ∀ (l : List Op) (x : Roster P S), (∀ o ∈ l, Quiet o) → addedBy l = [] → x.objs = none → (run tbl x l).objs = none := by
        intro l
        induction l with
        | nil => intro x _ _ h; exact h
        | cons o l ih =>
          intro x hql ha hx
          rw [run_cons]
          have h0 := hql o (by simp)
          have hql' : ∀ o ∈ l, Quiet o := fun y hy => hql y (by simp [hy])
          cases o with
          | add i => simp [addedBy] at ha
          | prio i z => exact ih _ hql' (by simpa [addedBy] using ha) (by simpa [step] using hx)
          | own i => exact ih _ hql' (by simpa [addedBy] using ha) (by simpa [step] using hx)
          | remove i => exact h0.elim
          | clear => exact h0.elim
          | populate => exact h0.elim
      have q1 : r₁.objs = none := by rw [hr1]; exact ho
      have q2 : r₂.objs = none := by rw [h₂]; exact this later r₁ hq hnil q1
      exact ⟨by rw [allAtoms, allAtoms, gather_none _ _ q1, gather_none _ _ q2],
        by rw [allSpecies, allSpecies, gather_none _ _ q1, gather_none _ _ q2]⟩
    · rintro i js _ ⟨k, hk⟩
      exact absurd hk (o1.mp ho k)
  | some is =>
    rw [ho, Option.getD_some] at o2
    obtain ⟨r', e1, e2, e3, e4, c, e5, e6, e7⟩ := populate_state tbl r is ho fun i hi => hg i (o2.mem_iff.mp hi)
    have hr1 : r₁ = r' := by rw [h₁, e1]
    subst hr1
    set s := stableSort r.prio is with hs
    have hfs : ∀ i ∈ s, Filled tbl r₁.held i := fun i hi => e4 i (by simpa [hs] using hi)
    obtain ⟨q1, q2, q3⟩ := quiet_run tbl s later r₁ [] hq (by simpa using e2) hfs
    rw [← h₂] at q1 q2 q3
    rw [List.nil_append] at q1
    have same : ∀ {γ : Type} (f : Held P S → Py (Option (List γ))), ∀ x ∈ s.zipIdx,
        masked r₂.checks (f (r₂.held x.1)) x.2 = masked r₁.checks (f (r₁.held x.1)) x.2 := by
      rintro γ f ⟨i, k⟩ hx
      have hk : s[k]? = some i := by simpa using List.mem_zipIdx_iff_getElem?.mp hx
      rw [q2, (q3 i (List.mem_of_getElem? hk)).2]
    constructor
    · intro hnil
      rw [hnil, List.append_nil] at q1
      have : ∀ {γ : Type} (f : Held P S → Py (Option (List γ))), gather f r₂ = gather f r₁ := by
        intro γ f
        unfold gather
        rw [q1, e2]
        simp only
        rw [mapM_same _ _ _ (same f)]
      exact ⟨this _, this _⟩
    · rintro i js hadd -
      rw [hadd] at q1
      have hl : s.length = c.length := by rw [e6, hs]; simp
      have main : ∀ {γ : Type} (f : Held P S → Py (Option (List γ)))
          (_ : ∀ j a b, (tbl j).supply = .ok (a, b) → a.length = b.length → ∃ v : List γ, f (.arrays a b) = .ok (some v) ∧ v.length = a.length),
          gather f r₂ = .error (missing (f (r₂.held i)) .index) := by
        intro γ f hf
        unfold gather
        rw [q1]
        simp only
        rw [List.zipIdx_append, List.zipIdx_cons, mapM_append_error (e := missing (f (r₂.held i)) .index)]
        · rfl
        · rintro ⟨j, k⟩ hx
          rw [same f _ hx]
          have hk : s[k]? = some j := by simpa using List.mem_zipIdx_iff_getElem?.mp hx
          obtain ⟨a, b, w1, w2, w3⟩ := hfs j (List.mem_of_getElem? hk)
          obtain ⟨v, hv, hvl⟩ := hf j a b w1 w2
          have hmk := e7 k j hk
          have hml : (mask tbl r₁ s k j).length = v.length := by simp [mask, obj, w3, hvl]
          refine ⟨maskSel (mask tbl r₁ s k j) v, ?_⟩
          simp only [masked, w3, hv, e5, bind, Except.bind, pyGet, hmk]
          rw [npMask, if_pos hml]
        · have hnone : c[0 + s.length]? = none := by rw [List.getElem?_eq_none]; omega
          cases hfi : f (r₂.held i) with
          | error x => simp [masked, missing, bind, Except.bind]
          | ok v =>
            simp only [masked, missing, bind, Except.bind, q2, e5, pyGet, hnone]
      refine ⟨main _ fun j a b _ _ => ⟨a, rfl, rfl⟩, main _ fun j a b _ hl => ⟨b, rfl, hl.symm⟩, ?_⟩
      have := main Held.species fun j a b _ hl => ⟨b, rfl, hl.symm⟩
      simp [aseAtoms, allSpecies, this, bind, Except.bind]

example : (∀ o ∈ [Op.own 1, .add 2, .add 1], Quiet o) ∧ addedBy [.own 1, .add 2, .add 1] = [2, 1] := by
  refine ⟨?_, by decide⟩
  intro o ho
  simp only [List.mem_cons, List.not_mem_nil, or_false] at ho
  rcases ho with rfl | rfl | rfl <;> trivial

/-! ### Objects removed after populate() -/

/-- **C132, partial.** Removing the object with the largest priority number right after `populate()` leaves the scene readable, with
exactly the contents of the remaining objects. -/
theorem C132_removed_partial [Inhabited P] (tbl : ℕ → Thing P S) (held : ℕ → Held P S) (prio : ℕ → ℤ) (ops : List Op) (j : ℕ)
    (hj : j ∈ present ops) (hlt : ∀ i ∈ (present ops).erase j, assigned prio ops i < assigned prio ops j)
    (hne : (present ops).erase j ≠ []) (hg : ∀ i ∈ present ops, Good (tbl i)) :
    ∃ r as ss, step tbl (run tbl (fresh held prio) (ops ++ [.populate])) (.remove j) = (r, .ok ()) ∧
      allAtoms r = .ok as ∧ allSpecies r = .ok ss ∧ as.length = ss.length ∧
      (as.zip ss).Perm (contents (((present ops).erase j).map (body tbl (assigned prio ops)))) := by
  obtain ⟨o1, o2, o3⟩ := run_objs tbl held prio ops
  rw [run_append]
  set r := run tbl (fresh held prio) ops with hr
  have e : run tbl r [.populate] = (populate tbl r).1 := rfl
  rw [e]
  cases ho : r.objs with
  | none =>
    rw [ho] at o2
    have : present ops = [] := by simpa using o2.symm
    rw [this] at hj; simp at hj
  | some is =>
    rw [ho, Option.getD_some] at o2
    obtain ⟨r', e1, e2, e3, e4, c, e5, e6, e7⟩ := populate_state tbl r is ho fun i hi => hg i (o2.mem_iff.mp hi)
    rw [e1]
    set s := stableSort r.prio is with hs
    have hsp : s.Perm (present ops) := (stableSort_perm _ is).trans o2
    have hjs : j ∈ s := hsp.mem_iff.mpr hj
    have hpe : (s.erase j).Perm ((present ops).erase j) := hsp.erase j
    rw [← o3] at hlt
    have hlt' : ∀ i ∈ s.erase j, r.prio i < r.prio j := fun i hi => hlt i (hpe.mem_iff.mp hi)
    -- j is last
    obtain ⟨pre, post, hsplit⟩ := List.append_of_mem hjs
    have hpre : j ∉ pre := by
      intro hc
      have : j ∈ s.erase j := by
        rw [hsplit, List.erase_append_left _ hc]; simp
      exact lt_irrefl _ (hlt' j this)
    have hse : s.erase j = pre ++ post := by
      rw [hsplit, List.erase_append_right _ hpre, List.erase_cons_head]
    have hpost : post = [] := by
      cases hpo : post with
      | nil => rfl
      | cons b bs =>
        exfalso
        have hb : r.prio b < r.prio j := hlt' b (by rw [hse, hpo]; simp)
        have hsorted := stableSort_sorted r.prio is
        rw [← hs, hsplit, hpo, List.pairwise_append] at hsorted
        have := (List.pairwise_cons.mp hsorted.2.1).1 b (by simp)
        omega
    rw [hpost, List.append_nil] at hse
    rw [hpost] at hsplit
    let r₂ : Roster P S := { r' with objs := some pre }
    have hstep : step tbl r' (.remove j) = (r₂, .ok ()) := by
      simp [step, e2, hjs, hse, r₂]
    have hpne : pre ≠ [] := by
      rw [← hse]; intro hc
      rw [hc] at hpe
      exact hne (by simpa using hpe.symm)
    obtain ⟨as, ss, f1, f2, f3, f4⟩ := read tbl r₂ pre c rfl hpne e5 (by
      intro k i hk
      have hkl : k < pre.length := by
        by_contra hcon
        rw [List.getElem?_eq_none (by omega)] at hk; cases hk
      have hk' : s[k]? = some i := by rw [hsplit, List.getElem?_append_left hkl]; exact hk
      rw [e7 k i hk']
      congr 1
      show List.map _ _ = List.map _ _
      apply List.map_congr_left
      intro p _
      have hi : r'.prio i < r'.prio j := by
        rw [e3]; exact hlt' i (by rw [hse]; exact List.mem_of_getElem? hk)
      show Precedence.keepAt (s.map (obj tbl r'.held r'.prio)) k (r'.prio i) p =
        Precedence.keepAt (pre.map (obj tbl r'.held r'.prio)) k (r'.prio i) p
      unfold Precedence.keepAt
      rw [hsplit, List.map_append, List.length_append, List.map_singleton, List.length_singleton, List.range_succ, List.all_append]
      have h1 : (List.range (pre.map (obj tbl r'.held r'.prio)).length).all (fun j_1 => j_1 == k ||
          !((((pre.map (obj tbl r'.held r'.prio)) ++ [obj tbl r'.held r'.prio j])[j_1]?.map
            (fun o => decide (o.priority ≤ r'.prio i) && o.interior p)).getD false)) =
          (List.range (pre.map (obj tbl r'.held r'.prio)).length).all (fun j_1 => j_1 == k ||
          !(((pre.map (obj tbl r'.held r'.prio))[j_1]?.map
            (fun o => decide (o.priority ≤ r'.prio i) && o.interior p)).getD false)) := by
        rw [Bool.eq_iff_iff, List.all_eq_true, List.all_eq_true]
        constructor <;> intro h x hx <;> have := h x hx <;> rw [List.mem_range] at hx
        · rwa [List.getElem?_append_left hx] at this
        · rwa [List.getElem?_append_left hx]
      rw [h1]
      have h2 : ¬ (obj tbl r'.held r'.prio j).priority ≤ r'.prio i := by
        show ¬ r'.prio j ≤ r'.prio i
        omega
      simp [h2]) (by
      intro i hi
      exact e4 i (by
        have : i ∈ s := by rw [hsplit]; simp [hi]
        simpa [hs] using this))
    refine ⟨r₂, as, ss, hstep, f1, f2, f3, ?_⟩
    rw [f4]
    show (contents (pre.map (body tbl r'.prio))).Perm _
    rw [e3, o3]
    exact contents_perm ((hse ▸ hpe).map _)

example : (1 : ℕ) ∈ present [.add 1, .add 0, .prio 1 3] ∧
    (∀ i ∈ (present [.add 1, .add 0, .prio 1 3]).erase 1, assigned (fun _ => 0) [.add 1, .add 0, .prio 1 3] i <
      assigned (fun _ => 0) [.add 1, .add 0, .prio 1 3] 1) ∧ (present [.add 1, .add 0, .prio 1 3]).erase 1 ≠ [] := by
  decide

/-- **C132, refuted for other objects.** Two overlapping objects of three sites each at one priority: after `populate()`
`scene.objects.remove(a)` makes the scene read the rows of the other object with the mask of the removed one.  The site 2, which nobody
else claims any more, is there, but 4, which was there before and which nobody else ever claimed, is gone, without any exception. -/
theorem C132_removed_refuted :
    ∃ (tbl : ℕ → Thing ℤ ℕ) (held : ℕ → Held ℤ ℕ) (prio : ℕ → ℤ) (r : Roster ℤ ℕ),
      step tbl (run tbl (fresh held prio) [.add 0, .add 1, .populate]) (.remove 0) = (r, .ok ()) ∧
      allAtoms r = .ok [2, 3] ∧ aseAtoms r = .ok ([9, 10], [2, 3]) ∧
      allAtoms (run tbl (fresh held prio) [.add 0, .add 1, .populate]) = .ok [0, 1, 3, 4] ∧
      allAtoms (step tbl r .populate).1 = .ok [2, 3, 4] := by
  refine ⟨exTbl, exHeld, fun _ => 0, _, rfl, ?_⟩
  decide +kernel

/-- **C132, classes of the exceptions in the model of C01-C11.** Reading a scene without objects, a scene without masks and a Volume without
arrays is TypeError; so is `to_file(format="prismatic", debye_waller_factors=...)`, which hands the keyword over twice. -/
theorem C132_type_errors {D : Type} (mkDwf : List S → D) (sc : Scene P S) :
    (sc.objects = none → Scene.allAtoms sc = .error .type ∧ Scene.allSpecies sc = .error .type ∧
      (∀ k, Scene.speciesFromObject sc k = .error .type) ∧ (Scene.populate sc).2 = .error .type ∧
      ∀ d, Scene.toFile mkDwf sc ⟨none, d⟩ = .error .type ∧ Scene.toFile mkDwf sc ⟨some "prismatic", d⟩ = .error .type) ∧
    (∀ o os, sc.objects = some (o :: os) → sc.checks = none → Scene.allAtoms sc = .error .type ∧ Scene.allSpecies sc = .error .type ∧
      Scene.speciesFromObject sc 0 = .error .type) ∧
    (∀ o os m ms, sc.objects = some (o :: os) → sc.checks = some (m :: ms) → o.cur = none → Scene.allAtoms sc = .error .type) ∧
    (∀ as ss d, Scene.allAtoms sc = .ok as → Scene.allSpecies sc = .ok ss →
      Scene.toFile mkDwf sc ⟨some "prismatic", some d⟩ = .error .type) := by
  refine ⟨?_, ?_, ?_, ?_⟩
  · intro h
    have h1 : Scene.allSpecies sc = .error .type := by simp [Scene.allSpecies, Scene.gather, h]
    exact ⟨by simp [Scene.allAtoms, Scene.gather, h], h1, fun k => by simp [Scene.speciesFromObject, h],
      by simp [Scene.populate, h], fun d => ⟨by simp [Scene.toFile, h1, bind, Except.bind], by simp [Scene.toFile, h1, bind, Except.bind]⟩⟩
  · intro o os ho hc
    have key : ∀ {γ : Type} (f : List P × List S → List γ), Scene.gather f sc = .error .type := by
      intro γ f
      unfold Scene.gather
      rw [ho]
      simp only
      rw [List.zipIdx_cons, mapM_error _ _ _ .type (by simp [Scene.maskedOf, hc])]
      rfl
    exact ⟨key _, key _, by simp [Scene.speciesFromObject, ho, pyGet, bind, Except.bind, Scene.maskedOf, hc]⟩
  · intro o os m ms ho hc hn
    unfold Scene.allAtoms Scene.gather
    rw [ho]
    simp only
    rw [List.zipIdx_cons, mapM_error _ _ _ .type (by simp [Scene.maskedOf, hc, pyGet, hn, bind, Except.bind])]
    rfl
  · intro as ss d h1 h2
    simp [Scene.toFile, h1, h2, bind, Except.bind]

example : (Scene.empty (0, 10) : Scene ℤ ℕ).objects = none ∧
    (∃ os, Scene.exScene.objects = some (Scene.exA :: os)) ∧ Scene.exScene.checks = none ∧
    Scene.allAtoms (Scene.populate Scene.exScene).1 = .ok [2, 3, 0, 5] := ⟨rfl, ⟨_, rfl⟩, rfl, by decide +kernel⟩

/-- **C132 (refused edits).** `remove` and `clear` on a scene that never had an object raise AttributeError (its list is None), `remove` of an
object that is not in the list ValueError; nothing changes. -/
theorem C132_refused (tbl : ℕ → Thing P S) (r : Roster P S) :
    (r.objs = none → (∀ i, step tbl r (.remove i) = (r, .error .attribute)) ∧ step tbl r .clear = (r, .error .attribute)) ∧
    ∀ is i, r.objs = some is → i ∉ is → step tbl r (.remove i) = (r, .error .value) := by
  refine ⟨fun h => ⟨fun i => ?_, ?_⟩, fun is i h hi => ?_⟩ <;> simp only [step, h]
  rw [if_neg hi]

/-- **C132 (stale masks).** A Volume that was never populated, put in the place of an object for which there is a mask: its `atoms` are None,
and reading the scene raises TypeError, AttributeError for the species and for `ase_atoms`. -/
theorem C132_stale (r : Roster P S) (i : ℕ) (is : List ℕ) (m : List Bool) (ms : List (List Bool)) (ho : r.objs = some (i :: is))
    (hc : r.checks = some (m :: ms)) (hi : r.held i = .freshVolume) :
    allAtoms r = .error .type ∧ allSpecies r = .error .attribute ∧ aseAtoms r = .error .attribute ∧ fromObject r 0 = .error .type := by
  have h1 : allAtoms r = .error .type := by
    unfold allAtoms gather
    rw [ho]
    simp only [List.zipIdx_cons, List.mapM_cons, hi, Held.atoms, masked, hc]
    rfl
  have h2 : allSpecies r = .error .attribute := by
    unfold allSpecies gather
    rw [ho]
    simp only [List.zipIdx_cons, List.mapM_cons, hi, Held.species, masked]
    rfl
  refine ⟨h1, h2, ?_, ?_⟩
  · unfold aseAtoms
    rw [h2]
    rfl
  · unfold fromObject
    simp [ho, pyGet, hi, Held.atoms, masked, hc, bind, Except.bind]

/-- Two objects, the second one exchanged for a Volume that was never populated, the first one removed: the mask left over is for it. -/
example : allAtoms (run (fun i => if i = 2 then ⟨.error .type, fun _ => false⟩ else ⟨.ok ([(i : ℤ)], [i]), fun _ => false⟩ : ℕ → Thing ℤ ℕ)
    (fresh (fun _ => .freshVolume) fun _ => 0) [.add 0, .add 1, .populate, .remove 0, .remove 1, .add 2]) = .error .type :=
  (C132_stale _ 2 [] [true] [[true]] (by decide +kernel) (by decide +kernel) rfl).1

theorem masked_length {α β : Type} (c : Option (List (List Bool))) (x : Py (Option (List α))) (y : Py (Option (List β))) (i : ℕ) (a : List α)
    (b : List β) (ha : masked c x i = .ok a) (hb : masked c y i = .ok b) : a.length = b.length := by
  unfold masked at ha hb
  cases x with
  | error e => cases ha
  | ok x =>
  cases y with
  | error e => cases hb
  | ok y =>
  cases c with
  | none => cases ha
  | some c =>
  simp only [bind, Except.bind] at ha hb
  cases hm : pyGet c i with
  | error e => rw [hm] at ha; cases ha
  | ok m =>
  rw [hm] at ha hb
  cases x with
  | none => cases ha
  | some x =>
  cases y with
  | none => cases hb
  | some y =>
  simp only [npMask] at ha hb
  split at ha
  · split at hb
    · obtain rfl := Except.ok.inj ha
      obtain rfl := Except.ok.inj hb
      exact maskSel_length_eq _ _ _ (by omega)
    · cases hb
  · cases ha

theorem gather_length {α β : Type} (c : Option (List (List Bool))) (f : ℕ → Py (Option (List α))) (g : ℕ → Py (Option (List β))) :
    ∀ (l : List (ℕ × ℕ)) (a : List (List α)) (b : List (List β)), l.mapM (fun x => masked c (f x.1) x.2) = .ok a →
      l.mapM (fun x => masked c (g x.1) x.2) = .ok b → a.flatten.length = b.flatten.length := by
  intro l
  induction l with
  | nil => intro a b ha hb; obtain rfl := Except.ok.inj ha; obtain rfl := Except.ok.inj hb; rfl
  | cons x l ih =>
    intro a b ha hb
    rw [List.mapM_cons] at ha hb
    simp only [bind, Except.bind, pure, Except.pure] at ha hb
    cases h1 : masked c (f x.1) x.2 with
    | error e => rw [h1] at ha; cases ha
    | ok a1 =>
    cases h2 : masked c (g x.1) x.2 with
    | error e => rw [h2] at hb; cases hb
    | ok b1 =>
    rw [h1] at ha
    rw [h2] at hb
    simp only at ha hb
    cases h3 : l.mapM (fun x => masked c (f x.1) x.2) with
    | error e => rw [h3] at ha; cases ha
    | ok a2 =>
    cases h4 : l.mapM (fun x => masked c (g x.1) x.2) with
    | error e => rw [h4] at hb; cases hb
    | ok b2 =>
    rw [h3] at ha
    rw [h4] at hb
    obtain rfl := Except.ok.inj ha
    obtain rfl := Except.ok.inj hb
    simp only [List.flatten_cons, List.length_append]
    rw [masked_length c _ _ x.2 a1 b1 h1 h2, ih a2 b2 h3 h4]

/-- **C132 (lengths).** Whatever the user did to the list of objects: if `all_atoms` and `all_species` can be read, they have the same length, and
`ase_atoms` has these arrays; ASE never gets arrays of different lengths. -/
theorem C132_lengths (r : Roster P S) (as : List P) (ss : List S) (ha : allAtoms r = .ok as) (hs : allSpecies r = .ok ss) :
    as.length = ss.length ∧ aseAtoms r = .ok (ss, as) := by
  have h : as.length = ss.length := by
    unfold allAtoms gather at ha
    unfold allSpecies gather at hs
    cases ho : r.objs with
    | none => rw [ho] at ha; cases ha
    | some is =>
    rw [ho] at ha hs
    simp only [bind, Except.bind] at ha hs
    cases h1 : is.zipIdx.mapM (fun x => masked r.checks (r.held x.1).atoms x.2) with
    | error e => rw [h1] at ha; cases ha
    | ok pa =>
    cases h2 : is.zipIdx.mapM (fun x => masked r.checks (r.held x.1).species x.2) with
    | error e => rw [h2] at hs; cases hs
    | ok ps =>
    rw [h1] at ha
    rw [h2] at hs
    simp only at ha hs
    split at ha
    · cases ha
    · split at hs
      · cases hs
      · obtain rfl := Except.ok.inj ha
        obtain rfl := Except.ok.inj hs
        exact gather_length r.checks (fun i => (r.held i).atoms) (fun i => (r.held i).species) _ pa ps h1 h2
  refine ⟨h, ?_⟩
  unfold aseAtoms
  rw [ha, hs]
  show (if ss.length ≠ as.length then _ else _) = _
  rw [if_neg (not_not.mpr h.symm)]

/-- An object is removed after populate and the masks are off by one: the arrays are wrong (`C132_removed_refuted`) but of one length. -/
example : ([2, 3] : List ℤ).length = ([9, 10] : List ℕ).length :=
  (C132_lengths (step exTbl (run exTbl (fresh exHeld fun _ => 0) [.add 0, .add 1, .populate]) (.remove 0)).1 _ _
    (by decide +kernel) (by decide +kernel)).1

end Roster
end CZ
