import Verif.SceneLemmas

/-!
# Properties C01-C11: scenes

`Populatable os`: every object of the list supplies equally many positions and species when asked to populate itself.
`given o`: the body (priority, sites, region) an object stands for; a specification-level value.
-/

namespace CZ
namespace Scene

open Spec (Body Survives contributed contents)

variable {P S : Type}

/-- Every object can be populated, with equally long `atoms` and `species`. -/
def Populatable (os : List (SceneObj P S)) : Prop :=
  ∀ o ∈ os, ∃ as ss, o.supply = .ok (as, ss) ∧ as.length = ss.length

/-- The body an object stands for: its priority, what it supplies, where it is. -/
def given (o : SceneObj P S) : Body P S :=
  { priority := o.priority
    sites := match o.supply with
      | .ok (as, ss) => as.zip ss
      | .error _ => []
    inside := fun p => o.interior p = true }

/-- The object with its arrays refreshed. -/
def refreshed (o : SceneObj P S) : SceneObj P S := { o with cur := o.supply.toOption }

theorem body_refreshed (o : SceneObj P S) : bodyOf (toObj (refreshed o)) = given o := by
  unfold bodyOf toObj refreshed given
  cases o.supply with
  | error e => simp [Except.toOption]
  | ok r => obtain ⟨as, ss⟩ := r; simp [Except.toOption]

theorem populate_state (sc : Scene P S) (os : List (SceneObj P S)) (hos : sc.objects = some os)
    (h : Populatable os) :
    populate sc = ({ sc with objects := some (sortObjects (os.map refreshed)),
                             checks := some (masks (sortObjects (os.map refreshed))) }, .ok ()) :=
  populate_ok sc os hos (fun o ho => by obtain ⟨as, ss, hs, _⟩ := h o ho; exact ⟨_, hs⟩)

theorem cur_sorted {os : List (SceneObj P S)} (h : Populatable os) :
    ∀ o ∈ sortObjects (os.map refreshed), ∃ as ss, o.cur = some (as, ss) ∧ as.length = ss.length := by
  intro o ho
  rw [sortObjects, mem_stableSort, List.mem_map] at ho
  obtain ⟨x, hx, rfl⟩ := ho
  obtain ⟨as, ss, hs, hl⟩ := h x hx
  exact ⟨as, ss, by simp [refreshed, hs, Except.toOption], hl⟩

/-- Bodies in the order in which the scene keeps its objects after populating. -/
theorem bodies_sorted (os : List (SceneObj P S)) :
    (sortObjects (os.map refreshed)).map (fun o => bodyOf (toObj o)) = stableSort (·.priority) (os.map given) := by
  unfold sortObjects
  rw [stableSort_map (·.priority) (·.priority) (fun o => bodyOf (toObj o)) _ (by intro x y; rfl)]
  congr 1
  rw [List.map_map]
  apply List.map_congr_left
  intro o _
  exact body_refreshed o

/-- **C01.** After `populate()` the scene holds exactly the sites the precedence rule lets survive, with
multiplicity: `all_atoms` and `all_species` exist, have equal length, and their rows are a rearrangement of the
specified contents of the objects as they were added. -/
theorem C01_scene_contents (sc : Scene P S) (os : List (SceneObj P S)) (hos : sc.objects = some os)
    (h : Populatable os) :
    ∃ sc' as ss, populate sc = (sc', .ok ()) ∧ allAtoms sc' = .ok as ∧ allSpecies sc' = .ok ss ∧
      as.length = ss.length ∧ (as.zip ss).Perm (contents (os.map given)) := by
  obtain ⟨as, ss, h1, h2, h3, h4⟩ := gather_contents
    { sc with objects := some (sortObjects (os.map refreshed)),
              checks := some (masks (sortObjects (os.map refreshed))) } _ rfl rfl (cur_sorted h)
  refine ⟨_, as, ss, populate_state sc os hos h, h1, h2, h3, ?_⟩
  rw [h4, bodies_sorted]
  exact contents_perm (stableSort_perm _ _)

/-- **C01, exact order.** The rows come object by object, objects in stable priority order. -/
theorem C01_scene_contents_in_order (sc : Scene P S) (os : List (SceneObj P S)) (hos : sc.objects = some os)
    (h : Populatable os) :
    ∃ sc' as ss, populate sc = (sc', .ok ()) ∧ allAtoms sc' = .ok as ∧ allSpecies sc' = .ok ss ∧
      as.zip ss = contents (stableSort (·.priority) (os.map given)) := by
  obtain ⟨as, ss, h1, h2, h3, h4⟩ := gather_contents
    { sc with objects := some (sortObjects (os.map refreshed)),
              checks := some (masks (sortObjects (os.map refreshed))) } _ rfl rfl (cur_sorted h)
  exact ⟨_, as, ss, populate_state sc os hos h, h1, h2, by rw [h4, bodies_sorted]⟩

/-- Row form for one object: `species_from_object(i)` returns the surviving positions of the `i`-th object. -/
theorem fromObject_eq (sc : Scene P S) (os : List (SceneObj P S)) (hos : sc.objects = some os)
    (h : Populatable os) (i : ℕ) (hi : i < (stableSort (·.priority) (os.map given)).length) :
    speciesFromObject (populate sc).1 i =
      .ok ((contributed (stableSort (·.priority) (os.map given)) ⟨i, hi⟩).map Prod.fst) := by
  classical
  rw [populate_state sc os hos h]
  have hi' : i < (sortObjects (os.map refreshed)).length := by
    simpa [sortObjects] using hi
  have hb := bodies_sorted os
  set s := sortObjects (os.map refreshed) with hs
  obtain ⟨as, ss, hc, hl⟩ := cur_sorted h s[i] (List.getElem_mem hi')
  simp only [speciesFromObject, pyGet_ok hi', bind, Except.bind, maskedOf]
  have hm : (masks s)[i]? = some ((toObj s[i]).atoms.map (Precedence.keepAt (s.map toObj) i s[i].priority)) := by
    simp [masks, hi', toObj]
  have hat : (toObj s[i]).atoms = as := by simp [toObj, hc]
  have hsp : (toObj s[i]).species = ss := by simp [toObj, hc]
  simp only [pyGet, hm, hc, hat, npMask, List.length_map, if_true]
  rw [maskSel_map]
  congr 1
  -- now relate the filter on positions to the filter on sites
  have hbi : (stableSort (·.priority) (os.map given))[i] = bodyOf (toObj s[i]) := by
    simp only [← hb, List.getElem_map]
  have hz : (contributed (stableSort (·.priority) (os.map given)) ⟨i, hi⟩) =
      (as.zip ss).filter (fun q => Precedence.keepAt (s.map toObj) i s[i].priority q.1) := by
    unfold contributed
    have : (stableSort (·.priority) (os.map given))[(⟨i, hi⟩ : Fin _)].sites = as.zip ss := by
      simp only [Fin.getElem_fin, hbi, bodyOf, hat, hsp]
    rw [this]
    congr 1
    funext q
    have h1 := survives_iff_keepCount (stableSort (·.priority) (os.map given)) ⟨i, hi⟩ q.1
    have h2 := keepAt_iff (s.map toObj) i (by simpa using hi') q.1
    rw [Bool.eq_iff_iff, decide_eq_true_iff, h1]
    simp only [List.getElem_map, List.map_map] at h2
    have e1 : List.map (bodyOf ∘ toObj) s = stableSort (·.priority) (os.map given) := by
      rw [← hb]; rfl
    rw [e1] at h2
    have e2 : (toObj s[i]).priority = s[i].priority := rfl
    rw [e2] at h2
    rw [h2]
    simp only [Fin.getElem_fin, hbi]
  rw [hz]
  have : ∀ (f : P → Bool) (xs : List P) (ys : List S), xs.length = ys.length →
      xs.filter f = ((xs.zip ys).filter (fun q => f q.1)).map Prod.fst := by
    intro f xs
    induction xs with
    | nil => intro ys _; rfl
    | cons x xs ih =>
      intro ys hy
      cases ys with
      | nil => simp at hy
      | cons y ys =>
        have := ih ys (by simpa using hy)
        by_cases hf : f x <;> simp [hf, this]
  exact this _ as ss hl

/-- **C01, one atom.** A position is among the rows contributed by the `i`-th object (in the scene's order) iff that
object supplies it and no other object with priority number less than or equal contains it. -/
theorem C01_atom_survives_iff (sc : Scene P S) (os : List (SceneObj P S)) (hos : sc.objects = some os)
    (h : Populatable os) (i : ℕ) (o : SceneObj P S) (ho : (sortObjects os)[i]? = some o)
    (rows : List P) (hrows : speciesFromObject (populate sc).1 i = .ok rows) (p : P) :
    p ∈ rows ↔ (∃ q ∈ (given o).sites, q.1 = p) ∧
      ∀ j o', (sortObjects os)[j]? = some o' → j ≠ i → o'.priority ≤ o.priority → o'.interior p = false := by
  classical
  have hsg : stableSort (·.priority) (os.map given) = (sortObjects os).map given := by
    unfold sortObjects
    rw [stableSort_map (·.priority) (·.priority) given _ (by intro x y; rfl)]
  have hi0 : i < (sortObjects os).length := by
    by_contra hc
    have : (sortObjects os)[i]? = none := by simpa using hc
    rw [this] at ho; cases ho
  have hoi : (sortObjects os)[i] = o := by
    rw [List.getElem?_eq_getElem hi0] at ho; exact Option.some.inj ho
  have hi : i < (stableSort (·.priority) (os.map given)).length := by
    rw [hsg]; simpa using hi0
  rw [fromObject_eq sc os hos h i hi] at hrows
  have hrows' := Except.ok.inj hrows
  rw [← hrows', List.mem_map]
  have hgi : (stableSort (·.priority) (os.map given))[i] = given o := by
    simp only [hsg, List.getElem_map, hoi]
  have surv : Survives (stableSort (·.priority) (os.map given)) ⟨i, hi⟩ p ↔
      ∀ j o', (sortObjects os)[j]? = some o' → j ≠ i → o'.priority ≤ o.priority → o'.interior p = false := by
    unfold Survives
    constructor
    · intro hs j o' hj hne hle
      have hj0 : j < (sortObjects os).length := by
        by_contra hc
        have : (sortObjects os)[j]? = none := by simpa using hc
        rw [this] at hj; cases hj
      have hjo : (sortObjects os)[j] = o' := by
        rw [List.getElem?_eq_getElem hj0] at hj; exact Option.some.inj hj
      have hjl : j < (stableSort (·.priority) (os.map given)).length := by rw [hsg]; simpa using hj0
      have hgj : (stableSort (·.priority) (os.map given))[j] = given o' := by
        simp only [hsg, List.getElem_map, hjo]
      have := hs ⟨j, hjl⟩ (by intro hc; exact hne (congrArg Fin.val hc))
      simp only [Fin.getElem_fin, hgj, hgi] at this
      simpa [given] using this hle
    · intro hs j hne hle
      have hj0 : (j : ℕ) < (sortObjects os).length := by
        have := j.isLt; simpa [sortObjects] using this
      have hgj : (stableSort (·.priority) (os.map given))[(j:ℕ)] = given (sortObjects os)[(j:ℕ)] := by
        simp only [hsg, List.getElem_map]
      simp only [Fin.getElem_fin, hgj, hgi] at hle ⊢
      have := hs j _ (List.getElem?_eq_getElem hj0) (fun hc => hne (Fin.ext hc)) hle
      simp [given, this]
  unfold contributed
  constructor
  · rintro ⟨q, hq, rfl⟩
    rw [List.mem_filter, decide_eq_true_iff] at hq
    simp only [Fin.getElem_fin, hgi] at hq
    exact ⟨⟨q, hq.1, rfl⟩, surv.mp hq.2⟩
  · rintro ⟨⟨q, hq, rfl⟩, hs⟩
    refine ⟨q, ?_, rfl⟩
    rw [List.mem_filter, decide_eq_true_iff]
    simp only [Fin.getElem_fin, hgi]
    exact ⟨hq, surv.mpr hs⟩

/-- Two overlapping objects on a line used as running example: `exA` (priority 1) covers 0..2, `exB` (priority 0)
covers 2..3; `exC` has the priority of `exA` and covers 1. -/
def exA : SceneObj ℤ ℕ := ⟨1, .ok ([0, 1, 2], [6, 7, 8]), none, fun p => decide (0 ≤ p ∧ p ≤ 2)⟩
def exB : SceneObj ℤ ℕ := ⟨0, .ok ([2, 3], [9, 10]), none, fun p => decide (2 ≤ p ∧ p ≤ 3)⟩
def exC : SceneObj ℤ ℕ := ⟨1, .ok ([1, 5], [11, 12]), none, fun p => decide (p = 1 ∨ p = 5)⟩
def exScene : Scene ℤ ℕ := run (empty (0, 10)) [.add (.obj exA), .add (.obj exB), .add (.obj exC)]

example : exScene.objects = some [exA, exB, exC] ∧ Populatable [exA, exB, exC] := by
  refine ⟨rfl, ?_⟩
  intro o ho
  simp only [List.mem_cons, List.not_mem_nil, or_false] at ho
  rcases ho with rfl | rfl | rfl
  · exact ⟨_, _, rfl, rfl⟩
  · exact ⟨_, _, rfl, rfl⟩
  · exact ⟨_, _, rfl, rfl⟩

/-- The example really resolves conflicts: 2 goes to `exB`, 1 is lost to both equal-priority objects. -/
example : allAtoms (populate exScene).1 = .ok [2, 3, 0, 5] ∧
    allSpecies (populate exScene).1 = .ok [9, 10, 6, 12] := by decide +kernel

example : (sortObjects [exA, exB, exC])[1]? = some exA ∧
    speciesFromObject (populate exScene).1 1 = .ok [0] := ⟨rfl, by decide +kernel⟩

/-- **C02.** Rows contributed by an object lie inside no other object of the same priority. -/
theorem C02_equal_priority_exclusion (sc : Scene P S) (os : List (SceneObj P S)) (hos : sc.objects = some os)
    (h : Populatable os) (i j : ℕ) (oi oj : SceneObj P S) (hne : i ≠ j)
    (hi : (sortObjects os)[i]? = some oi) (hj : (sortObjects os)[j]? = some oj)
    (heq : oi.priority = oj.priority) (ri rj : List P)
    (hri : speciesFromObject (populate sc).1 i = .ok ri) (hrj : speciesFromObject (populate sc).1 j = .ok rj) :
    (∀ p ∈ ri, oj.interior p = false) ∧ (∀ p ∈ rj, oi.interior p = false) := by
  constructor
  · intro p hp
    exact ((C01_atom_survives_iff sc os hos h i oi hi ri hri p).mp hp).2 j oj hj (Ne.symm hne) (le_of_eq heq.symm)
  · intro p hp
    exact ((C01_atom_survives_iff sc os hos h j oj hj rj hrj p).mp hp).2 i oi hi hne (le_of_eq heq)

example : (sortObjects [exA, exB, exC])[1]? = some exA ∧ (sortObjects [exA, exB, exC])[2]? = some exC ∧
    exA.priority = exC.priority ∧ exC.interior 1 = true ∧ exA.interior 1 = true ∧
    speciesFromObject (populate exScene).1 2 = .ok [5] := by
  refine ⟨rfl, rfl, rfl, by decide, by decide, by decide +kernel⟩

/-! ### C03 -/

theorem insertByKey_append_of_lt {α : Type} (key : α → ℤ) (a : α) (l : List α)
    (h : ∀ x ∈ l, key x < key a) : insertByKey key a l = l ++ [a] := by
  induction l with
  | nil => rfl
  | cons b l ih =>
    have hb := h b (by simp)
    rw [insertByKey, if_neg (by omega), ih (fun x hx => h x (by simp [hx]))]
    rfl

/-- A sorted list splits at a threshold into its smaller and its other elements. -/
theorem sorted_split {α : Type} (key : α → ℤ) (t : ℤ) (l : List α)
    (h : l.Pairwise (fun x y => key x ≤ key y)) :
    l = l.filter (fun x => decide (key x < t)) ++ l.filter (fun x => decide (¬ key x < t)) := by
  induction l with
  | nil => rfl
  | cons a l ih =>
    rw [List.pairwise_cons] at h
    by_cases ha : key a < t
    · simp only [List.filter_cons, ha, decide_true, if_true, not_true_eq_false, decide_false]
      simpa using ih h.2
    · have hall : ∀ x ∈ l, ¬ key x < t := by
        intro x hx; have := h.1 x hx; omega
      have h1 : l.filter (fun x => decide (key x < t)) = [] := by
        rw [List.filter_eq_nil_iff]; intro x hx; simpa using hall x hx
      have h2 : l.filter (fun x => decide (¬ key x < t)) = l := by
        rw [List.filter_eq_self]; intro x hx; simpa using hall x hx
      simp only [List.filter_cons, ha, decide_false, not_false_eq_true, decide_true, h1, h2]
      rfl

/-- Adding an object does not change the sorted list of the objects with strictly smaller priority number. -/
theorem sorted_prefix_add (l : List (SceneObj P S)) (o : SceneObj P S) (i : ℕ)
    (hi : i < (l.filter (fun x => decide (x.priority < o.priority))).length) :
    (sortObjects (l ++ [o]))[i]? = (sortObjects l)[i]? ∧
      ∀ x, (sortObjects l)[i]? = some x → x.priority < o.priority := by
  unfold sortObjects
  have hA := sorted_split (fun x : SceneObj P S => x.priority) o.priority _
    (stableSort_sorted (fun x : SceneObj P S => x.priority) l)
  have hB := sorted_split (fun x : SceneObj P S => x.priority) o.priority _
    (stableSort_sorted (fun x : SceneObj P S => x.priority) (l ++ [o]))
  rw [stableSort_filter] at hA hB
  have hf : (l ++ [o]).filter (fun x => decide (x.priority < o.priority)) =
      l.filter (fun x => decide (x.priority < o.priority)) := by simp
  rw [hf] at hB
  rw [hA, hB]
  have hlen : i < (stableSort (fun x : SceneObj P S => x.priority)
      (l.filter (fun x => decide (x.priority < o.priority)))).length := by simpa using hi
  rw [List.getElem?_append_left hlen, List.getElem?_append_left hlen]
  refine ⟨rfl, ?_⟩
  intro x hx
  have := List.mem_of_getElem? hx
  rw [mem_stableSort, List.mem_filter] at this
  simpa using this.2

/-- **C03.** Let `n` objects of the scene have a strictly smaller priority number than a newly added object `o`.
Those are the first `n` objects of the populated scene, before and after adding `o`, and each contributes the same
rows in both. -/
theorem C03_added_object_does_not_affect_smaller (sc : Scene P S) (os : List (SceneObj P S))
    (hos : sc.objects = some os) (o : SceneObj P S) (h : Populatable (os ++ [o])) (i : ℕ)
    (hi : i < (os.filter (fun x => decide (x.priority < o.priority))).length) :
    (sortObjects (os ++ [o]))[i]? = (sortObjects os)[i]? ∧
    ∃ rows, speciesFromObject (populate sc).1 i = .ok rows ∧
      speciesFromObject (populate (addObject sc (.obj o))).1 i = .ok rows := by
  classical
  have h0 : Populatable os := fun x hx => h x (by simp [hx])
  have hos' : (addObject sc (.obj o)).objects = some (os ++ [o]) := by simp [addObject, hos]
  obtain ⟨hpre, hlt⟩ := sorted_prefix_add os o i hi
  refine ⟨hpre, ?_⟩
  have sg : ∀ l : List (SceneObj P S), stableSort (·.priority) (l.map given) = (sortObjects l).map given := by
    intro l
    unfold sortObjects
    rw [stableSort_map (·.priority) (·.priority) given _ (by intro x y; rfl)]
  have hlen0 : i < (sortObjects os).length := by
    simp only [sortObjects, stableSort_length]
    exact lt_of_lt_of_le hi (List.length_filter_le _ _)
  have hlen1 : i < (sortObjects (os ++ [o])).length := by
    simp only [sortObjects, stableSort_length, List.length_append] at hlen0 ⊢
    omega
  have hi0 : i < (stableSort (·.priority) (os.map given)).length := by rw [sg]; simpa using hlen0
  have hi1 : i < (stableSort (·.priority) ((os ++ [o]).map given)).length := by rw [sg]; simpa using hlen1
  refine ⟨_, fromObject_eq sc os hos h0 i hi0, ?_⟩
  rw [fromObject_eq _ _ hos' h i hi1]
  congr 2
  -- both contributions are position-free filters of the same body
  have hx : (sortObjects (os ++ [o]))[i] = (sortObjects os)[i] := by
    rw [List.getElem?_eq_getElem hlen1, List.getElem?_eq_getElem hlen0] at hpre
    exact Option.some.inj hpre
  have hprio := hlt _ (List.getElem?_eq_getElem hlen0)
  have hg0 : (stableSort (·.priority) (os.map given))[i] = given (sortObjects os)[i] := by
    simp only [sg, List.getElem_map]
  have hg1 : (stableSort (·.priority) ((os ++ [o]).map given))[i] = given (sortObjects os)[i] := by
    simp only [sg, List.getElem_map, hx]
  unfold contributed
  simp only [Fin.getElem_fin, hg0, hg1]
  congr 1
  funext q
  rw [Bool.eq_iff_iff, decide_eq_true_iff, decide_eq_true_iff, survives_iff_keepCount, survives_iff_keepCount]
  simp only [Fin.getElem_fin, hg0, hg1]
  rw [keepCount_perm (stableSort_perm (·.priority) ((os ++ [o]).map given)),
    keepCount_perm (stableSort_perm (·.priority) (os.map given))]
  unfold keepCount
  have : ((os ++ [o]).map given).countP
        (fun c => decide (c.priority ≤ (given (sortObjects os)[i]).priority ∧ c.inside q.1)) =
      (os.map given).countP
        (fun c => decide (c.priority ≤ (given (sortObjects os)[i]).priority ∧ c.inside q.1)) := by
    rw [List.map_append, List.countP_append]
    have : ¬ ((given o).priority ≤ (given (sortObjects os)[i]).priority) := by
      simp only [given]; omega
    simp [this]
  rw [this]

example : Populatable ([exA, exB] ++ [exC]) ∧
    0 < (([exA, exB] : List (SceneObj ℤ ℕ)).filter (fun x => decide (x.priority < exC.priority))).length := by
  refine ⟨?_, by decide⟩
  intro o ho
  simp only [List.cons_append, List.nil_append, List.mem_cons, List.not_mem_nil, or_false] at ho
  rcases ho with rfl | rfl | rfl
  · exact ⟨_, _, rfl, rfl⟩
  · exact ⟨_, _, rfl, rfl⟩
  · exact ⟨_, _, rfl, rfl⟩

/-- **C04.** Insertion order is irrelevant: scenes whose objects are rearrangements of each other contain the same
(position, species) rows with the same multiplicities. -/
theorem C04_insertion_order_irrelevant (sc sc2 : Scene P S) (os os2 : List (SceneObj P S))
    (hos : sc.objects = some os) (hos2 : sc2.objects = some os2) (hp : os.Perm os2) (h : Populatable os) :
    ∃ as ss as2 ss2, allAtoms (populate sc).1 = .ok as ∧ allSpecies (populate sc).1 = .ok ss ∧
      allAtoms (populate sc2).1 = .ok as2 ∧ allSpecies (populate sc2).1 = .ok ss2 ∧
      (as.zip ss).Perm (as2.zip ss2) ∧ as.Perm as2 := by
  have h2 : Populatable os2 := fun o ho => h o (hp.mem_iff.mpr ho)
  obtain ⟨sc', as, ss, e1, e2, e3, e4, e5⟩ := C01_scene_contents sc os hos h
  obtain ⟨sc2', as2, ss2, f1, f2, f3, f4, f5⟩ := C01_scene_contents sc2 os2 hos2 h2
  have hz : (as.zip ss).Perm (as2.zip ss2) :=
    e5.trans ((contents_perm (hp.map given)).trans f5.symm)
  refine ⟨as, ss, as2, ss2, by rw [e1]; exact e2, by rw [e1]; exact e3, by rw [f1]; exact f2,
    by rw [f1]; exact f3, hz, ?_⟩
  have := hz.map Prod.fst
  rwa [List.map_fst_zip (by omega), List.map_fst_zip (by omega)] at this

example : ([exA, exB, exC] : List (SceneObj ℤ ℕ)).Perm [exC, exA, exB] := by
  exact (List.perm_append_comm (l₁ := [exA, exB]) (l₂ := [exC]))

/-- Change only the priority of an object. -/
def relabel (f : ℤ → ℤ) (o : SceneObj P S) : SceneObj P S := { o with priority := f o.priority }

/-- **C05.** A strictly increasing relabelling of the priorities changes neither `all_atoms` nor `all_species`
(exact equality, order included). -/
theorem C05_priority_relabelling (f : ℤ → ℤ) (hf : StrictMono f) (sc sc2 : Scene P S)
    (os : List (SceneObj P S)) (hos : sc.objects = some os) (hos2 : sc2.objects = some (os.map (relabel f)))
    (h : Populatable os) :
    ∃ as ss, allAtoms (populate sc).1 = .ok as ∧ allSpecies (populate sc).1 = .ok ss ∧
      allAtoms (populate sc2).1 = .ok as ∧ allSpecies (populate sc2).1 = .ok ss := by
  have h2 : Populatable (os.map (relabel f)) := by
    intro o ho
    obtain ⟨x, hx, rfl⟩ := List.mem_map.mp ho
    exact h x hx
  obtain ⟨sc', as, ss, e1, e2, e3, e4, -⟩ := C01_scene_contents sc os hos h
  obtain ⟨sc2', as2, ss2, f1, f2, f3, f4, -⟩ := C01_scene_contents sc2 _ hos2 h2
  obtain ⟨_, _, _, g1, g2, g3, g5⟩ := C01_scene_contents_in_order sc os hos h
  obtain ⟨_, _, _, k1, k2, k3, k5⟩ := C01_scene_contents_in_order sc2 _ hos2 h2
  rw [g1] at e1; cases e1
  rw [g2] at e2; cases e2
  rw [g3] at e3; cases e3
  rw [k1] at f1; cases f1
  rw [k2] at f2; cases f2
  rw [k3] at f3; cases f3
  have hzip : as.zip ss = as2.zip ss2 := by
    rw [g5, k5]
    -- relabelled bodies
    let fb : Body P S → Body P S := fun b => { b with priority := f b.priority }
    have hle : ∀ a b : ℤ, f a ≤ f b ↔ a ≤ b := fun a b => hf.le_iff_le
    have hm : (os.map (relabel f)).map given = (os.map given).map fb := by
      rw [List.map_map, List.map_map]; rfl
    rw [hm, ← stableSort_map (fun b : Body P S => b.priority) (fun b : Body P S => b.priority) fb _
      (by intro x y; exact hle _ _)]
    rw [contents_eq, contents_eq, List.flatMap_map]
    congr 1
    funext b
    congr 1
    funext q
    classical
    unfold keepCount
    rw [List.countP_map]
    congr 1
    simp only [Function.comp_def, fb, hle]
  have hfst : as = as2 := by
    have := congrArg (List.map Prod.fst) hzip
    rwa [List.map_fst_zip (by omega), List.map_fst_zip (by omega)] at this
  have hsnd : ss = ss2 := by
    have := congrArg (List.map Prod.snd) hzip
    rwa [List.map_snd_zip (by omega), List.map_snd_zip (by omega)] at this
  subst hfst; subst hsnd
  exact ⟨as, ss, by rw [g1]; exact g2, by rw [g1]; exact g3, by rw [k1]; exact k2, by rw [k1]; exact k3⟩

example : StrictMono (fun z : ℤ => 3 * z - 7) ∧ relabel (fun z : ℤ => 3 * z - 7) exB ≠ exB := by
  refine ⟨fun a b h => by simp only; omega, ?_⟩
  intro h
  have := congrArg SceneObj.priority h
  simp [relabel, exB] at this

/-- **C06.** `all_atoms` and `all_species` have the same length, and each row pair is one site of one object:
row `k` of both comes from the same index `m` of the same object's arrays. -/
theorem C06_rows_aligned (sc : Scene P S) (os : List (SceneObj P S)) (hos : sc.objects = some os)
    (h : Populatable os) (as : List P) (ss : List S) (ha : allAtoms (populate sc).1 = .ok as)
    (hsp : allSpecies (populate sc).1 = .ok ss) :
    as.length = ss.length ∧
    ∀ (k : ℕ) (p : P) (s : S), as[k]? = some p → ss[k]? = some s →
      ∃ o ∈ os, ∃ (oas : List P) (oss : List S) (m : ℕ), o.supply = .ok (oas, oss) ∧ oas[m]? = some p ∧ oss[m]? = some s := by
  obtain ⟨sc', as', ss', e1, e2, e3, e4, e5⟩ := C01_scene_contents sc os hos h
  rw [e1] at ha hsp
  rw [e2] at ha; rw [e3] at hsp
  cases ha; cases hsp
  refine ⟨e4, ?_⟩
  intro k p s hk1 hk2
  have hmem : (p, s) ∈ as.zip ss := by
    apply List.mem_of_getElem? (i := k)
    rw [List.zip, List.getElem?_zipWith_eq_some]
    exact ⟨p, s, hk1, hk2, rfl⟩
  have := e5.mem_iff.mp hmem
  rw [contents_eq, List.mem_flatMap] at this
  obtain ⟨b, hb, hq⟩ := this
  obtain ⟨o, ho, rfl⟩ := List.mem_map.mp hb
  have hq' := (List.mem_filter.mp hq).1
  obtain ⟨oas, oss, hs, hl⟩ := h o ho
  refine ⟨o, ho, oas, oss, ?_⟩
  simp only [given, hs] at hq'
  obtain ⟨m, hm, hmv⟩ := List.getElem_of_mem hq'
  rw [List.getElem_zip] at hmv
  have hm1 : m < oas.length := by simp at hm; omega
  have hm2 : m < oss.length := by simp at hm; omega
  refine ⟨m, hs, ?_, ?_⟩
  · rw [List.getElem?_eq_getElem hm1]; rw [← (Prod.mk.inj hmv).1]
  · rw [List.getElem?_eq_getElem hm2]; rw [← (Prod.mk.inj hmv).2]

/-- Contents after adding a body that occupies no space: the old contents, then the sites of the new body outside
every body of smaller or equal priority number. -/
theorem contents_add_empty_body (bs : List (Body P S)) (b : Body P S) (hb : ∀ p, ¬ b.inside p) :
    ∃ kept, contents (bs ++ [b]) = contents bs ++ kept ∧
      ∀ q, q ∈ kept ↔ q ∈ b.sites ∧ ∀ c ∈ bs, c.priority ≤ b.priority → ¬ c.inside q.1 := by
  classical
  refine ⟨b.sites.filter (fun q => keepCount (bs ++ [b]) b q.1), ?_, ?_⟩
  · rw [contents_eq, contents_eq, List.flatMap_append]
    congr 1
    · congr 1
      funext c
      congr 1
      funext q
      unfold keepCount
      rw [List.countP_append]
      simp [hb]
    · simp
  · intro q
    rw [List.mem_filter]
    unfold keepCount
    rw [List.countP_append]
    simp [hb, List.countP_eq_zero]

/-- **C07.** Adding a molecule: the rows already in the scene stay (same multiset), and the rows added are exactly
the molecule's atoms that are in no object of smaller or equal priority number. -/
theorem C07_molecules_displace_nothing (sc : Scene P S) (os : List (SceneObj P S)) (hos : sc.objects = some os)
    (h : Populatable os) (pr : ℤ) (mas : List P) (mss : List S) (hm : mas.length = mss.length)
    (as : List P) (ss : List S) (ha : allAtoms (populate sc).1 = .ok as)
    (hs : allSpecies (populate sc).1 = .ok ss) :
    ∃ as2 ss2 kept,
      allAtoms (populate (addObject sc (.obj (moleculeObj pr mas mss)))).1 = .ok as2 ∧
      allSpecies (populate (addObject sc (.obj (moleculeObj pr mas mss)))).1 = .ok ss2 ∧
      (as2.zip ss2).Perm (as.zip ss ++ kept) ∧
      ∀ q, q ∈ kept ↔ q ∈ mas.zip mss ∧ ∀ o ∈ os, o.priority ≤ pr → o.interior q.1 = false := by
  have hos' : (addObject sc (.obj (moleculeObj pr mas mss))).objects = some (os ++ [moleculeObj pr mas mss]) := by
    simp [addObject, hos]
  have h' : Populatable (os ++ [moleculeObj pr mas mss]) := by
    intro o ho
    rcases List.mem_append.mp ho with ho | ho
    · exact h o ho
    · simp only [List.mem_singleton] at ho
      subst ho
      exact ⟨mas, mss, rfl, hm⟩
  obtain ⟨sc', as', ss', e1, e2, e3, e4, e5⟩ := C01_scene_contents sc os hos h
  obtain ⟨sc2', as2, ss2, f1, f2, f3, f4, f5⟩ := C01_scene_contents _ _ hos' h'
  rw [e1] at ha hs
  rw [e2] at ha; rw [e3] at hs
  cases ha; cases hs
  obtain ⟨kept, k1, k2⟩ := contents_add_empty_body (os.map given) (given (moleculeObj pr mas mss))
    (by intro p; simp [given, moleculeObj])
  refine ⟨as2, ss2, kept, by rw [f1]; exact f2, by rw [f1]; exact f3, ?_, ?_⟩
  · refine f5.trans ?_
    rw [List.map_append]
    show (contents (os.map given ++ [given (moleculeObj pr mas mss)])).Perm _
    rw [k1]
    exact List.Perm.append e5.symm (List.Perm.refl _)
  · intro q
    rw [k2]
    constructor
    · rintro ⟨hq, hall⟩
      refine ⟨by simpa [given, moleculeObj] using hq, ?_⟩
      intro o ho hle
      have := hall (given o) (List.mem_map_of_mem ho) (by simpa [given, moleculeObj] using hle)
      simpa [given] using this
    · rintro ⟨hq, hall⟩
      refine ⟨by simpa [given, moleculeObj] using hq, ?_⟩
      intro c hc hle
      obtain ⟨o, ho, rfl⟩ := List.mem_map.mp hc
      have := hall o ho (by simpa [given, moleculeObj] using hle)
      simpa [given] using this

/-- A molecule at 3 (inside `exB`) and 7: 3 is removed, everything else stays. -/
example : allAtoms (populate (addObject exScene (.obj (moleculeObj (-4) [3, 7] [1, 1])))).1
      = .ok [3, 7, 2, 3, 0, 5] ∧
    allAtoms (populate (addObject exScene (.obj (moleculeObj 0 [3, 7] [1, 1])))).1 = .ok [2, 3, 7, 0, 5] := by
  decide +kernel

/-! ### C08: histories -/

/-- Invariant: masks are missing, or too short, or those of the current objects. -/
def Fresh (sc : Scene P S) : Prop :=
  match sc.objects, sc.checks with
  | none, none => True
  | none, some _ => False
  | some _, none => True
  | some os, some c => c.length < os.length ∨
      (c = masks os ∧ (∀ o ∈ os, o.cur = o.supply.toOption ∧ ∃ r, o.supply = .ok r) ∧
        (os.map (·.priority)).Pairwise (· ≤ ·))

theorem masks_length (s : List (SceneObj P S)) : (masks s).length = s.length := by simp [masks]

theorem populateObjs_frame (os : List (SceneObj P S)) :
    (populateObjs os).1.map (fun o => (o.priority, o.supply, o.interior)) =
      os.map (fun o => (o.priority, o.supply, o.interior)) := by
  induction os with
  | nil => rfl
  | cons o os ih =>
    rw [populateObjs]
    cases hs : o.supply with
    | error e => simp [hs]
    | ok r => simp [ih, hs]

theorem fresh_step (sc : Scene P S) (op : Op P S) (h : Fresh sc) : Fresh (step sc op) := by
  cases op with
  | add a =>
    cases a with
    | other => exact h
    | obj o =>
      obtain ⟨objs, chk, b⟩ := sc
      cases objs with
      | none =>
        cases chk with
        | none => simp [step, addObject, Fresh]
        | some c => exact absurd h id
      | some os =>
        cases chk with
        | none => simp [step, addObject, Fresh]
        | some c =>
          simp only [step, addObject, Fresh, List.length_append, List.length_singleton]
          left
          rcases h with h | ⟨h, -, -⟩
          · omega
          · rw [h, masks_length]; omega
  | populate =>
    obtain ⟨objs, chk, b⟩ := sc
    cases objs with
    | none => exact h
    | some os =>
      simp only [step, populate]
      cases hp : populateObjs os with
      | mk os' res =>
        cases res with
        | error e =>
          simp only
          -- a failing populate can only happen when the masks were missing or too short
          have hlen : os'.length = os.length := by
            have := populateObjs_length os; rw [hp] at this; exact this
          obtain ⟨o, ho, hoe⟩ := populateObjs_err (os := os) (e := e) (by rw [hp])
          cases chk with
          | none => simp [Fresh]
          | some c =>
            simp only [Fresh] at h ⊢
            rcases h with h | ⟨-, h2, -⟩
            · left; omega
            · obtain ⟨-, r, hr⟩ := h2 o ho
              rw [hr] at hoe; cases hoe
        | ok u =>
          cases u
          have hall : ∀ o ∈ os, ∃ r, o.supply = .ok r := by
            intro o ho
            by_contra hc
            cases hso : o.supply with
            | ok r => exact hc ⟨r, hso⟩
            | error e =>
              have key : ∀ l : List (SceneObj P S), o ∈ l → (populateObjs l).2 ≠ .ok () := by
                intro l
                induction l with
                | nil => intro hl; simp at hl
                | cons x l ih =>
                  intro hl
                  rw [populateObjs]
                  cases hx : x.supply with
                  | error e' => simp
                  | ok r =>
                    rcases List.mem_cons.mp hl with rfl | hl
                    · rw [hso] at hx; cases hx
                    · simpa using ih hl
              exact key os ho (by rw [hp])
          have hp' := populateObjs_ok os hall
          rw [hp] at hp'
          have hos' := (Prod.mk.inj hp').1
          simp only [checks_sorted, Fresh]
          right
          refine ⟨trivial, ?_, ?_⟩
          · intro o ho
            rw [sortObjects, mem_stableSort, hos', List.mem_map] at ho
            obtain ⟨x, hx, rfl⟩ := ho
            exact ⟨rfl, hall x hx⟩
          · rw [List.pairwise_map]
            exact stableSort_sorted _ _

theorem fresh_run (sc : Scene P S) (ops : List (Op P S)) (h : Fresh sc) : Fresh (run sc ops) := by
  induction ops generalizing sc with
  | nil => exact h
  | cons op ops ih => exact ih _ (fresh_step sc op h)

/-- The objects added by a history, in order. -/
def added : List (Op P S) → List (SceneObj P S)
  | [] => []
  | .add (.obj o) :: ops => o :: added ops
  | .add .other :: ops => added ops
  | .populate :: ops => added ops

/-- Up to order and refreshed arrays, the scene holds exactly the objects added so far. -/
theorem objects_perm (sc : Scene P S) (ops : List (Op P S)) (b0 : List (Body P S))
    (h0 : ((sc.objects.getD []).map given).Perm b0) :
    (((run sc ops).objects.getD []).map given).Perm (b0 ++ (added ops).map given) := by
  induction ops generalizing sc b0 with
  | nil => simpa [run, added] using h0
  | cons op ops ih =>
    have hfold : run sc (op :: ops) = run (step sc op) ops := rfl
    rw [hfold]
    cases op with
    | add a =>
      cases a with
      | other => exact ih _ b0 h0
      | obj o =>
        have := ih (step sc (.add (.obj o))) (b0 ++ [given o]) (by
          obtain ⟨objs, chk, b⟩ := sc
          cases objs with
          | none =>
            simp only [Option.getD_none, List.map_nil] at h0
            have hb : b0 = [] := List.nil_perm.mp h0
            subst hb
            simp [step, addObject]
          | some os =>
            simp only [step, addObject, Option.getD_some, List.map_append, List.map_cons, List.map_nil]
            exact List.Perm.append_right _ h0)
        simpa [added] using this
    | populate =>
      have := ih (step sc .populate) b0 (by
        refine List.Perm.trans ?_ h0
        obtain ⟨objs, chk, b⟩ := sc
        cases objs with
        | none => exact List.Perm.refl _
        | some os =>
          have hg : ∀ l1 l2 : List (SceneObj P S),
              l1.map (fun o => (o.priority, o.supply, o.interior)) =
                l2.map (fun o => (o.priority, o.supply, o.interior)) →
              l1.map given = l2.map given := by
            intro l1 l2 h12
            have := congrArg (List.map (fun t : ℤ × Py (List P × List S) × (P → Bool) =>
              given (⟨t.1, t.2.1, none, t.2.2⟩ : SceneObj P S))) h12
            rw [List.map_map, List.map_map] at this
            exact this
          have hfr := hg _ _ (populateObjs_frame os)
          simp only [step, populate, Option.getD_some]
          cases hp : populateObjs os with
          | mk os' res =>
            rw [hp] at hfr
            cases res with
            | error e => simp only [Option.getD_some]; rw [hfr]
            | ok u =>
              cases u
              simp only [checks_sorted, Option.getD_some]
              have : (sortObjects os').Perm os' := stableSort_perm _ _
              refine (this.map given).trans ?_
              rw [hfr])
      simpa [added] using this

/-- **C08.** In every history of `add_object` and `populate` calls starting from an empty scene (populate calls may
raise), reading `all_atoms` either raises or returns the positions of exactly the specified contents of the objects
added so far. -/
theorem C08_queries_never_stale (b : P × P) (ops : List (Op P S))
    (hwf : ∀ o ∈ added ops, ∀ as ss, o.supply = .ok (as, ss) → as.length = ss.length)
    (rows : List P) (hr : allAtoms (run (empty b) ops) = .ok rows) :
    rows.Perm ((contents ((added ops).map given)).map Prod.fst) := by
  have hf : Fresh (run (empty b) ops) := fresh_run _ _ (by simp [empty, Fresh])
  have hperm := objects_perm (empty b) ops [] (by simp [empty])
  rw [List.nil_append] at hperm
  set sc := run (empty b) ops with hsc
  cases hobj : sc.objects with
  | none => simp [allAtoms, gather, hobj] at hr
  | some os =>
    rw [hobj, Option.getD_some] at hperm
    have hwf' : ∀ o ∈ os, ∀ as ss, o.supply = .ok (as, ss) → as.length = ss.length := by
      intro o ho as ss hs
      have hmem := hperm.mem_iff.mp (List.mem_map_of_mem ho)
      obtain ⟨x, hx, hxe⟩ := List.mem_map.mp hmem
      -- the bodies agree, but lengths must be recovered from the objects themselves
      have key : ∀ (sc0 : Scene P S) (ops : List (Op P S)),
          (∀ o ∈ sc0.objects.getD [], ∀ as ss, o.supply = .ok (as, ss) → as.length = ss.length) →
          (∀ o ∈ added ops, ∀ as ss, o.supply = .ok (as, ss) → as.length = ss.length) →
          ∀ o ∈ (run sc0 ops).objects.getD [], ∀ as ss, o.supply = .ok (as, ss) → as.length = ss.length := by
        intro sc0 ops
        induction ops generalizing sc0 with
        | nil => intro h1 _; exact h1
        | cons op ops ih =>
          intro h1 h2
          have hfold : run sc0 (op :: ops) = run (step sc0 op) ops := rfl
          rw [hfold]
          apply ih
          · cases op with
            | add a =>
              cases a with
              | other => exact h1
              | obj o1 =>
                intro o ho
                simp only [step, addObject] at ho
                cases hob : sc0.objects with
                | none =>
                  rw [hob] at ho
                  simp only [Option.getD_some, List.mem_singleton] at ho
                  subst ho
                  exact h2 _ (by simp [added])
                | some l =>
                  rw [hob] at ho h1
                  simp only [Option.getD_some, List.mem_append, List.mem_singleton] at ho
                  rcases ho with ho | ho
                  · exact h1 o ho
                  · subst ho; exact h2 _ (by simp [added])
            | populate =>
              intro o ho as ss hs
              cases hob : sc0.objects with
              | none => simp [step, populate, hob] at ho
              | some l =>
                have hfr := populateObjs_frame l
                simp only [step, populate, hob] at ho
                cases hp : populateObjs l with
                | mk os' res =>
                  rw [hp] at ho hfr
                  have hin : o ∈ os' := by
                    cases res with
                    | error e => simpa using ho
                    | ok u =>
                      cases u
                      simp only [checks_sorted] at ho
                      simp only [Option.getD_some, sortObjects, mem_stableSort] at ho
                      exact ho
                  have : (o.priority, o.supply, o.interior) ∈ l.map (fun o => (o.priority, o.supply, o.interior)) := by
                    rw [← hfr]; exact List.mem_map_of_mem (f := fun o => (o.priority, o.supply, o.interior)) hin
                  obtain ⟨y, hy, hye⟩ := List.mem_map.mp this
                  have hys : y.supply = o.supply := by
                    have := (Prod.mk.inj (Prod.mk.inj hye).2).1; exact this
                  exact h1 y (by rw [hob]; simpa using hy) as ss (by rw [hys]; exact hs)
          · intro o ho
            apply h2
            cases op with
            | add a => cases a with
              | other => simpa [added] using ho
              | obj o1 => simp [added, ho]
            | populate => simpa [added] using ho
      exact key (empty b) ops (by simp [empty]) hwf o (by rw [← hsc, hobj]; simpa using ho) as ss hs
    cases hchk : sc.checks with
    | none =>
      exfalso
      cases os with
      | nil =>
        -- an empty (but not None) object list cannot arise
        have key : ∀ (sc0 : Scene P S) (ops : List (Op P S)), sc0.objects ≠ some [] →
            (run sc0 ops).objects ≠ some [] := by
          intro sc0 ops
          induction ops generalizing sc0 with
          | nil => intro h; exact h
          | cons op ops ih =>
            intro h
            have hfold : run sc0 (op :: ops) = run (step sc0 op) ops := rfl
            rw [hfold]
            apply ih
            cases op with
            | add a =>
              cases a with
              | other => exact h
              | obj o =>
                simp only [step, addObject]
                cases hob : sc0.objects with
                | none => simp
                | some l => simp
            | populate =>
              simp only [step, populate]
              cases hob : sc0.objects with
              | none => simp [hob]
              | some l =>
                have hl : l ≠ [] := by rintro rfl; exact h hob
                have hlen := populateObjs_length l
                have hne : ∀ l' : List (SceneObj P S), l'.length = l.length → l' ≠ [] := by
                  intro l' hl' hc; subst hc
                  exact hl (List.length_eq_zero_iff.mp hl'.symm)
                cases hp : populateObjs l with
                | mk os' res =>
                  rw [hp] at hlen
                  cases res with
                  | error e =>
                    simp only [hp, ne_eq, Option.some.injEq]
                    exact hne _ hlen
                  | ok u =>
                    cases u
                    simp only [hp, checks_sorted, ne_eq, Option.some.injEq]
                    exact hne _ (by simpa [sortObjects] using hlen)
        exact key (empty b) ops (by simp [empty]) (by rw [← hsc, hobj])
      | cons o os =>
        simp [allAtoms, gather, hobj, hchk, maskedOf, List.zipIdx_cons, bind, Except.bind] at hr
    | some c =>
      simp only [Fresh, hobj, hchk] at hf
      rcases hf with hf | ⟨hc, hcur, -⟩
      · exfalso
        -- reading fails at the first object without a mask
        have hcl : c.length < os.length := hf
        have : ∀ r, os.zipIdx.mapM (fun x => maskedOf Prod.fst (some c) x.1 x.2) ≠ Except.ok r := by
          intro r hrr
          have key : ∀ (l : List (SceneObj P S × ℕ)) r, l.mapM (fun x => maskedOf Prod.fst (some c) x.1 x.2) =
              Except.ok r → ∀ x ∈ l, x.2 < c.length := by
            intro l
            induction l with
            | nil => intro r _ x hx; simp at hx
            | cons y l ih =>
              intro r hrl x hx
              rw [List.mapM_cons] at hrl
              cases hy : maskedOf Prod.fst (some c) y.1 y.2 with
              | error e => rw [hy] at hrl; simp [bind, Except.bind] at hrl
              | ok v =>
                rw [hy] at hrl
                cases hl : l.mapM (fun x => maskedOf Prod.fst (some c) x.1 x.2) with
                | error e => rw [hl] at hrl; simp [bind, Except.bind] at hrl
                | ok w =>
                  rcases List.mem_cons.mp hx with rfl | hx
                  · by_contra hge
                    rw [maskedOf, pyGet_err (by omega)] at hy
                    simp [bind, Except.bind] at hy
                  · exact ih w hl x hx
          have hlast := key _ _ hrr (os[c.length], c.length) (by
            rw [List.mem_iff_getElem?]
            exact ⟨c.length, by simp [hcl]⟩)
          simp at hlast
        simp only [allAtoms, gather, hobj, hchk] at hr
        cases hm : os.zipIdx.mapM (fun x => maskedOf Prod.fst (some c) x.1 x.2) with
        | error e => rw [hm] at hr; simp [bind, Except.bind] at hr
        | ok w => exact this w hm
      · subst hc
        have hcur' : ∀ o ∈ os, ∃ as ss, o.cur = some (as, ss) ∧ as.length = ss.length := by
          intro o ho
          obtain ⟨h1, ⟨⟨as, ss⟩, h2⟩⟩ := hcur o ho
          exact ⟨as, ss, by rw [h1, h2]; rfl, hwf' o ho as ss h2⟩
        obtain ⟨as, ss, g1, g2, g3, g4⟩ := gather_contents sc os hobj hchk hcur'
        rw [g1] at hr
        have hr' := Except.ok.inj hr
        subst hr'
        have hbody : os.map (fun o => bodyOf (toObj o)) = os.map given := by
          apply List.map_congr_left
          intro o ho
          have : o = refreshed o := by
            obtain ⟨pr, su, cu, inn⟩ := o
            have := (hcur _ ho).1
            simp only at this
            simp [refreshed, this]
          rw [this]
          exact body_refreshed o
        rw [hbody] at g4
        have hfst : as = (as.zip ss).map Prod.fst := (List.map_fst_zip (by omega)).symm
        rw [hfst, g4]
        exact (contents_perm hperm).map Prod.fst

/-- Such histories exist with and without success: reading after an `add_object` that was not followed by
`populate` raises IndexError; after `populate` it succeeds. -/
example : allAtoms (run (empty (0, 10)) [.add (.obj exA), .populate, .add (.obj exB)]) = .error .index ∧
    allAtoms (run (empty (0, 10)) [.add (.obj exA), .populate, .add (.obj exB), .populate]) = .ok [2, 3, 0, 1] := by
  decide +kernel

/-- Any volume-like object whose atoms are interior to itself disappears when it is added a second time: the scene of
two references to it has no atoms at all. -/
theorem C09_duplicate_object_erases_itself (b : P × P) (o : SceneObj P S) (as : List P) (ss : List S)
    (hs : o.supply = .ok (as, ss)) (hl : as.length = ss.length) (hin : ∀ p ∈ as, o.interior p = true) :
    allAtoms (run (empty b) [.add (.obj o), .add (.obj o), .populate]) = .ok [] := by
  classical
  have hos : (run (empty b) [.add (.obj o), .add (.obj o)]).objects = some [o, o] := rfl
  have hpop : Populatable [o, o] := by
    intro x hx
    have : x = o := by simpa using hx
    subst this
    exact ⟨as, ss, hs, hl⟩
  obtain ⟨sc', as', ss', e1, e2, e3, e4, e5⟩ := C01_scene_contents _ _ hos hpop
  have hr : run (empty b) [.add (.obj o), .add (.obj o), .populate] =
      (populate (run (empty b) [.add (.obj o), .add (.obj o)])).1 := rfl
  rw [hr, e1]
  have hnil : contents ([o, o].map given) = [] := by
    rw [contents_eq, List.flatMap_eq_nil_iff]
    intro c hc
    rw [List.filter_eq_nil_iff]
    intro q hq
    have hc' : c = given o := by simpa using hc
    subst hc'
    have hq1 : q.1 ∈ as := by
      simp only [given, hs] at hq
      exact (List.of_mem_zip (a := q.1) (b := q.2) hq).1
    simp [keepCount, given, hin q.1 hq1]
  rw [hnil] at e5
  have hz := List.perm_nil.mp e5
  have : as' = [] := by
    have := congrArg List.length hz
    simp only [List.length_zip, List.length_nil] at this
    exact List.length_eq_zero_iff.mp (by omega)
  rw [e2, this]

/-- **C09 refuted.** Adding the same object twice loses its atoms. -/
theorem C09_duplicate_object_refuted :
    ¬ ∀ (b : ℤ × ℤ) (o : SceneObj ℤ ℕ) (r1 r2 : List ℤ),
      allAtoms (run (empty b) [.add (.obj o), .populate]) = .ok r1 →
      allAtoms (run (empty b) [.add (.obj o), .add (.obj o), .populate]) = .ok r2 →
      ∀ p, p ∈ r1 ↔ p ∈ r2 := by
  intro h
  have := h (0, 10) exA [0, 1, 2] [] (by decide +kernel) (by decide +kernel) 0
  simp at this

/-- **C09, the part that holds**: objects that contain none of their own atoms (molecules) may be added twice; the
set of positions stays the same.  Missing from the full statement: volumes, for which it is false. -/
theorem C09_duplicate_object_partial (b : P × P) (o : SceneObj P S) (as : List P) (ss : List S)
    (hs : o.supply = .ok (as, ss)) (hl : as.length = ss.length) (hin : ∀ p ∈ as, o.interior p = false) :
    ∃ r1 r2, allAtoms (run (empty b) [.add (.obj o), .populate]) = .ok r1 ∧
      allAtoms (run (empty b) [.add (.obj o), .add (.obj o), .populate]) = .ok r2 ∧
      ∀ p, p ∈ r1 ↔ p ∈ r2 := by
  classical
  have hpop : ∀ l : List (SceneObj P S), (∀ x ∈ l, x = o) → Populatable l := by
    intro l hall x hx
    rw [hall x hx]
    exact ⟨as, ss, hs, hl⟩
  have rows : ∀ (sc : Scene P S) (l : List (SceneObj P S)), sc.objects = some l → (∀ x ∈ l, x = o) → l ≠ [] →
      ∃ r, allAtoms (populate sc).1 = .ok r ∧ ∀ p, p ∈ r ↔ p ∈ as := by
    intro sc l hobj hall hne
    obtain ⟨sc', as', ss', e1, e2, e3, e4, e5⟩ := C01_scene_contents sc l hobj (hpop l hall)
    refine ⟨as', by rw [e1]; exact e2, ?_⟩
    intro p
    have h1 : p ∈ as' ↔ ∃ q ∈ as'.zip ss', q.1 = p := by
      conv_lhs => rw [← List.map_fst_zip (l₁ := as') (l₂ := ss') (by omega)]
      rw [List.mem_map]
    have h2 : p ∈ as ↔ ∃ q ∈ as.zip ss, q.1 = p := by
      conv_lhs => rw [← List.map_fst_zip (l₁ := as) (l₂ := ss) (by omega)]
      rw [List.mem_map]
    rw [h1, h2]
    have h3 : ∀ q, q ∈ as'.zip ss' ↔ q ∈ as.zip ss := by
      intro q
      rw [e5.mem_iff, contents_eq, List.mem_flatMap]
      constructor
      · rintro ⟨c, hc, hq⟩
        obtain ⟨x, hx, rfl⟩ := List.mem_map.mp hc
        rw [hall x hx] at hq
        have := (List.mem_filter.mp hq).1
        simpa [given, hs] using this
      · intro hq
        obtain ⟨x, hx⟩ := List.exists_mem_of_ne_nil l hne
        have hxo := hall x hx
        refine ⟨given x, List.mem_map_of_mem hx, ?_⟩
        rw [List.mem_filter]
        refine ⟨by rw [hxo]; simpa [given, hs] using hq, ?_⟩
        have hq1 : q.1 ∈ as := (List.of_mem_zip (a := q.1) (b := q.2) hq).1
        unfold keepCount
        rw [decide_eq_true_iff]
        have hx1 : (given x).inside q.1 = False := by
          rw [hxo]; simp [given, hin q.1 hq1]
        simp only [hx1, if_false]
        rw [List.countP_eq_zero]
        intro c hc
        obtain ⟨y, hy, rfl⟩ := List.mem_map.mp hc
        rw [hall y hy]
        simp [given, hin q.1 hq1]
    simp only [h3]
  obtain ⟨r1, a1, b1⟩ := rows (run (empty b) [.add (.obj o)]) [o] rfl (by simp) (by simp)
  obtain ⟨r2, a2, b2⟩ := rows (run (empty b) [.add (.obj o), .add (.obj o)]) [o, o] rfl (by simp) (by simp)
  exact ⟨r1, r2, a1, a2, fun p => by rw [b1, b2]⟩

example : (moleculeObj 0 [3, 7] [1, 1] : SceneObj ℤ ℕ).supply = .ok ([3, 7], [1, 1]) ∧
    ∀ p ∈ ([3, 7] : List ℤ), (moleculeObj 0 [3, 7] [1, 1] : SceneObj ℤ ℕ).interior p = false := by
  refine ⟨rfl, fun p _ => rfl⟩

/-- **C10 refuted.** Atoms outside the bounds stay in the scene: bounds 0..10, an atom at 20. -/
theorem C10_within_bounds_refuted :
    ¬ ∀ (sc : Scene ℤ ℕ) (r : List ℤ), allAtoms (populate sc).1 = .ok r →
      ∀ p ∈ r, sc.bounds.1 ≤ p ∧ p ≤ sc.bounds.2 := by
  intro h
  have := h (addObject (empty (0, 10)) (.obj ⟨0, .ok ([20], [6]), none, fun p => decide (15 ≤ p)⟩)) [20]
    (by decide +kernel) 20 (by simp)
  simp [addObject, empty] at this

/-- **C10, the part that holds**: if everything the objects supply lies in a region then so does the scene.
Missing: no clipping is done, so the hypothesis is needed. The bounds never influence the atoms at all. -/
theorem C10_within_bounds_partial (sc : Scene P S) (os : List (SceneObj P S)) (hos : sc.objects = some os)
    (h : Populatable os) (B : P → Prop)
    (hB : ∀ o ∈ os, ∀ as ss, o.supply = .ok (as, ss) → ∀ p ∈ as, B p) (r : List P)
    (hr : allAtoms (populate sc).1 = .ok r) :
    (∀ p ∈ r, B p) ∧ ∀ b, allAtoms (populate { sc with bounds := b }).1 = .ok r := by
  constructor
  · intro p hp
    obtain ⟨sc', as', ss', e1, e2, e3, e4, e5⟩ := C01_scene_contents sc os hos h
    rw [e1] at hr
    rw [e2] at hr; cases hr
    obtain ⟨k, hk, rfl⟩ := List.getElem_of_mem hp
    have hal := C06_rows_aligned sc os hos h r ss' (by rw [e1]; exact e2) (by rw [e1]; exact e3)
    have hk2 : k < ss'.length := by omega
    obtain ⟨o, ho, oas, oss, m, hs, hm, -⟩ := hal.2 k r[k] ss'[k] (List.getElem?_eq_getElem hk)
      (List.getElem?_eq_getElem hk2)
    exact hB o ho oas oss hs _ (List.mem_of_getElem? hm)
  · intro b
    rw [← hr, populate_state sc os hos h, populate_state { sc with bounds := b } os hos h]
    rfl

example : ∀ o ∈ ([exA, exB] : List (SceneObj ℤ ℕ)), ∀ as ss, o.supply = .ok (as, ss) → ∀ p ∈ as, 0 ≤ p ∧ p ≤ 10 := by
  intro o ho as ss hs p hp
  simp only [List.mem_cons, List.not_mem_nil, or_false] at ho
  rcases ho with rfl | rfl
  · cases hs; simp at hp; omega
  · cases hs; simp at hp; omega

/-! ### C11: writing files -/

/-- **C11, failure.** With any explicit format other than "prismatic" nothing is written and no error is raised. -/
theorem C11_other_formats_write_nothing {D : Type} (mk : List S → D) (sc : Scene P S) (fmt : String)
    (hf : fmt ≠ "prismatic") (dwf : Option D) :
    toFile mk sc ⟨some fmt, dwf⟩ = .ok [] := by
  simp [toFile, hf, pure, Except.pure]

/-- **C11, failure.** User-supplied Debye-Waller factors for "prismatic" always raise. -/
theorem C11_user_dwf_raises {D : Type} (mk : List S → D) (sc : Scene P S) (d : D) :
    ∃ e, toFile mk sc ⟨some "prismatic", some d⟩ = .error e := by
  simp only [toFile, if_true]
  cases h1 : allSpecies sc with
  | error e => exact ⟨e, rfl⟩
  | ok sp =>
    cases h2 : allAtoms sc with
    | error e => exact ⟨e, rfl⟩
    | ok a => exact ⟨_, rfl⟩

/-- **C11 refuted.** -/
theorem C11_to_file_refuted :
    ¬ ∀ (sc : Scene ℤ ℕ) (kw : FileArgs ℕ) (as : List ℤ) (ss : List ℕ), allAtoms sc = .ok as →
      allSpecies sc = .ok ss → ∃ w, toFile (fun _ => 0) sc kw = .ok [w] ∧ w.atoms = as ∧ w.species = ss := by
  intro h
  obtain ⟨w, hw, -⟩ := h (populate exScene).1 ⟨some "xyz", none⟩ [2, 3, 0, 5] [9, 10, 6, 12]
    (by decide +kernel) (by decide +kernel)
  rw [C11_other_formats_write_nothing _ _ _ (by decide)] at hw
  cases hw

/-- **C11, the part that holds**: without a format, or with "prismatic" and no user factors, the populated scene is
written exactly once with its atoms, species and bounds.  Missing: other formats, user factors. -/
theorem C11_to_file_partial {D : Type} (mk : List S → D) (sc : Scene P S) (as : List P) (ss : List S)
    (ha : allAtoms sc = .ok as) (hs : allSpecies sc = .ok ss) (dwf : Option D) :
    toFile mk sc ⟨none, dwf⟩ = .ok [⟨as, ss, sc.bounds, none, dwf⟩] ∧
    toFile mk sc ⟨some "prismatic", none⟩ = .ok [⟨as, ss, sc.bounds, some "prismatic", some (mk ss)⟩] := by
  simp [toFile, ha, hs, bind, Except.bind, pure, Except.pure]

example : ∃ as ss, allAtoms (populate exScene).1 = .ok as ∧ allSpecies (populate exScene).1 = .ok ss :=
  ⟨[2, 3, 0, 5], [9, 10, 6, 12], by decide +kernel, by decide +kernel⟩

end Scene
end CZ
