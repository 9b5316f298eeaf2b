import Verif.Scene
import Verif.PrecedenceLemmas
import Verif.Spec.Precedence

/-! # Lemmas: the scene model against the precedence specification -/

namespace CZ

open Spec (Body Survives contributed contents)

variable {P S : Type}

/-- "No other position satisfies `q`" is a statement about a count. -/
theorem others_iff_countP {α : Type} (q : α → Bool) (l : List α) (i : ℕ) (hi : i < l.length) :
    (∀ j (hj : j < l.length), j ≠ i → q l[j] = false) ↔
      l.countP q = if q l[i] then 1 else 0 := by
  induction l generalizing i with
  | nil => simp at hi
  | cons a l ih =>
    cases i with
    | zero =>
      simp only [List.getElem_cons_zero, List.countP_cons]
      constructor
      · intro h
        have : l.countP q = 0 := by
          rw [List.countP_eq_zero]
          intro x hx
          obtain ⟨k, hk, rfl⟩ := List.getElem_of_mem hx
          have := h (k+1) (by simpa using hk) (by omega)
          simpa using this
        rw [this]; simp
      · intro h j hj hne
        have h0 : l.countP q = 0 := by split at h <;> omega
        rw [List.countP_eq_zero] at h0
        cases j with
        | zero => exact absurd rfl hne
        | succ j =>
          have hj' : j < l.length := by simpa using hj
          simpa using h0 l[j] (List.getElem_mem hj')
    | succ i =>
      have hi' : i < l.length := by simpa using hi
      have ihi := ih i hi'
      simp only [List.getElem_cons_succ, List.countP_cons]
      constructor
      · intro h
        have h0 : q a = false := h 0 (by simp) (by omega)
        have h1 := ihi.mp (fun j hj hne => by
          have := h (j+1) (by simpa using hj) (by omega)
          simpa using this)
        rw [h1, h0]; simp
      · intro h
        by_cases ha : q a = true
        · exfalso
          rw [ha] at h
          by_cases hqi : q l[i] = true
          · have : 0 < l.countP q := List.countP_pos_iff.mpr ⟨_, List.getElem_mem hi', hqi⟩
            simp only [hqi, if_true] at h
            omega
          · rw [if_neg hqi] at h
            simp at h
        · have ha' : q a = false := by simpa using ha
          rw [ha'] at h
          have h1 := ihi.mpr (by simpa using h)
          intro j hj hne
          cases j with
          | zero => simpa using ha'
          | succ j =>
            have hj' : j < l.length := by simpa using hj
            simpa using h1 j hj' (by omega)

open Classical in
/-- Position-free form of survival: the bodies that could remove `x` from a body `b` of the list are counted. -/
noncomputable def keepCount (bs : List (Body P S)) (b : Body P S) (x : P) : Bool :=
  decide (bs.countP (fun c => decide (c.priority ≤ b.priority ∧ c.inside x)) =
    if b.inside x then 1 else 0)

theorem survives_iff_keepCount (bs : List (Body P S)) (i : Fin bs.length) (x : P) :
    Survives bs i x ↔ keepCount bs bs[i] x = true := by
  classical
  have h := others_iff_countP (fun c : Body P S => decide (c.priority ≤ bs[i].priority ∧ c.inside x))
    bs i i.isLt
  have hi : (decide (bs[(i:ℕ)].priority ≤ bs[i].priority ∧ bs[(i:ℕ)].inside x)) = decide (bs[i].inside x) := by
    simp
  rw [hi] at h
  rw [keepCount, decide_eq_true_iff]
  have e : (if decide (bs[i].inside x) = true then 1 else 0 : ℕ) = if bs[i].inside x then 1 else 0 := by
    simp
  rw [e] at h
  rw [← h]
  unfold Survives
  constructor
  · intro hs j hj hne
    have := hs ⟨j, hj⟩ (by intro hc; exact hne (by rw [← hc])) 
    simpa using this
  · intro hs j hne hle
    have := hs j j.isLt (fun hc => hne (Fin.ext hc))
    simp only [decide_eq_false_iff_not, not_and] at this
    exact this hle

/-- Position-free form of the contents. -/
theorem contents_eq (bs : List (Body P S)) :
    contents bs = bs.flatMap (fun b => b.sites.filter (fun q => keepCount bs b q.1)) := by
  classical
  have hbs : bs = (List.finRange bs.length).map (fun i => bs[i]) := by
    apply List.ext_getElem <;> simp
  unfold contents
  conv_rhs => rw [hbs]
  rw [List.flatMap_map]
  have hlen : bs = List.map (fun i : Fin bs.length => bs[i]) (List.finRange bs.length) := hbs
  rw [← hlen]
  congr 1
  funext i
  unfold contributed
  congr 1
  funext q
  rw [Bool.eq_iff_iff, decide_eq_true_iff]
  exact survives_iff_keepCount bs i q.1

theorem keepCount_perm {bs cs : List (Body P S)} (h : bs.Perm cs) (b : Body P S) (x : P) :
    keepCount bs b x = keepCount cs b x := by
  classical
  unfold keepCount
  rw [h.countP_eq]

/-- The contents of a scene do not depend on the order of the bodies. -/
theorem contents_perm {bs cs : List (Body P S)} (h : bs.Perm cs) : (contents bs).Perm (contents cs) := by
  rw [contents_eq, contents_eq]
  have : (fun b : Body P S => b.sites.filter (fun q => keepCount bs b q.1)) =
      (fun b => b.sites.filter (fun q => keepCount cs b q.1)) := by
    funext b; congr 1; funext q; exact keepCount_perm h b q.1
  rw [this]
  exact h.flatMap_right _

namespace Scene

/-- The body described by an object after `populate_atoms`. -/
def bodyOf (o : Obj P S) : Body P S :=
  { priority := o.priority, sites := o.atoms.zip o.species, inside := fun p => o.interior p = true }

theorem keepAt_iff (s : List (Obj P S)) (i : ℕ) (hi : i < s.length) (p : P) :
    Precedence.keepAt s i s[i].priority p = keepCount (s.map bodyOf) (bodyOf s[i]) p := by
  classical
  rw [Bool.eq_iff_iff]
  have hi' : i < (s.map bodyOf).length := by simpa using hi
  have h := survives_iff_keepCount (s.map bodyOf) ⟨i, hi'⟩ p
  have e : (s.map bodyOf)[(⟨i, hi'⟩ : Fin _)] = bodyOf s[i] := by simp
  rw [e] at h
  rw [← h]
  simp only [Precedence.keepAt, List.all_eq_true, List.mem_range, Survives]
  constructor
  · intro hk j hne hle
    have hj : (j : ℕ) < s.length := by simpa using j.isLt
    have := hk j hj
    have hji : ((j : ℕ) == i) = false := by
      simp only [beq_eq_false_iff_ne]; intro hc; exact hne (Fin.ext hc)
    simp only [Fin.getElem_fin, List.getElem_map, bodyOf] at hle ⊢
    simpa [hji, hj, hle] using this
  · intro hk j hj
    by_cases hji : j = i
    · simp [hji]
    · have hj' : j < (s.map bodyOf).length := by simpa using hj
      have := hk ⟨j, hj'⟩ (by intro hc; exact hji (congrArg Fin.val hc))
      simp only [Fin.getElem_fin, List.getElem_map, bodyOf] at this
      have hjb : (j == i) = false := by simpa using hji
      simp only [hjb, Bool.false_or]
      simp only [List.getElem?_eq_getElem hj, Option.map_some, Option.getD_some]
      by_cases hle : s[j].priority ≤ s[i].priority
      · simpa [hle] using this hle
      · simp [hle]

/-- Rows selected by the mask of an object, positions and species together. -/
theorem maskSel_zip_filter (f : P → Bool) (as : List P) (ss : List S) (h : as.length = ss.length) :
    (maskSel (as.map f) as).zip (maskSel (as.map f) ss) = (as.zip ss).filter (fun q => f q.1) := by
  rw [maskSel_zip _ _ _ h, ← maskSel_map (fun q : P × S => f q.1)]
  congr 1
  have : (as.zip ss).map Prod.fst = as := List.map_fst_zip (by omega)
  conv_lhs => rw [← this]
  rw [List.map_map]; rfl

theorem flatten_zip_flatten {α β : Type} (xs : List (List α)) (ys : List (List β))
    (h : xs.map List.length = ys.map List.length) :
    xs.flatten.zip ys.flatten = (List.zipWith List.zip xs ys).flatten := by
  induction xs generalizing ys with
  | nil => simp
  | cons x xs ih =>
    cases ys with
    | nil => simp at h
    | cons y ys =>
      simp only [List.map_cons, List.cons.injEq] at h
      simp only [List.flatten_cons, List.zipWith_cons_cons]
      rw [List.zip_append h.1, ih ys h.2]

/-- `populateObjs` on objects all of which can be populated. -/
theorem populateObjs_ok (os : List (SceneObj P S)) (h : ∀ o ∈ os, ∃ r, o.supply = .ok r) :
    populateObjs os = (os.map (fun o => { o with cur := o.supply.toOption }), .ok ()) := by
  induction os with
  | nil => rfl
  | cons o os ih =>
    obtain ⟨r, hr⟩ := h o (by simp)
    rw [populateObjs, ih (fun x hx => h x (by simp [hx])), List.map_cons, hr]
    simp only [Except.toOption]

/-- Whatever the outcome, priority, supply and interior test of the objects are unchanged by `populateObjs`. -/
theorem populateObjs_length (os : List (SceneObj P S)) : (populateObjs os).1.length = os.length := by
  induction os with
  | nil => rfl
  | cons o os ih =>
    rw [populateObjs]
    cases o.supply with
    | error e => simp
    | ok r => simp [ih]

theorem populateObjs_err {os : List (SceneObj P S)} {e : PyErr} (h : (populateObjs os).2 = .error e) :
    ∃ o ∈ os, o.supply = .error e := by
  induction os with
  | nil => simp [populateObjs] at h
  | cons o os ih =>
    rw [populateObjs] at h
    cases hs : o.supply with
    | error e' =>
      rw [hs] at h; simp at h
      exact ⟨o, by simp, by rw [hs, h]⟩
    | ok r =>
      rw [hs] at h
      obtain ⟨x, hx, hxe⟩ := ih h
      exact ⟨x, by simp [hx], hxe⟩

theorem sortObjects_map (os : List (SceneObj P S)) :
    (sortObjects os).map toObj = Precedence.sortObjs (os.map toObj) := by
  unfold sortObjects Precedence.sortObjs
  apply stableSort_map
  intro a b; rfl

/-- Masks computed by a successful `populate`. -/
def masks (s : List (SceneObj P S)) : List (List Bool) :=
  (s.map toObj).zipIdx.map (fun x => x.1.atoms.map (Precedence.keepAt (s.map toObj) x.2 x.1.priority))

theorem checks_sorted (os : List (SceneObj P S)) :
    Precedence.checks ((sortObjects os).map toObj) = .ok (masks (sortObjects os)) := by
  apply Precedence.checks_spec
  rw [sortObjects_map]
  exact Precedence.sortObjs_sorted _

/-- A populate call on objects that can all be populated succeeds, and this is the state afterwards. -/
theorem populate_ok (sc : Scene P S) (os : List (SceneObj P S)) (hos : sc.objects = some os)
    (h : ∀ o ∈ os, ∃ r, o.supply = .ok r) :
    populate sc =
      ({ sc with
          objects := some (sortObjects (os.map (fun o => { o with cur := o.supply.toOption })))
          checks := some (masks (sortObjects (os.map (fun o => { o with cur := o.supply.toOption })))) },
        .ok ()) := by
  unfold populate
  rw [hos]
  simp only [populateObjs_ok os h, checks_sorted]

/-- Gathering with the right masks never fails and concatenates the masked arrays. -/
theorem gather_masks {γ : Type} (f : List P × List S → List γ) (sc : Scene P S) (s : List (SceneObj P S))
    (hobj : sc.objects = some s) (hchk : sc.checks = some (masks s))
    (hcur : ∀ o ∈ s, ∃ r, o.cur = some r ∧ (f r).length = r.1.length) :
    gather f sc = .ok (s.zipIdx.map (fun x =>
      maskSel ((toObj x.1).atoms.map (Precedence.keepAt (s.map toObj) x.2 x.1.priority))
        (f (x.1.cur.getD ([], []))))).flatten := by
  unfold gather
  rw [hobj]
  have : s.zipIdx.mapM (fun x => maskedOf f sc.checks x.1 x.2) = Except.ok (s.zipIdx.map (fun x =>
      maskSel ((toObj x.1).atoms.map (Precedence.keepAt (s.map toObj) x.2 x.1.priority))
        (f (x.1.cur.getD ([], []))))) := by
    apply Precedence.mapM_ok
    rintro ⟨o, i⟩ hx
    obtain ⟨hi, ho⟩ := List.mem_zipIdx' hx
    have ho' : o = s[i]'hi := ho
    obtain ⟨r, hr, hl⟩ := hcur o (by rw [ho']; exact List.getElem_mem hi)
    have hm : (masks s)[i]? = some ((toObj o).atoms.map (Precedence.keepAt (s.map toObj) i o.priority)) := by
      simp [masks, hi, ho', toObj]
    simp only [maskedOf, hchk, pyGet, hm, bind, Except.bind, hr]
    have hat : (toObj o).atoms = r.1 := by simp [toObj, hr]
    rw [hat, npMask, if_pos (by simp [hl])]
    rfl
  simp only [this, bind, Except.bind, pure, Except.pure]

/-- Positions and species gathered with the masks of `populate`: same length, and together the specified contents. -/
theorem gather_contents (sc : Scene P S) (s : List (SceneObj P S))
    (hobj : sc.objects = some s) (hchk : sc.checks = some (masks s))
    (hcur : ∀ o ∈ s, ∃ as ss, o.cur = some (as, ss) ∧ as.length = ss.length) :
    ∃ as ss, allAtoms sc = .ok as ∧ allSpecies sc = .ok ss ∧ as.length = ss.length ∧
      as.zip ss = contents (s.map (fun o => bodyOf (toObj o))) := by
  have h1 := gather_masks Prod.fst sc s hobj hchk (by
    intro o ho; obtain ⟨as, ss, h, _⟩ := hcur o ho; exact ⟨_, h, rfl⟩)
  have h2 := gather_masks Prod.snd sc s hobj hchk (by
    intro o ho; obtain ⟨as, ss, h, hl⟩ := hcur o ho; exact ⟨_, h, hl.symm⟩)
  refine ⟨_, _, h1, h2, ?_, ?_⟩
  · rw [List.length_flatten, List.length_flatten, List.map_map, List.map_map]
    congr 1
    apply List.map_congr_left
    rintro ⟨o, i⟩ hx
    obtain ⟨hi, ho⟩ := List.mem_zipIdx' hx
    have ho' : o = s[i]'hi := ho
    obtain ⟨as, ss, h, hl⟩ := hcur o (by rw [ho']; exact List.getElem_mem hi)
    simp only [Function.comp, h, Option.getD_some]
    exact maskSel_length_eq _ _ _ hl
  · rw [flatten_zip_flatten]
    · rw [contents_eq, List.flatMap_def]
      congr 1
      apply List.ext_getElem
      · simp
      · intro i hi1 hi2
        have hi : i < s.length := by simpa using hi2
        obtain ⟨as, ss, h, hl⟩ := hcur s[i] (List.getElem_mem hi)
        simp only [List.getElem_zipWith, List.getElem_map, List.getElem_zipIdx, Nat.zero_add, h,
          Option.getD_some]
        have hat : (toObj s[i]).atoms = as := by simp [toObj, h]
        have hsp : (toObj s[i]).species = ss := by simp [toObj, h]
        rw [hat, maskSel_zip_filter _ _ _ hl]
        simp only [bodyOf, hat, hsp]
        congr 1
        funext q
        have hi' : i < (s.map toObj).length := by simpa using hi
        have := keepAt_iff (s.map toObj) i hi' q.1
        rw [List.getElem_map, List.map_map] at this
        simpa [toObj, bodyOf, Function.comp_def, h] using this
    · rw [List.map_map, List.map_map]
      apply List.map_congr_left
      rintro ⟨o, i⟩ hx
      obtain ⟨hi, ho⟩ := List.mem_zipIdx' hx
      have ho' : o = s[i]'hi := ho
      obtain ⟨as, ss, h, hl⟩ := hcur o (by rw [ho']; exact List.getElem_mem hi)
      simp only [Function.comp, h, Option.getD_some]
      exact maskSel_length_eq _ _ _ hl

end Scene
end CZ
