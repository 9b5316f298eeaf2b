import Verif.Notices
import Verif.Props.World
import Verif.Props.Molecule
import Verif.Props.VolumeMolecule

/-!
# Property C134: warnings
-/

namespace CZ
open Spec

/-- Whether an object is a molecule. -/
def Item.isMol : Item → Bool
  | .vol _ => false
  | .mol _ => true

/-- How often a molecule has the same or a smaller priority number than another object. -/
def rivals (xs : List Item) : ℕ :=
  ((List.finRange xs.length).map fun i => (List.finRange xs.length).countP fun j => decide (j ≠ i ∧ xs[j].isMol = true ∧ xs[j].priority ≤ xs[i].priority)).sum

theorem rivals_pos {xs : List Item} : rivals xs ≠ 0 ↔ ∃ i j : Fin xs.length, j ≠ i ∧ xs[j].isMol = true ∧ xs[j].priority ≤ xs[i].priority := by
  unfold rivals
  rw [Ne, List.sum_eq_zero_iff]
  simp only [List.mem_map, List.mem_finRange, true_and, forall_exists_index, forall_apply_eq_imp_iff, List.countP_eq_zero, decide_eq_true_eq, not_forall,
    not_not, exists_prop, not_and, forall_const]

theorem countP_ne {α : Type} [DecidableEq α] (q : α → Bool) (i : α) : ∀ L : List α, L.Nodup → i ∈ L →
    L.countP (fun j => decide (j ≠ i ∧ q j = true)) + (if q i = true then 1 else 0) = L.countP q := by
  intro L
  induction L with
  | nil => intro _ h; simp at h
  | cons a L ih =>
    intro hn hi
    rw [List.nodup_cons] at hn
    rw [List.countP_cons, List.countP_cons]
    by_cases ha : a = i
    · subst ha
      have : L.countP (fun j => decide (j ≠ a ∧ q j = true)) = L.countP q := by
        apply List.countP_congr
        intro j hj
        have : j ≠ a := fun h => hn.1 (h ▸ hj)
        simp [this]
      rw [this]
      simp
    · have h1 := ih hn.2 (by simpa [Ne.symm ha] using hi)
      rw [← h1]
      simp [ha]
      omega

theorem countP_others {α : Type} (p : α → Bool) (l : List α) (i : Fin l.length) :
    (List.finRange l.length).countP (fun j => decide (j ≠ i ∧ p l[j] = true)) + (if p l[i] = true then 1 else 0) = l.countP p := by
  have h1 : l.countP p = (List.finRange l.length).countP (fun j => p l[j]) := by
    conv_lhs => rw [show l = (List.finRange l.length).map (fun j => l[j]) by apply List.ext_getElem <;> simp]
    rw [List.countP_map]
    rfl
  rw [h1]
  exact countP_ne (fun j : Fin l.length => p l[j]) i _ (List.nodup_finRange _) (List.mem_finRange i)

/-- The same without indices. -/
theorem rivals_eq (xs : List Item) : rivals xs =
    (xs.map fun b => xs.countP (fun c => decide (c.isMol = true ∧ c.priority ≤ b.priority)) - if b.isMol = true then 1 else 0).sum := by
  unfold rivals
  conv_rhs => rw [show xs.map (fun b => xs.countP (fun c => decide (c.isMol = true ∧ c.priority ≤ b.priority)) - if b.isMol = true then 1 else 0) =
    (List.finRange xs.length).map (fun i => xs.countP (fun c => decide (c.isMol = true ∧ c.priority ≤ xs[i].priority)) - if xs[i].isMol = true then 1 else 0) by
      apply List.ext_getElem <;> simp]
  congr 1
  apply List.map_congr_left
  intro i _
  have := countP_others (fun c : Item => decide (c.isMol = true ∧ c.priority ≤ xs[i].priority)) xs i
  simp only [decide_eq_true_eq, le_refl, and_true] at this
  omega

theorem rivals_perm {xs ys : List Item} (h : xs.Perm ys) : rivals xs = rivals ys := by
  rw [rivals_eq, rivals_eq]
  have : (fun b : Item => xs.countP (fun c => decide (c.isMol = true ∧ c.priority ≤ b.priority)) - if b.isMol = true then 1 else 0) =
      fun b => ys.countP (fun c => decide (c.isMol = true ∧ c.priority ≤ b.priority)) - if b.isMol = true then 1 else 0 := by
    funext b; rw [h.countP_eq]
  rw [this]
  exact (h.map _).sum_eq

theorem rivals_congr {xs ys : List Item} (h : xs.map (fun x => (x.isMol, x.priority)) = ys.map fun x => (x.isMol, x.priority)) : rivals xs = rivals ys := by
  rw [rivals_eq, rivals_eq]
  have e : ∀ zs : List Item, (zs.map fun b => zs.countP (fun c => decide (c.isMol = true ∧ c.priority ≤ b.priority)) - if b.isMol = true then 1 else 0) =
      (zs.map fun x => (x.isMol, x.priority)).map fun b : Bool × ℤ =>
        (zs.map fun x => (x.isMol, x.priority)).countP (fun c => decide (c.1 = true ∧ c.2 ≤ b.2)) - if b.1 = true then 1 else 0 := by
    intro zs
    rw [List.map_map]
    apply List.map_congr_left
    intro b _
    simp only [Function.comp, List.countP_map]
    rfl
  rw [e, e, h]

/-- The calls made by the loop on a sorted list. -/
theorem Precedence.asked_spec {P S : Type} (s : List (Obj P S)) (hs : (s.map (·.priority)).Pairwise (· ≤ ·)) (q : ℕ → ℤ)
    (hq : ∀ k (hk : k < s.length), q k = s[k].priority) :
    Precedence.asked s = .ok ((List.range s.length).flatMap fun i => (List.range s.length).filter fun j => decide (j ≠ i ∧ q j ≤ q i)) := by
  unfold Precedence.asked
  rw [Precedence.mapM_ok _ (fun x : Obj P S × ℕ => (List.range s.length).filter fun j => decide (j ≠ x.2 ∧ q j ≤ q x.2))]
  · simp only [bind, Except.bind, pure, Except.pure]
    congr 1
    rw [List.flatMap_def]
    congr 1
    apply List.ext_getElem
    · simp
    · intro k h1 h2
      simp only [List.getElem_map, List.getElem_zipIdx, Nat.zero_add, List.getElem_range]
  · rintro ⟨o, i⟩ hx
    obtain ⟨hi, ho⟩ := List.mem_zipIdx' hx
    have ho' : o = s[i]'hi := ho
    clear ho hx
    subst ho'
    have hi' : i < (s.map (·.priority)).length := by simpa using hi
    obtain ⟨lvl, e, h1, h2, h3, h4⟩ := Precedence.eidx_spec (s.map (·.priority)) hs i hi'
    simp only [List.length_map] at h1 h2 h3 h4
    simp only [Precedence.getPriorities, pyGet, h1, h2, bind, Except.bind, pure, Except.pure]
    congr 1
    have hr : (List.range s.length).filter (fun k => decide (k < e)) = List.range e := by
      obtain ⟨d, hd⟩ := Nat.exists_eq_add_of_le h3
      rw [hd, List.range_add, List.filter_append, List.filter_eq_self.mpr (by simp), List.filter_eq_nil_iff.mpr (by simp), List.append_nil]
    rw [← hr, List.filter_filter]
    apply List.filter_congr
    intro j hj
    have hj := List.mem_range.mp hj
    have := h4 j hj
    simp only [List.getElem_map] at this
    rw [Bool.eq_iff_iff]
    simp only [Bool.and_eq_true, decide_eq_true_eq, hq j hj, hq i hi, this]
    tauto

theorem rivals_range (s : List Item) (q : ℕ → ℤ) (hq : ∀ k (hk : k < s.length), q k = s[k].priority) :
    rivals s = ((List.range s.length).map fun i => (List.range s.length).countP fun j =>
      decide ((j ≠ i ∧ q j ≤ q i) ∧ (s[j]?.map Item.isMol).getD false = true)).sum := by
  unfold rivals
  have hf : (List.finRange s.length).map (fun j : Fin s.length => (j : ℕ)) = List.range s.length := by
    apply List.ext_getElem <;> simp
  rw [← hf, List.map_map]
  congr 1
  apply List.map_congr_left
  intro i _
  simp only [Function.comp, List.countP_map]
  apply List.countP_congr
  intro j _
  simp only [Function.comp, decide_eq_true_eq, hq _ i.isLt, hq _ j.isLt, List.getElem?_eq_getElem j.isLt, Option.map_some, Option.getD_some, Fin.getElem_fin,
    Ne, Fin.ext_iff]
  tauto

theorem World.kinds {env : Env} : ∀ (xs : List Item) (n : ℕ) (xs' : List Item) (n' : ℕ), Balanced xs → Item.populateList env xs n = (xs', n', .ok ()) →
    xs'.map (fun x => (x.isMol, x.priority)) = xs.map fun x => (x.isMol, x.priority) := by
  intro xs
  induction xs with
  | nil =>
    intro n xs' n' _ h
    simp only [Item.populateList, Prod.mk.injEq] at h
    rw [← h.1]
  | cons x xs ih =>
    intro n xs' n' hb h
    rw [Item.populateList] at h
    rcases hp : x.populate env n with ⟨x', m, r⟩
    rw [hp] at h
    cases r with
    | error e => simp at h
    | ok u =>
      simp only [Prod.mk.injEq] at h
      obtain ⟨rfl, h2⟩ := h
      have := ih m (Item.populateList env xs m).1 n' (fun y hy => hb y (List.mem_cons_of_mem _ hy)) (Prod.ext rfl h2)
      rw [List.map_cons, List.map_cons, this]
      obtain ⟨cs, hcs⟩ := Item.populate_spec env x (fun y hy => hb y (by rw [hy]; exact List.mem_cons_self)) n x' m hp
      congr 1
      refine Prod.ext ?_ hcs.prio
      cases x with
      | vol t =>
        simp only [Item.populate, Prod.mk.injEq] at hp
        rw [← hp.1]; rfl
      | mol m' =>
        simp only [Item.populate, Prod.mk.injEq] at hp
        rw [← hp.1]

theorem flatMap_filter_one {α β : Type} (p r : α → Bool) (x : β) : ∀ L : List α,
    (L.filter p).flatMap (fun j => if r j = true then [x] else []) = List.replicate (L.countP fun j => p j && r j) x := by
  intro L
  induction L with
  | nil => rfl
  | cons a L ih =>
    rw [List.countP_cons, List.filter_cons]
    cases hp : p a <;> cases hr : r a <;> simp [ih, hr, List.replicate_succ]

theorem flatMap_replicate {α β : Type} (f : α → ℕ) (x : β) : ∀ L : List α, L.flatMap (fun i => List.replicate (f i) x) = List.replicate (L.map f).sum x := by
  intro L
  induction L with
  | nil => rfl
  | cons a L ih => rw [List.flatMap_cons, ih, List.map_cons, List.sum_cons, List.replicate_append_replicate]

open Classical in
theorem contents_map {α P S : Type} (f : α → Body P S) (l : List α) : contents (l.map f) = (List.finRange l.length).flatMap fun i =>
    (f l[i]).sites.filter fun q => decide (∀ j : Fin l.length, j ≠ i → (f l[j]).priority ≤ (f l[i]).priority → ¬ (f l[j]).inside q.1) := by
  have hl : l.length = (l.map f).length := by simp
  have hf : List.finRange (l.map f).length = (List.finRange l.length).map (Fin.cast hl) := by
    apply List.ext_getElem <;> simp
  unfold contents
  rw [hf, List.flatMap_map]
  congr 1
  funext i
  unfold contributed
  have : (l.map f)[Fin.cast hl i] = f l[i] := by simp
  rw [this]
  apply List.filter_congr
  intro q _
  rw [decide_eq_decide]
  unfold Survives
  constructor
  · intro h j hj
    have := h (Fin.cast hl j) (by intro e; apply hj; ext; have := congrArg Fin.val e; simpa using this)
    simpa using this
  · intro h j hj
    have := h (Fin.cast hl.symm j) (by intro e; apply hj; ext; have := congrArg Fin.val e; simpa using this)
    simpa using this

/-- **C134 (how often).** `populate()` that returns warns once for every molecule and every other object whose priority number is at least that of the
molecule; `print_warnings` makes no difference. -/
theorem C134_count (env : Env) (w w' : World) (n n' : ℕ) (xs : List Item) (hx : w.objects = some xs) (hm : Balanced xs)
    (h : w.populate env n = (w', n', .ok ())) : w.populateWarnings env n = List.replicate (rivals xs) .interior := by
  unfold World.populate at h
  unfold World.populateWarnings
  rw [hx] at h ⊢
  simp only at h ⊢
  rcases hl : Item.populateList env xs n with ⟨xs', m, r⟩
  rw [hl] at h
  cases r with
  | error e => simp at h
  | ok u =>
    simp only
    clear h
    set s := stableSort Item.priority xs' with hs
    have hsort : (((s.map (Item.view env)).map Scene.toObj).map (·.priority)).Pairwise (· ≤ ·) := by
      rw [List.map_map, List.map_map, List.pairwise_map]
      exact stableSort_sorted Item.priority xs'
    have hq : ∀ k (hk : k < s.length), (s[k]?.map Item.priority).getD 0 = s[k].priority := by
      intro k hk
      simp [List.getElem?_eq_getElem hk]
    rw [Precedence.asked_spec _ hsort (fun k => (s[k]?.map Item.priority).getD 0) (by
      intro k hk
      simp only [List.length_map] at hk
      simp only [hq k hk, List.getElem_map]
      rfl)]
    have e1 : rivals xs = rivals s := by
      rw [rivals_perm (stableSort_perm Item.priority xs'), rivals_congr (World.kinds xs n xs' m hm hl)]
    rw [e1, rivals_range s _ hq]
    simp only [List.length_map]
    generalize (fun k : ℕ => (s[k]?.map Item.priority).getD 0) = q
    rw [List.flatMap_assoc]
    have hw : (fun j : ℕ => (s[j]?.map Item.interiorWarnings).getD []) = fun j => if (s[j]?.map Item.isMol).getD false = true then [Warning.interior] else [] := by
      funext j
      rcases s[j]? with _ | (t | m0) <;> rfl
    rw [hw]
    simp only [flatMap_filter_one]
    rw [flatMap_replicate]
    congr 2
    apply List.map_congr_left
    intro i _
    apply List.countP_congr
    intro j _
    simp

/-- **C134 (when).** `populate()` warns exactly if a molecule has the same or a smaller priority number than another object. -/
theorem C134_when (env : Env) (w w' : World) (n n' : ℕ) (xs : List Item) (hx : w.objects = some xs) (hm : Balanced xs)
    (h : w.populate env n = (w', n', .ok ())) :
    w.populateWarnings env n ≠ [] ↔ ∃ i j : Fin xs.length, j ≠ i ∧ (∃ m, xs[j] = .mol m) ∧ xs[j].priority ≤ xs[i].priority := by
  have hmol : ∀ x : Item, x.isMol = true ↔ ∃ m, x = .mol m := by
    intro x; cases x <;> simp [Item.isMol]
  rw [C134_count env w w' n n' xs hx hm h, Ne, List.replicate_eq_nil_iff, ← Ne, rivals_pos]
  simp only [hmol]

/-- **C134 (exceptions).** `populate()` that raises has not warned. -/
theorem C134_raises (env : Env) (w : World) (n : ℕ) (xs : List Item) (hx : w.objects = some xs) (hm : Balanced xs) (e : PyErr)
    (h : (w.populate env n).2.2 = .error e) : w.populateWarnings env n = [] := by
  unfold World.populate at h
  unfold World.populateWarnings
  rw [hx] at h ⊢
  simp only at h ⊢
  rcases hl : Item.populateList env xs n with ⟨xs', m, r⟩
  rw [hl] at h
  cases r with
  | error e => rfl
  | ok u =>
    exfalso
    simp only at h
    obtain ⟨parts, hp1, hp2, hp3⟩ := Item.populateList_spec env xs hm n xs' m hl
    obtain ⟨c, as, ss, hc, -⟩ := World.resolved env xs' (by
      intro x hx
      rw [← hp2] at hx
      obtain ⟨y, hy, rfl⟩ := List.mem_map.mp hx
      obtain ⟨as, ss, h1, h2, -⟩ := (hp3 y hy).held
      exact ⟨as, ss, h1, h2⟩) w
    rw [hc] at h
    simp at h

/-- **C134 (silence).** If `populate()` does not warn, then it does not matter that molecules claim no space: whatever regions `R` were given to them, the
precedence rule would leave the same atoms in the scene. -/
theorem C134_silent (env : Env) (w w' : World) (n n' : ℕ) (xs : List Item) (hx : w.objects = some xs) (hm : Balanced xs)
    (h : w.populate env n = (w', n', .ok ())) (hs : w.populateWarnings env n = []) (R : Mol ℝ → V3 ℝ → Prop) :
    ∃ as ss, w'.allAtoms env = .ok as ∧ w'.allSpecies env = .ok ss ∧ as.length = ss.length ∧
      ∃ parts : List (Item × List (V3 ℝ × ℤ)), parts.map Prod.fst = xs ∧ (∀ x ∈ parts, Holds env x.1 x.2) ∧
        (as.zip ss).Perm (contents (parts.map fun x => ⟨x.1.priority, x.2, fun p => match x.1 with
          | .vol t => Inside env t p
          | .mol m => R m p⟩)) := by
  classical
  obtain ⟨as, ss, h1, h2, h3, parts, h4, h5, h6⟩ := C95_scene_contents env w w' n n' xs hx hm h
  refine ⟨as, ss, h1, h2, h3, parts, h4, h5, ?_⟩
  have hno := (not_congr (C134_when env w w' n n' xs hx hm h)).mp (by simp [hs])
  have e : contents (parts.map fun x => (⟨x.1.priority, x.2, Occupies env x.1⟩ : Body (V3 ℝ) ℤ)) =
      contents (parts.map fun x => (⟨x.1.priority, x.2, fun p => match x.1 with
          | .vol t => Inside env t p
          | .mol m => R m p⟩ : Body (V3 ℝ) ℤ)) := by
    subst h4
    rw [contents_map, contents_map]
    congr 1
    funext i
    apply List.filter_congr
    intro q _
    rw [decide_eq_decide]
    apply forall_congr'
    intro j
    apply forall_congr'
    intro hj
    apply forall_congr'
    intro hle
    apply not_congr
    rcases hp : parts[j].1 with t | m
    · simp only [hp, Occupies]
    · exfalso
      apply hno
      refine ⟨Fin.cast (by simp) i, Fin.cast (by simp) j, ?_, ⟨m, ?_⟩, ?_⟩
      · intro e; apply hj; ext; have := congrArg Fin.val e; simpa using this
      · simpa using hp
      · simpa using hle
  rw [← e]
  exact h6

/-- Concrete case: a ball of crystal and two molecules; the molecule of priority 0 has a number at most that of the ball (0) and that of the other molecule (1);
the latter rivals nothing.  `print_warnings` is off for both. -/
example (env : Env) (b : V3 ℝ × V3 ℝ) : ∃ w' n', World.populate env
      ⟨some [.vol (.vol (unitBall 0)), .mol ⟨[⟨3, 0, 0⟩], [8], 1, 1, true, some 0, none, false⟩, .mol ⟨[⟨4, 0, 0⟩], [8], 0, 1, true, some 0, none, false⟩], none, b⟩ 0 = (w', n', .ok ()) ∧
    World.populateWarnings env
      ⟨some [.vol (.vol (unitBall 0)), .mol ⟨[⟨3, 0, 0⟩], [8], 1, 1, true, some 0, none, false⟩, .mol ⟨[⟨4, 0, 0⟩], [8], 0, 1, true, some 0, none, false⟩], none, b⟩ 0 =
        [.interior, .interior] := by
  have hm : ∀ x ∈ [Item.vol (.vol (unitBall 0)), .mol ⟨[⟨3, 0, 0⟩], [8], 1, 1, true, some 0, none, false⟩, .mol ⟨[⟨4, 0, 0⟩], [8], 0, 1, true, some 0, none, false⟩],
      Movable env Axes.none x := by
    intro x hx
    simp only [List.mem_cons, List.not_mem_nil, or_false] at hx
    rcases hx with rfl | rfl | rfl
    · exact .vol _ (.vol _ _ _ _ (.ball (unitBall_crystal env)))
    · exact .mol _ ⟨3, 0, 0⟩ rfl rfl
    · exact .mol _ ⟨4, 0, 0⟩ rfl rfl
  obtain ⟨w', n', h⟩ := C95_populate_succeeds env ⟨_, none, b⟩ 0 _ rfl (Movable.balanced hm) (Movable.supplying hm)
  refine ⟨w', n', h, ?_⟩
  rw [C134_count env _ w' 0 n' _ rfl (Movable.balanced hm) h]
  have : rivals [Item.vol (.vol (unitBall 0)), .mol ⟨[⟨3, 0, 0⟩], [8], 1, 1, true, some 0, none, false⟩, .mol ⟨[⟨4, 0, 0⟩], [8], 0, 1, true, some 0, none, false⟩] = 2 := by
    rw [rivals_eq]
    simp [Item.isMol, Item.priority, unitBall, VTree.priority]
  rw [this]
  rfl

/-- Concrete case: the same ball and one molecule of priority 1: nothing is warned of. -/
example (env : Env) (b : V3 ℝ × V3 ℝ) : ∃ w' n', World.populate env
      ⟨some [.vol (.vol (unitBall 0)), .mol ⟨[⟨3, 0, 0⟩], [8], 1, 1, true, some 0, none, true⟩], none, b⟩ 0 = (w', n', .ok ()) ∧
    World.populateWarnings env ⟨some [.vol (.vol (unitBall 0)), .mol ⟨[⟨3, 0, 0⟩], [8], 1, 1, true, some 0, none, true⟩], none, b⟩ 0 = [] := by
  have hm : ∀ x ∈ [Item.vol (.vol (unitBall 0)), .mol ⟨[⟨3, 0, 0⟩], [8], 1, 1, true, some 0, none, true⟩], Movable env Axes.none x := by
    intro x hx
    simp only [List.mem_cons, List.not_mem_nil, or_false] at hx
    rcases hx with rfl | rfl
    · exact .vol _ (.vol _ _ _ _ (.ball (unitBall_crystal env)))
    · exact .mol _ ⟨3, 0, 0⟩ rfl rfl
  obtain ⟨w', n', h⟩ := C95_populate_succeeds env ⟨_, none, b⟩ 0 _ rfl (Movable.balanced hm) (Movable.supplying hm)
  refine ⟨w', n', h, ?_⟩
  rw [C134_count env _ w' 0 n' _ rfl (Movable.balanced hm) h]
  have : rivals [Item.vol (.vol (unitBall 0)), .mol ⟨[⟨3, 0, 0⟩], [8], 1, 1, true, some 0, none, true⟩] = 0 := by
    rw [rivals_eq]
    simp [Item.isMol, Item.priority, unitBall, VTree.priority]
  rw [this]
  rfl

namespace Mol
section
variable {K : Type} [Field K] [LinearOrder K] [IsStrictOrderedRing K]

/-- **C134 (transform).** `transform` of a molecule whose origin can be read warns once if it is asked to carry the origin along, the origin tracks an atom and
`print_warnings` is set, and names that atom; otherwise it does not warn.  The warning changes nothing: the molecule afterwards is the one obtained with
`print_warnings` off, except for that attribute. -/
theorem C134_transform (m : Mol K) (hl : m.species.length = m.atoms.length) (o : V3 K) (ho : m.origin = .ok o) (t : Tr K) (b : Bool) :
    m.transformWarnings t b = (if b = true ∧ m.tracking = true ∧ m.printWarnings = true then (m.originIdx.map Warning.tracking).toList else []) ∧
    (m.tracking = true → m.originIdx ≠ none) ∧
    ∃ m', m.transform t b = (m', .ok ()) ∧ ({ m with printWarnings := false } : Mol K).transform t b = ({ m' with printWarnings := false }, .ok ()) := by
  have hidx : m.tracking = true → m.originIdx ≠ none := by
    intro ht hn
    unfold origin at ho
    rw [if_pos ht, hn] at ho
    cases ho
  have hl' : ({ m with printWarnings := false } : Mol K).species.length = ({ m with printWarnings := false } : Mol K).atoms.length := hl
  refine ⟨?_, hidx, ?_⟩
  · unfold transformWarnings
    rw [transform_setAtoms m hl t]
    cases b <;> cases ht : m.tracking <;> cases hp : m.printWarnings <;> simp [ht, hp]
    cases hi : m.originIdx with
    | none => exact absurd hi (hidx ht)
    | some i => rfl
  · unfold transform
    have e := transform_setAtoms _ hl' t
    simp only at e
    rw [transform_setAtoms m hl t]
    simp only [e]
    cases b
    · exact ⟨_, rfl, rfl⟩
    · cases ht : m.tracking
      · unfold origin at ho
        rw [if_neg (by simp [ht])] at ho
        cases hp : m.originPt with
        | none => rw [hp] at ho; cases ho
        | some q => simp [origin, setOriginPoint, ht, hp]
      · have := hidx ht
        simp [this]

theorem step_printWarnings (m : Mol K) (op : Op K) (h : ∀ b, op ≠ .printWarnings b) : (m.step op).1.printWarnings = m.printWarnings := by
  have hA : ∀ (m : Mol K) s p, (m.setAtoms s p).1.printWarnings = m.printWarnings := by
    intro m s p; unfold setAtoms; repeat' split
    all_goals rfl
  have hP : ∀ (m : Mol K) x, (m.setOriginPoint x).1.printWarnings = m.printWarnings := by
    intro m x; unfold setOriginPoint; repeat' split
    all_goals rfl
  have hI : ∀ (m : Mol K) x, (m.setOriginByIdx x).1.printWarnings = m.printWarnings := by
    intro m x; unfold setOriginByIdx setOriginIdx; repeat' split
    all_goals rfl
  have hO : ∀ (m : Mol K) x, (m.setOrientation x).1.printWarnings = m.printWarnings := by
    intro m x; unfold setOrientation; repeat' split
    all_goals rfl
  cases op with
  | setAtoms s p => exact hA m s p
  | updatePositions p =>
    simp only [step, updatePositions]; repeat' split
    all_goals rfl
  | updateSpecies s =>
    simp only [step, updateSpecies]; repeat' split
    all_goals rfl
  | removeAtoms i n =>
    simp only [step, removeAtoms]; repeat' split
    all_goals rfl
  | setOriginPoint x => exact hP m x
  | setOriginIdx x => exact hI m x
  | setPriority x => cases x <;> rfl
  | setOrientation M => exact hO m M
  | resetOrientation => exact hO m _
  | transform t b =>
    simp only [step, transform]
    rcases hs : m.setAtoms m.species (flat3 (m.atoms.map t.apply)) with ⟨m1, r⟩
    have h1 := hA m m.species (flat3 (m.atoms.map t.apply))
    rw [hs] at h1
    simp only at h1
    repeat' split
    all_goals first | exact h1 | skip
    all_goals simp_all
  | printWarnings b => exact absurd rfl (h b)

/-- **C134 (print_warnings=False).** As long as nobody turns it on again, no call on the molecule warns. -/
theorem C134_switched_off (m : Mol K) (ops : List (Op K)) (h : ∀ op ∈ ops, op ≠ .printWarnings true) :
    m.runWarnings (.printWarnings false :: ops) = [] := by
  have key : ∀ (ops : List (Op K)) (m : Mol K), m.printWarnings = false → (∀ op ∈ ops, op ≠ .printWarnings true) → m.runWarnings ops = [] := by
    intro ops
    induction ops with
    | nil => intro m _ _; rfl
    | cons op ops ih =>
      intro m hm hops
      have h1 : (m.step op).1.printWarnings = false := by
        by_cases hb : ∃ b, op = .printWarnings b
        · obtain ⟨b, rfl⟩ := hb
          cases b
          · rfl
          · exact absurd rfl (hops _ List.mem_cons_self)
        · rw [step_printWarnings m op (fun b e => hb ⟨b, e⟩), hm]
      rw [runWarnings, ih _ h1 (fun x hx => hops x (List.mem_cons_of_mem _ hx)), List.append_nil]
      cases op with
      | transform t b =>
        simp only [stepWarnings, transformWarnings]
        rcases hs : m.setAtoms m.species (flat3 (m.atoms.map t.apply)) with ⟨m1, r⟩
        have hp : m1.printWarnings = false := by
          have := step_printWarnings m (.setAtoms m.species (flat3 (m.atoms.map t.apply))) (by simp)
          rw [step, hs] at this
          simpa [hm] using this
        cases r with
        | error e => rfl
        | ok u => simp [hp]
      | _ => rfl
  rw [runWarnings, key ops _ rfl h]
  rfl

/-- **C134 (from_molecule).** One warning for every transformation in the list if the origin tracks an atom and `print_warnings` is set, else none. -/
theorem C134_from_molecule (m : Mol K) (hl : m.species.length = m.atoms.length) (o : V3 K) (ho : m.origin = .ok o) (ts : List (Tr K)) :
    m.runWarnings (ts.map fun t => .transform t true) =
      if m.tracking = true ∧ m.printWarnings = true then (List.replicate ts.length ((m.originIdx.map Warning.tracking).toList)).flatten else [] := by
  induction ts generalizing m o with
  | nil => simp [runWarnings]
  | cons t ts ih =>
    obtain ⟨m1, h1, ha, hs, -, -, h2⟩ := C75_origin_moves m hl o ho t
    have hx : m1.tracking = m.tracking ∧ m1.printWarnings = m.printWarnings ∧ m1.originIdx = m.originIdx := by
      have h1' := h1
      unfold transform at h1'
      rw [transform_setAtoms m hl t] at h1'
      simp only [if_true] at h1'
      cases ht : m.tracking
      · simp only [ht, Bool.false_eq_true, if_false] at h1'
        split at h1'
        · cases h1'
        · simp only [setOriginPoint] at h1'
          cases h1'
          exact ⟨rfl, rfl, rfl⟩
      · simp only [ht, if_true] at h1'
        split at h1'
        · cases h1'
        · cases h1'
          exact ⟨rfl, rfl, rfl⟩
    rw [List.map_cons, runWarnings, stepWarnings, (C134_transform m hl o ho t true).1, step, h1, ih m1 (by rw [hs, ha, hl, List.length_map]) _ h2, hx.1, hx.2.1, hx.2.2]
    simp only [true_and]
    by_cases hc : m.tracking = true ∧ m.printWarnings = true
    · simp only [if_pos hc, List.length_cons, List.replicate_succ, List.flatten_cons]
    · simp only [if_neg hc, List.append_nil]

/-- **C134 (what the text says).** "Origin will not be transformed" is not what happens: whenever `transform` warns, the origin read afterwards is the image
of the one read before. -/
theorem C134_tracking_partial (m : Mol K) (hl : m.species.length = m.atoms.length) (o : V3 K) (ho : m.origin = .ok o) (t : Tr K) (b : Bool)
    (hw : m.transformWarnings t b ≠ []) : (m.transform t b).1.origin = .ok (t.apply o) := by
  rw [(C134_transform m hl o ho t b).1] at hw
  have hb : b = true := by
    by_contra hb
    exact hw (if_neg (fun h => hb h.1))
  subst hb
  obtain ⟨m', h1, -, -, -, -, h2⟩ := C75_origin_moves m hl o ho t
  rw [h1]
  exact h2

end
end Mol

/-- Concrete cases: two warnings of a molecule that tracks its last atom, none after the switch. -/
example : Mol.runWarnings (⟨[⟨1, 0, 0⟩, ⟨0, 2, 0⟩], [6, 8], 0, 1, true, some (-1), none, true⟩ : Mol ℚ)
      ([.translation ⟨1, 0, 0⟩ true false, .translation ⟨0, 1, 0⟩ true false].map fun t => .transform t true) = [.tracking (-1), .tracking (-1)] ∧
    Mol.runWarnings (⟨[⟨1, 0, 0⟩, ⟨0, 2, 0⟩], [6, 8], 0, 1, true, some (-1), none, true⟩ : Mol ℚ)
      [.printWarnings false, .transform (.translation ⟨1, 0, 0⟩ true false) true, .setOriginIdx (.int 0)] = [] := by
  constructor
  · rw [Mol.C134_from_molecule _ rfl ⟨0, 2, 0⟩ (by decide +kernel)]
    rfl
  · exact Mol.C134_switched_off _ _ (by simp)

/-- **C134 (what the text says, refuted).** A molecule that warns that its origin will not be transformed, and whose origin is somewhere else afterwards. -/
theorem C134_tracking_refuted : ∃ (m : Mol ℚ) (t : Tr ℚ), m.transformWarnings t true ≠ [] ∧ (m.transform t true).2 = .ok () ∧
    m.origin = .ok ⟨1, 0, 0⟩ ∧ (m.transform t true).1.origin = .ok ⟨2, 0, 0⟩ :=
  ⟨⟨[⟨1, 0, 0⟩], [6], 0, 1, true, some 0, none, true⟩, .translation ⟨1, 0, 0⟩ true false, by
    rw [(Mol.C134_transform _ rfl ⟨1, 0, 0⟩ (by decide +kernel) _ _).1]; simp, by decide +kernel, by decide +kernel, by decide +kernel⟩

end CZ
