import Verif.Props.Gallery
import Verif.Props.World

/-!
# Property C128, programs: cycles, repeated calls, a volume beside its own container
-/

namespace CZ
open Spec

namespace Gallery
open Studio (CertainGen Leaves Made tree_again tree_certain vol_again vol_certain)

/-! ## shapes -/

/-- The names lead to something within `k` steps. -/
def Fit (f : ℕ → Node) : ℕ → ℕ → Prop
  | 0, _ => False
  | k + 1, r =>
    match f r with
    | .vol _ => True
    | .multi vs _ _ => ∀ v ∈ vs, Fit f k v
    | .mol _ => True

theorem Deep.fit {f : ℕ → Node} : ∀ {k r : ℕ}, Deep f k r → Fit f k r
  | 0, _, h => h.elim
  | k + 1, r, h => by
    rw [Fit]
    rw [Deep] at h
    cases e : f r with
    | vol v => trivial
    | mol m => trivial
    | multi vs p hd => rw [e] at h; exact fun v hv => (h v hv).fit

theorem Sound.fit {f : ℕ → Node} {k r : ℕ} (h : Sound f k r) : Fit f k r := by
  rcases h with ⟨hk, m, h⟩ | h
  · obtain ⟨k, rfl⟩ := Nat.exists_eq_succ_of_ne_zero hk.ne'
    rw [Fit, h]; trivial
  · exact h.fit

theorem Fit.child {f : ℕ → Node} {k r q : ℕ} {vs : List ℕ} {p : ℤ} {hd : Option (List (V3 ℝ) × List ℤ)} (h : Fit f (k + 1) r)
    (e : f r = .multi vs p hd) (hq : q ∈ vs) : Fit f k q := by
  rw [Fit, e] at h; exact h q hq

theorem Fit.succ {f : ℕ → Node} : ∀ {k r : ℕ}, Fit f k r → Fit f (k + 1) r ∧ tree f (k + 1) r = tree f k r
  | 0, _, h => h.elim
  | k + 1, r, h => by
    rw [Fit, tree, tree]
    cases e : f r with
    | vol v => exact ⟨trivial, rfl⟩
    | mol m => exact ⟨trivial, rfl⟩
    | multi vs p hd =>
      refine ⟨fun v hv => (h.child e hv).succ.1, ?_⟩
      simp only [VTree.multi.injEq, and_true]
      exact List.map_congr_left fun v hv => (h.child e hv).succ.2

theorem Fit.le {f : ℕ → Node} {k l r : ℕ} (h : Fit f k r) (hl : k ≤ l) : Fit f l r ∧ tree f l r = tree f k r := by
  induction hl with
  | refl => exact ⟨h, rfl⟩
  | step _ ih => exact ⟨ih.1.succ.1, ih.1.succ.2.trans ih.2⟩

theorem Fit.tree {f : ℕ → Node} {k l r : ℕ} (h : Fit f k r) (h' : Fit f l r) : tree f k r = tree f l r :=
  ((h.le (le_max_left k l)).2.symm).trans (h'.le (le_max_right k l)).2

/-- The same kinds of objects, and the same members in the MultiVolumes. -/
def Shape (f g : ℕ → Node) : Prop := ∀ q,
  match f q with
  | .mol _ => ∃ m, g q = .mol m
  | .vol _ => ∃ v, g q = .vol v
  | .multi vs _ _ => ∃ ws p h, g q = .multi ws p h ∧ ∀ v, v ∈ ws ↔ v ∈ vs

theorem Shape.refl (f : ℕ → Node) : Shape f f := by
  intro q
  cases f q with
  | mol m => exact ⟨_, rfl⟩
  | vol v => exact ⟨_, rfl⟩
  | multi vs p h => exact ⟨_, _, _, rfl, fun v => Iff.rfl⟩

theorem Shape.trans {f g h : ℕ → Node} (h1 : Shape f g) (h2 : Shape g h) : Shape f h := by
  intro q
  have a := h1 q
  have b := h2 q
  cases e : f q with
  | mol m => rw [e] at a; obtain ⟨m', a⟩ := a; rw [a] at b; exact b
  | vol m => rw [e] at a; obtain ⟨m', a⟩ := a; rw [a] at b; exact b
  | multi vs p h =>
    rw [e] at a; obtain ⟨ws, p', h', a, a'⟩ := a; rw [a] at b
    obtain ⟨us, p'', h'', b, b'⟩ := b
    exact ⟨us, p'', h'', b, fun v => (b' v).trans (a' v)⟩

theorem Shape.symm {f g : ℕ → Node} (hs : Shape f g) : Shape g f := by
  intro q
  have a := hs q
  cases e : f q with
  | mol m => rw [e] at a; obtain ⟨m', a⟩ := a; rw [a]; exact ⟨_, rfl⟩
  | vol m => rw [e] at a; obtain ⟨m', a⟩ := a; rw [a]; exact ⟨_, rfl⟩
  | multi us p h =>
    rw [e] at a; obtain ⟨ws, p', h', a, a'⟩ := a; rw [a]
    exact ⟨_, _, _, rfl, fun v => (a' v).symm⟩

theorem Shape.fit {f g : ℕ → Node} (hs : Shape f g) : ∀ {k r : ℕ}, Fit g k r → Fit f k r
  | 0, _, h => h.elim
  | k + 1, r, h => by
    rw [Fit]
    have a := hs r
    cases e : f r with
    | mol m => trivial
    | vol v => trivial
    | multi vs p hd =>
      rw [e] at a; obtain ⟨ws, p', h', a, a'⟩ := a
      exact fun v hv => hs.fit (h.child a ((a' v).mpr hv))

open Classical in
theorem Shape.update {f g : ℕ → Node} (hs : Shape f g) {r : ℕ} {c : Node}
    (h : match f r with
      | .mol _ => ∃ m, c = .mol m
      | .vol _ => ∃ v, c = .vol v
      | .multi vs _ _ => ∃ ws p h, c = .multi ws p h ∧ ∀ v, v ∈ ws ↔ v ∈ vs) : Shape f (Function.update g r c) := by
  intro q
  by_cases hq : q = r
  · subst hq; simp only [Function.update_self]; exact h
  · simp only [Function.update_of_ne hq]; exact hs q

theorem each_shape {call : ℕ → (ℕ → Node) → ℕ → (ℕ → Node) × ℕ × Py Unit} (hc : ∀ r f n, Shape f (call r f n).1) :
    ∀ (rs : List ℕ) f n, Shape f (each call rs f n).1
  | [], f, _ => Shape.refl f
  | r :: rs, f, n => by
    have h1 := hc r f n
    rw [each]
    rcases e1 : call r f n with ⟨f', n', o⟩
    rw [e1] at h1
    cases o with
    | error e => exact h1
    | ok u => exact h1.trans (each_shape hc rs f' n')

/-- After a loop that returns every member fits. -/
theorem each_fit {k : ℕ} {call : ℕ → (ℕ → Node) → ℕ → (ℕ → Node) × ℕ × Py Unit} (hc : ∀ r f n, Shape f (call r f n).1)
    (hf : ∀ r f n, (call r f n).2.2 = .ok () → Fit f k r) : ∀ (rs : List ℕ) f n, (each call rs f n).2.2 = .ok () → ∀ r ∈ rs, Fit f k r
  | [], _, _, _ => by simp
  | q :: rs, f, n, h => by
    have h1 := hc q f n
    have h2 := hf q f n
    rw [each] at h
    rcases e : call q f n with ⟨f', n', o⟩
    rw [e] at h h1 h2
    cases o with
    | error e => cases h
    | ok u =>
      intro r hr
      rcases List.mem_cons.mp hr with rfl | hr
      · exact h2 rfl
      · exact h1.fit (each_fit hc hf rs f' n' h r hr)

theorem populateNode_shape (env : Env) : ∀ k r f n, Shape f (populateNode env k r f n).1
  | 0, _, f, _ => Shape.refl f
  | k + 1, r, f, n => by
    rw [populateNode]
    cases e : f r with
    | mol m => exact Shape.refl f
    | vol v => exact (Shape.refl f).update (by rw [e]; exact ⟨_, rfl⟩)
    | multi vs p h =>
      have h1 := each_shape (populateNode_shape env k) vs f n
      simp only
      rcases e1 : each (populateNode env k) vs f n with ⟨f', n', o⟩
      rw [e1] at h1
      cases o with
      | error e => exact h1
      | ok u =>
        simp only
        have h2 : ∀ p hd, Shape f (Function.update f' r (.multi (stableSort (fun q => (f' q).priority) vs) p hd)) := fun p hd =>
          h1.update (by rw [e]; exact ⟨_, _, _, rfl, fun v => mem_stableSort⟩)
        cases VTree.resolve env ((stableSort (fun q => (f' q).priority) vs).map (tree f' k)) with
        | error e' => exact h2 p h
        | ok x => exact h2 p (some x)

theorem populateNode_fit (env : Env) : ∀ k r f n, (populateNode env k r f n).2.2 = .ok () → Fit f k r
  | 0, _, _, _, h => by cases h
  | k + 1, r, f, n, h => by
    rw [populateNode] at h
    rw [Fit]
    cases e : f r with
    | mol m => trivial
    | vol v => trivial
    | multi vs p hd =>
      rw [e] at h
      refine each_fit (populateNode_shape env k) (populateNode_fit env k) vs f n ?_
      simp only at h
      rcases e1 : each (populateNode env k) vs f n with ⟨f', n', o⟩
      rw [e1] at h
      cases o with
      | error e => cases h
      | ok u => rfl

theorem transformNode_shape (env : Env) (t : Tr ℝ) : ∀ k r f n, Shape f (transformNode env t k r f n).1
  | 0, _, f, _ => Shape.refl f
  | k + 1, r, f, n => by
    rw [transformNode]
    cases e : f r with
    | mol m => exact (Shape.refl f).update (by rw [e]; exact ⟨_, rfl⟩)
    | vol v => exact (Shape.refl f).update (by rw [e]; exact ⟨_, rfl⟩)
    | multi vs p h => exact each_shape (transformNode_shape env t k) vs f n

theorem transformNode_fit (env : Env) (t : Tr ℝ) : ∀ k r f n, (transformNode env t k r f n).2.2 = .ok () → Fit f k r
  | 0, _, _, _, h => by cases h
  | k + 1, r, f, n, h => by
    rw [transformNode] at h
    rw [Fit]
    cases e : f r with
    | mol m => trivial
    | vol v => trivial
    | multi vs p hd =>
      rw [e] at h
      exact each_fit (transformNode_shape env t k) (transformNode_fit env t k) vs f n h

theorem Fit.under {f : ℕ → Node} {r x : ℕ} (hu : Under f r x) : ∀ {k}, Fit f k r → ∃ k' ≤ k, Fit f k' x := by
  induction hu with
  | refl r => exact fun h => ⟨_, le_rfl, h⟩
  | step e hq _ ih =>
    intro k h
    cases k with
    | zero => exact h.elim
    | succ k =>
      obtain ⟨k', h1, h2⟩ := ih (h.child e hq)
      exact ⟨k', h1.trans (Nat.le_succ k), h2⟩

theorem Fit.acyclic {f : ℕ → Node} {r v : ℕ} {vs : List ℕ} {p : ℤ} {hd : Option (List (V3 ℝ) × List ℤ)} (e : f r = .multi vs p hd) (hv : v ∈ vs)
    (hc : Under f v r) : ∀ k, ¬ Fit f k r := by
  intro k
  induction k using Nat.strong_induction_on with
  | _ k ih =>
    intro h
    cases k with
    | zero => exact h
    | succ k =>
      obtain ⟨k', h1, h2⟩ := (h.child e hv).under hc
      exact ih k' (Nat.lt_succ_of_le h1) h2

theorem Py.error_of_ne {o : Py Unit} (h : o ≠ .ok ()) : ∃ e, o = .error e := by
  cases o with
  | error e => exact ⟨e, rfl⟩
  | ok u => exact absurd rfl h

/-- **C128 (cycles).**  `add_volume` lets a MultiVolume be put into itself, directly or through others.  Whatever the recursion limit, `populate_atoms` and
`transform` of such a MultiVolume raise, and so does `populate` of every scene it is in. -/
theorem C128_cycle (env : Env) (k : ℕ) (s : Gallery) (r v : ℕ) (vs : List ℕ) (p : ℤ) (hd : Option (List (V3 ℝ) × List ℤ))
    (e : s.node r = .multi vs p hd) (hv : v ∈ vs) (hc : Under s.node v r) :
    (∃ e, (s.touch env k r).2 = .error e) ∧ (∀ t, ∃ e, (s.transform env k r t).2 = .error e) ∧
      ∀ j rs, (s.scene j).objects = some rs → r ∈ rs → ∃ e, (s.populate env k j).2 = .error e := by
  have hno := Fit.acyclic e hv hc k
  refine ⟨Py.error_of_ne fun h => hno ?_, fun t => Py.error_of_ne fun h => hno ?_, fun j rs hj hr => Py.error_of_ne fun h => hno ?_⟩
  · refine populateNode_fit env k r s.node s.calls ?_
    unfold touch at h
    rcases e1 : populateNode env k r s.node s.calls with ⟨f, n, o⟩
    rw [e1] at h
    exact h
  · refine transformNode_fit env t k r s.node s.calls ?_
    unfold transform at h
    rcases e1 : transformNode env t k r s.node s.calls with ⟨f, n, o⟩
    rw [e1] at h
    exact h
  · refine each_fit (populateNode_shape env k) (populateNode_fit env k) rs s.node s.calls ?_ r hr
    unfold populate at h
    rw [hj] at h
    simp only at h
    rcases e1 : each (populateNode env k) rs s.node s.calls with ⟨f, n, o⟩
    rw [e1] at h
    cases o with
    | error e => cases h
    | ok u => rfl

/-! ## what has been populated stays -/

/-- The objects of `U` have everything they refer to in `U`, and populating them again changes nothing. -/
structure Stable (env : Env) (U : ℕ → Prop) (g : ℕ → Node) : Prop where
  closed : ∀ x vs p h, U x → g x = .multi vs p h → ∀ v ∈ vs, U v
  vol : ∀ x v, U x → g x = .vol v → ∀ n, v.populate env n = (v, .ok ())
  multi : ∀ x vs p h, U x → g x = .multi vs p h → stableSort (fun q => (g q).priority) vs = vs ∧
    ∀ k, (∀ v ∈ vs, Fit g k v) → ∃ y, h = some y ∧ VTree.resolve env (vs.map (tree g k)) = .ok y

theorem Stable.agree {env : Env} {U : ℕ → Prop} {g h : ℕ → Node} (hs : Stable env U g) (ha : ∀ x, U x → h x = g x) :
    ∀ {k x}, U x → tree h k x = tree g k x ∧ (Fit h k x ↔ Fit g k x)
  | 0, _, _ => ⟨rfl, Iff.rfl⟩
  | k + 1, x, hx => by
    rw [tree, tree, Fit, Fit, ha x hx]
    cases e : g x with
    | vol v => exact ⟨rfl, Iff.rfl⟩
    | mol m => exact ⟨rfl, Iff.rfl⟩
    | multi vs p hd =>
      have hc := hs.closed x vs p hd hx e
      refine ⟨?_, ?_⟩
      · simp only [VTree.multi.injEq, and_true]
        exact List.map_congr_left fun v hv => (hs.agree ha (hc v hv)).1
      · exact forall_congr' fun v => imp_congr_right fun hv => (hs.agree ha (hc v hv)).2

theorem each_keeps {U : ℕ → Prop} {g : ℕ → Node} {call : ℕ → (ℕ → Node) → ℕ → (ℕ → Node) × ℕ × Py Unit}
    (hc : ∀ r h n, (∀ x, U x → h x = g x) → ∀ x, U x → (call r h n).1 x = g x) :
    ∀ (rs : List ℕ) h n, (∀ x, U x → h x = g x) → ∀ x, U x → (each call rs h n).1 x = g x
  | [], _, _, ha => ha
  | r :: rs, h, n, ha => by
    have h1 := hc r h n ha
    rw [each]
    rcases e1 : call r h n with ⟨f', n', o⟩
    rw [e1] at h1
    cases o with
    | error e => exact h1
    | ok u => exact each_keeps hc rs f' n' h1

/-- Whatever is populated afterwards, even with an exception, the objects of `U` stay as they are. -/
theorem Stable.keeps {env : Env} {U : ℕ → Prop} {g : ℕ → Node} (hs : Stable env U g) : ∀ k r h n, (∀ x, U x → h x = g x) →
    ∀ x, U x → (populateNode env k r h n).1 x = g x
  | 0, _, _, _, ha => ha
  | k + 1, r, h, n, ha => by
    have hup : ∀ (f : ℕ → Node) c, (∀ x, U x → f x = g x) → (U r → c = g r) → ∀ x, U x → Function.update f r c x = g x := by
      intro f c hf hcr x hx
      by_cases hxr : x = r
      · subst hxr; rw [Function.update_self, hcr hx]
      · rw [Function.update_of_ne hxr, hf x hx]
    rw [populateNode]
    cases e : h r with
    | mol m => exact ha
    | vol v =>
      refine hup h _ ha fun hr => ?_
      have e' : g r = .vol v := by rw [← ha r hr, e]
      rw [hs.vol r v hr e' n, e']
    | multi vs p hd =>
      have h1 := each_keeps (hs.keeps k) vs h n ha
      have h2 := each_fit (populateNode_shape env k) (populateNode_fit env k) vs h n
      simp only
      rcases e1 : each (populateNode env k) vs h n with ⟨f', n', o⟩
      rw [e1] at h1 h2
      simp only at h1 h2
      cases o with
      | error e => exact h1
      | ok u =>
        simp only
        by_cases hr : U r
        · have e' : g r = .multi vs p hd := by rw [← ha r hr, e]
          have hcl := hs.closed r vs p hd hr e'
          obtain ⟨s1, s2⟩ := hs.multi r vs p hd hr e'
          obtain ⟨y, rfl, s3⟩ := s2 k fun v hv => (hs.agree ha (hcl v hv)).2.mp (h2 rfl v hv)
          have hsort : stableSort (fun q => (f' q).priority) vs = vs :=
            (stableSort_congr vs fun v hv => by rw [h1 v (hcl v hv)]).trans s1
          have htr : vs.map (tree f' k) = vs.map (tree g k) := List.map_congr_left fun v hv => (hs.agree h1 (hcl v hv)).1
          rw [hsort, htr, s3]
          exact hup f' _ h1 fun _ => e'.symm
        · cases VTree.resolve env ((stableSort (fun q => (f' q).priority) vs).map (tree f' k)) with
          | error e' => exact hup f' _ h1 fun h => absurd h hr
          | ok x => exact hup f' _ h1 fun h => absurd h hr

theorem each_ok {U : ℕ → Prop} {g : ℕ → Node} {call : ℕ → (ℕ → Node) → ℕ → (ℕ → Node) × ℕ × Py Unit} :
    ∀ (rs : List ℕ), (∀ r h n, (∀ x, U x → h x = g x) → ∀ x, U x → (call r h n).1 x = g x) →
    (∀ r ∈ rs, ∀ h n, (∀ x, U x → h x = g x) → (call r h n).2.2 = .ok ()) →
    ∀ h n, (∀ x, U x → h x = g x) → (each call rs h n).2.2 = .ok ()
  | [], _, _, _, _, _ => rfl
  | r :: rs, hc, ho, h, n, ha => by
    have h1 := hc r h n ha
    have h2 := ho r List.mem_cons_self h n ha
    rw [each]
    rcases e1 : call r h n with ⟨f', n', o⟩
    rw [e1] at h1 h2
    simp only at h2
    subst h2
    exact each_ok rs hc (fun q hq => ho q (List.mem_cons_of_mem _ hq)) f' n' h1

/-- Populating an object of `U` again returns. -/
theorem Stable.ok {env : Env} {U : ℕ → Prop} {g : ℕ → Node} (hs : Stable env U g) : ∀ {k r}, U r → Fit g k r → ∀ h n, (∀ x, U x → h x = g x) →
    (populateNode env k r h n).2.2 = .ok ()
  | 0, _, _, hf, _, _, _ => hf.elim
  | k + 1, r, hr, hf, h, n, ha => by
    rw [populateNode, ha r hr]
    cases e : g r with
    | mol m => rfl
    | vol v => simp only [hs.vol r v hr e n]
    | multi vs p hd =>
      have hcl := hs.closed r vs p hd hr e
      have h1 := each_keeps (hs.keeps k) vs h n ha
      have h2 := each_ok vs (hs.keeps k) (fun v hv h n ha => hs.ok (hcl v hv) (hf.child e hv) h n ha) h n ha
      obtain ⟨s1, s2⟩ := hs.multi r vs p hd hr e
      obtain ⟨y, -, s3⟩ := s2 k fun v hv => hf.child e hv
      simp only
      rcases e1 : each (populateNode env k) vs h n with ⟨f', n', o⟩
      rw [e1] at h1 h2
      simp only at h1 h2
      subst h2
      have hsort : stableSort (fun q => (f' q).priority) vs = vs :=
        (stableSort_congr vs fun v hv => by rw [h1 v (hcl v hv)]).trans s1
      have htr : vs.map (tree f' k) = vs.map (tree g k) := List.map_congr_left fun v hv => (hs.agree h1 (hcl v hv)).1
      simp only [hsort, htr, s3]

/-! ## transformations reach what is inside only -/

/-- The MultiVolumes are the same, and nothing else has become one. -/
def SameMulti (f g : ℕ → Node) : Prop := ∀ q vs p h, f q = .multi vs p h ↔ g q = .multi vs p h

theorem Under.same {f g : ℕ → Node} (hs : SameMulti f g) {r x : ℕ} (h : Under f r x) : Under g r x := by
  induction h with
  | refl r => exact .refl r
  | step e hq _ ih => exact .step ((hs _ _ _ _).mp e) hq ih

theorem SameMulti.trans {f g h : ℕ → Node} (a : SameMulti f g) (b : SameMulti g h) : SameMulti f h := fun q vs p hd => (a q vs p hd).trans (b q vs p hd)

theorem SameMulti.symm {f g : ℕ → Node} (a : SameMulti f g) : SameMulti g f := fun q vs p hd => (a q vs p hd).symm

theorem SameMulti.update {f : ℕ → Node} {r : ℕ} {c : Node} (h1 : ∀ vs p h, f r ≠ .multi vs p h) (h2 : ∀ vs p h, c ≠ .multi vs p h) :
    SameMulti f (Function.update f r c) := by
  intro q vs p h
  by_cases hq : q = r
  · subst hq; rw [Function.update_self]; exact ⟨fun e => absurd e (h1 _ _ _), fun e => absurd e (h2 _ _ _)⟩
  · rw [Function.update_of_ne hq]

theorem each_reach {call : ℕ → (ℕ → Node) → ℕ → (ℕ → Node) × ℕ × Py Unit}
    (hc : ∀ r f n, SameMulti f (call r f n).1 ∧ ∀ x, ¬ Under f r x → (call r f n).1 x = f x) :
    ∀ (rs : List ℕ) f n, SameMulti f (each call rs f n).1 ∧ ∀ x, (∀ r ∈ rs, ¬ Under f r x) → (each call rs f n).1 x = f x
  | [], f, _ => ⟨fun _ _ _ _ => Iff.rfl, fun _ _ => rfl⟩
  | r :: rs, f, n => by
    obtain ⟨h1, h2⟩ := hc r f n
    rw [each]
    rcases e1 : call r f n with ⟨f', n', o⟩
    rw [e1] at h1 h2
    cases o with
    | error e => exact ⟨h1, fun x hx => h2 x (hx r List.mem_cons_self)⟩
    | ok u =>
      obtain ⟨h3, h4⟩ := each_reach hc rs f' n'
      refine ⟨h1.trans h3, fun x hx => ?_⟩
      rw [← h2 x (hx r List.mem_cons_self)]
      exact h4 x fun q hq hu => hx q (List.mem_cons_of_mem _ hq) (hu.same h1.symm)

theorem transform_reach (env : Env) (t : Tr ℝ) : ∀ k r f n, SameMulti f (transformNode env t k r f n).1 ∧
    ∀ x, ¬ Under f r x → (transformNode env t k r f n).1 x = f x
  | 0, _, _, _ => ⟨fun _ _ _ _ => Iff.rfl, fun _ _ => rfl⟩
  | k + 1, r, f, n => by
    have hne : ∀ x, ¬ Under f r x → x ≠ r := by rintro x hx rfl; exact hx (.refl _)
    rw [transformNode]
    cases e : f r with
    | mol m => exact ⟨SameMulti.update (fun _ _ _ h => by rw [e] at h; cases h) (fun _ _ _ h => by cases h), fun x hx => Function.update_of_ne (hne x hx) _ _⟩
    | vol v => exact ⟨SameMulti.update (fun _ _ _ h => by rw [e] at h; cases h) (fun _ _ _ h => by cases h), fun x hx => Function.update_of_ne (hne x hx) _ _⟩
    | multi vs p h =>
      obtain ⟨h1, h2⟩ := each_reach (transform_reach env t k) vs f n
      exact ⟨h1, fun x hx => h2 x fun v hv hu => hx (.step e hv hu)⟩

/-! ## programs -/

/-- The call neither adds an object to the scene `j`, nor a volume to a MultiVolume of `U`, nor transforms an object with anything of `U` in it. -/
def Apart (j : ℕ) (U : ℕ → Prop) (s : Gallery) : Op → Prop
  | .add i _ => i ≠ j
  | .addVolume m _ => ¬ U m
  | .transform r _ => ∀ x, Under s.node r x → ¬ U x
  | .populate _ => True
  | .touch _ => True
  | .bounds _ _ => True

/-- Every call of the program does that, in the state it is made in. -/
def ApartRun (env : Env) (k j : ℕ) (U : ℕ → Prop) : Gallery → List Op → Prop
  | _, [] => True
  | s, o :: os => Apart j U s o ∧ ApartRun env k j U (s.step env k o) os

/-- The scene `j` as it was when populated. -/
def Settled (j : ℕ) (U : ℕ → Prop) (g : ℕ → Node) (srt : List ℕ) (c : List (List Bool)) (s : Gallery) : Prop :=
  (s.scene j).objects = some srt ∧ (s.scene j).checks = some c ∧ ∀ x, U x → s.node x = g x

theorem step_settled {env : Env} {k j : ℕ} {U : ℕ → Prop} {g : ℕ → Node} {srt : List ℕ} {c : List (List Bool)} (hs : Stable env U g)
    (hU : ∀ r ∈ srt, U r) (hf : ∀ r ∈ srt, Fit g k r) (hsort : stableSort (fun r => (g r).priority) srt = srt)
    (hc : Precedence.checks ((srt.map fun r => Item.view env (item g k r)).map Scene.toObj) = .ok c) {s : Gallery} (h : Settled j U g srt c s) (o : Op)
    (ho : Apart j U s o) : Settled j U g srt c (s.step env k o) := by
  obtain ⟨h1, h2, h3⟩ := h
  cases o with
  | add i r =>
    have hj : j ≠ i := Ne.symm ho
    refine ⟨?_, ?_, h3⟩
    · simp only [step, add, Function.update_of_ne hj, h1]
    · simp only [step, add, Function.update_of_ne hj, h2]
  | bounds i b =>
    by_cases hj : j = i
    · subst hj
      exact ⟨by simp only [step, Function.update_self, h1], by simp only [step, Function.update_self, h2], h3⟩
    · exact ⟨by simp only [step, Function.update_of_ne hj, h1], by simp only [step, Function.update_of_ne hj, h2], h3⟩
  | addVolume m r =>
    have hsc : (s.step env k (.addVolume m r)).scene = s.scene ∧ ∀ x, x ≠ m → (s.step env k (.addVolume m r)).node x = s.node x := by
      simp only [step, addVolume]
      split
      · exact ⟨rfl, fun _ _ => rfl⟩
      · exact ⟨rfl, fun x hx => Function.update_of_ne hx _ _⟩
      · exact ⟨rfl, fun _ _ => rfl⟩
    refine ⟨by rw [hsc.1, h1], by rw [hsc.1, h2], fun x hx => ?_⟩
    rw [hsc.2 x, h3 x hx]
    rintro rfl
    exact ho hx
  | touch r =>
    have h4 := hs.keeps k r s.node s.calls h3
    simp only [step, touch]
    rcases e1 : populateNode env k r s.node s.calls with ⟨f, n, o⟩
    rw [e1] at h4
    exact ⟨h1, h2, h4⟩
  | transform r t =>
    have h4 := (transform_reach env t k r s.node s.calls).2
    simp only [step, transform]
    rcases e1 : transformNode env t k r s.node s.calls with ⟨f, n, o⟩
    rw [e1] at h4
    exact ⟨h1, h2, fun x hx => (h4 x fun hu => ho x hu hx).trans (h3 x hx)⟩
  | populate i =>
    simp only [step, populate]
    cases hi : (s.scene i).objects with
    | none => exact ⟨h1, h2, h3⟩
    | some rs =>
      have h4 := each_keeps (hs.keeps k) rs s.node s.calls h3
      have h5 : i = j → (each (populateNode env k) rs s.node s.calls).2.2 = .ok () := by
        rintro rfl
        rw [h1] at hi
        cases hi
        exact each_ok srt (hs.keeps k) (fun r hr h n ha => hs.ok (hU r hr) (hf r hr) h n ha) s.node s.calls h3
      simp only
      rcases e1 : each (populateNode env k) rs s.node s.calls with ⟨f, n, o⟩
      rw [e1] at h4 h5
      simp only at h4 h5
      cases o with
      | error e => exact ⟨h1, h2, h4⟩
      | ok u =>
        simp only
        by_cases hij : i = j
        · subst hij
          rw [h1] at hi
          cases hi
          have e2 : stableSort (fun r => (f r).priority) srt = srt :=
            (stableSort_congr srt fun r hr => by rw [h4 r (hU r hr)]).trans hsort
          have e3 : (srt.map fun r => Item.view env (item f k r)) = srt.map fun r => Item.view env (item g k r) := by
            refine List.map_congr_left fun r hr => ?_
            have : item f k r = item g k r := by
              unfold item
              rw [h4 r (hU r hr), (hs.agree h4 (hU r hr)).1]
            rw [this]
          simp only [e2, e3, hc]
          exact ⟨by simp only [Function.update_self], by simp only [Function.update_self], h4⟩
        · have hji : j ≠ i := Ne.symm hij
          cases Precedence.checks (((stableSort (fun r => (f r).priority) rs).map fun r => Item.view env (item f k r)).map Scene.toObj) with
          | error e => exact ⟨by simp only [Function.update_of_ne hji, h1], by simp only [Function.update_of_ne hji, h2], h4⟩
          | ok c' => exact ⟨by simp only [Function.update_of_ne hji, h1], by simp only [Function.update_of_ne hji, h2], h4⟩

theorem run_settled {env : Env} {k j : ℕ} {U : ℕ → Prop} {g : ℕ → Node} {srt : List ℕ} {c : List (List Bool)} (hs : Stable env U g)
    (hU : ∀ r ∈ srt, U r) (hf : ∀ r ∈ srt, Fit g k r) (hsort : stableSort (fun r => (g r).priority) srt = srt)
    (hc : Precedence.checks ((srt.map fun r => Item.view env (item g k r)).map Scene.toObj) = .ok c) :
    ∀ (os : List Op) (s : Gallery), Settled j U g srt c s → ApartRun env k j U s os → Settled j U g srt c (s.run env k os)
  | [], _, h, _ => h
  | o :: os, _, h, ho => run_settled hs hU hf hsort hc os _ (step_settled hs hU hf hsort hc h o ho.1) ho.2

theorem Under.trans {f : ℕ → Node} {r x y : ℕ} (h : Under f r x) (h' : Under f x y) : Under f r y := by
  induction h with
  | refl r => exact h'
  | step e hq _ ih => exact .step e hq (ih h')

theorem under_ok {env : Env} {f : ℕ → Node} {r x : ℕ} (hu : Under f r x) : ∀ {k}, Deep f k r → Leaves CertainGen (tree f k r) →
    status env (tree f k r) = .ok () → ∃ k' ≤ k, Deep f k' x ∧ Leaves CertainGen (tree f k' x) ∧ status env (tree f k' x) = .ok () := by
  induction hu with
  | refl r => exact fun h1 h2 h3 => ⟨_, le_rfl, h1, h2, h3⟩
  | @step r q x vs p hd e hq _ ih =>
    intro k h1 h2 h3
    cases k with
    | zero => exact h1.elim
    | succ k =>
      have hc : ∀ t ∈ vs.map (tree f k), Leaves CertainGen t := by
        intro t ht; obtain ⟨v, hv, rfl⟩ := List.mem_map.mp ht; exact leaves_child h2 e hv
      have ht : tree f (k + 1) r = .multi (vs.map (tree f k)) p hd := by rw [tree, e]
      rw [ht] at h3
      rcases status_multi env (vs.map (tree f k)) p hd hc with ⟨e', -, h4⟩ | ⟨h4, -⟩
      · rw [h3] at h4; cases h4
      · obtain ⟨k', a, b⟩ := ih (h1.child e hq) (leaves_child h2 e hq) (seqStatus_ok.mp h4 _ (List.mem_map_of_mem hq))
        exact ⟨k', a.trans (Nat.le_succ k), b⟩

theorem stable_of_done {env : Env} {f g : ℕ → Node} {K : ℕ} {rs : List ℕ} (hs : ∀ r ∈ rs, Sound f K r)
    (hm : ∀ r ∈ rs, Made CertainGen (item f K r)) (ho : ∀ r ∈ rs, itemStatus env (item f K r) = .ok ()) (hsh : Shape f g)
    (hd : ∀ r ∈ rs, Done env f K g r) (hp : ∀ q, (g q).priority = (f q).priority) : Stable env (fun x => ∃ r ∈ rs, Under f r x) g := by
  have hin : ∀ x, (∃ r ∈ rs, Under f r x) → (∃ m, f x = .mol m) ∨
      ∃ k ≤ K, Deep f k x ∧ Leaves CertainGen (tree f k x) ∧ status env (tree f k x) = .ok () := by
    rintro x ⟨r, hr, hu⟩
    rcases hs r hr with ⟨-, m, h⟩ | h
    · left
      cases hu with
      | refl => exact ⟨m, h⟩
      | step e _ _ => rw [h] at e; cases e
    · right
      have a := hm r hr
      have b := ho r hr
      rw [item_deep h] at a b
      exact under_ok hu h a b
  have hgoal : ∀ x, (∃ r ∈ rs, Under f r x) → g x = goal env f K x := fun x ⟨r, hr, hu⟩ => hd r hr x hu
  have hcl : ∀ x vs p h, (∃ r ∈ rs, Under f r x) → f x = .multi vs p h → ∀ v ∈ vs, ∃ r ∈ rs, Under f r v := by
    rintro x vs p h ⟨r, hr, hu⟩ e v hv
    exact ⟨r, hr, hu.trans (.step e hv (.refl v))⟩
  have hmul : ∀ x vs p h, (∃ r ∈ rs, Under f r x) → g x = .multi vs p h → ∃ vs0 h0, f x = .multi vs0 p h0 ∧
      vs = stableSort (fun q => (f q).priority) vs0 ∧ h = (pop env (tree f K x)).held := by
    intro x vs p h hx e
    rw [hgoal x hx] at e
    unfold goal at e
    cases e0 : f x with
    | mol m => rw [e0] at e; cases e
    | vol v => rw [e0] at e; cases e
    | multi vs0 p0 h0 =>
      rw [e0] at e
      simp only [Node.multi.injEq] at e
      obtain ⟨rfl, rfl, rfl⟩ := e
      exact ⟨vs0, h0, rfl, rfl, rfl⟩
  refine ⟨fun x vs p h hx e v hv => ?_, fun x v hx e n => ?_, fun x vs p h hx e => ?_⟩
  · obtain ⟨vs0, h0, e0, rfl, -⟩ := hmul x vs p h hx e
    exact hcl x vs0 p h0 hx e0 v (mem_stableSort.mp hv)
  · rw [hgoal x hx] at e
    unfold goal at e
    cases e0 : f x with
    | mol m => rw [e0] at e; cases e
    | multi vs0 p0 h0 => rw [e0] at e; cases e
    | vol w =>
      rw [e0] at e
      simp only [Node.vol.injEq] at e
      subst e
      rcases hin x hx with ⟨m, h⟩ | ⟨k, -, h1, h2, h3⟩
      · rw [e0] at h; cases h
      · cases k with
        | zero => exact h1.elim
        | succ k =>
          rw [tree, e0] at h2 h3
          have hc : ∀ g, w.gen = some g → CertainGen g := by cases h2 with | vol _ h => exact h
          exact (vol_again hc (Prod.ext rfl h3)).2 n
  · obtain ⟨vs0, h0, e0, rfl, rfl⟩ := hmul x vs p h hx e
    refine ⟨?_, fun k hk => ?_⟩
    · rw [stableSort_congr (key' := fun q => (f q).priority) _ fun q _ => hp q]
      exact Scene.stableSort_of_sorted _ _ (stableSort_sorted _ _)
    · rcases hin x hx with ⟨m, h⟩ | ⟨l, hl, h1, h2, h3⟩
      · rw [e0] at h; cases h
      · cases l with
        | zero => exact h1.elim
        | succ l =>
          have hK := tree_le h1 hl
          have ht : tree f (l + 1) x = .multi (vs0.map (tree f l)) p h0 := by rw [tree, e0]
          have hc : ∀ t ∈ vs0.map (tree f l), Leaves CertainGen t := by
            intro t ht; obtain ⟨v, hv, rfl⟩ := List.mem_map.mp ht; exact leaves_child h2 e0 hv
          rw [hK, ht]
          rw [ht] at h3
          rcases status_multi env (vs0.map (tree f l)) p h0 hc with ⟨e', -, a⟩ | ⟨a, ⟨e', -, b⟩ | ⟨y, b1, b2, b3⟩⟩
          · rw [h3] at a; cases a
          · rw [h3] at b; cases b
          · refine ⟨y, by rw [b3]; rfl, ?_⟩
            rw [← b1, sort_trees fun v hv => h1.child e0 hv, List.map_map]
            congr 1
            refine List.map_congr_left fun v hv => ?_
            have hv' := mem_stableSort.mp hv
            have hu := hcl x vs0 p h0 hx e0 v hv'
            have hdv : Done env f K g v := by
              obtain ⟨r, hr, hu⟩ := hu
              exact fun y hy => hd r hr y (hu.trans hy)
            have hfit : Fit g l v := by
              exact hsh.symm.fit (h1.child e0 hv').fit
            rw [(hk v hv).tree hfit]
            exact tree_done (by omega) (h1.child e0 hv') (hc _ (List.mem_map_of_mem hv')) (seqStatus_ok.mp a _ (List.mem_map_of_mem hv')) hdv

/-- **C128 (settled).**  A scene of objects with deterministic generators has been populated.  Then, however its volumes are shared with other MultiVolumes
and scenes, nothing that is populated later, with or without an exception, in this scene or another, and no transformation of objects that have nothing
in common with it, changes the atoms and species the scene reports. -/
theorem C128_settled_partial (env : Env) (k : ℕ) (s s' : Gallery) (j : ℕ) (rs : List ℕ) (hr : (s.scene j).objects = some rs)
    (hs : ∀ r ∈ rs, Sound s.node k r) (hm : ∀ r ∈ rs, Made CertainGen (item s.node k r)) (h : s.populate env k j = (s', .ok ())) (os : List Op)
    (ho : ApartRun env k j (fun x => ∃ r ∈ rs, Under s.node r x) s' os) :
    (s'.run env k os).allAtoms env k j = s'.allAtoms env k j ∧ (s'.run env k os).allSpecies env k j = s'.allSpecies env k j := by
  obtain ⟨b1, b2⟩ := loop_fills (env := env) hs hm s.calls
  have hsh := each_shape (populateNode_shape env k) rs s.node s.calls
  unfold populate at h
  rw [hr] at h
  simp only at h
  rcases e2 : each (populateNode env k) rs s.node s.calls with ⟨f', n2, o2⟩
  rw [e2] at b1 b2 h hsh
  simp only at b1 b2 hsh
  cases o2 with
  | error e => simp only [Prod.mk.injEq] at h; exact absurd h.2 (by simp)
  | ok u =>
    obtain ⟨i1, i2, -⟩ := b2 b1.symm
    have hst : ∀ r ∈ rs, itemStatus env (item s.node k r) = .ok () := fun r hr' => seqStatus_ok.mp b1.symm _ (List.mem_map_of_mem hr')
    have hS := stable_of_done hs hm hst hsh i2 i1.priority
    simp only at h
    cases hc : Precedence.checks (((stableSort (fun r => (f' r).priority) rs).map fun r => Item.view env (item f' k r)).map Scene.toObj) with
    | error e => rw [hc] at h; simp only [Prod.mk.injEq] at h; exact absurd h.2 (by simp)
    | ok c =>
      rw [hc] at h
      simp only [Prod.mk.injEq, and_true] at h
      subst h
      have hend := run_settled (j := j) (k := k) hS (srt := stableSort (fun r => (f' r).priority) rs) (c := c)
        (fun r hr' => ⟨r, mem_stableSort.mp hr', .refl r⟩) (fun r hr' => hsh.symm.fit (hs r (mem_stableSort.mp hr')).fit)
        (Scene.stableSort_of_sorted _ _ (stableSort_sorted _ _)) hc os _ ⟨by simp only [Function.update_self], by simp only [Function.update_self], fun _ _ => rfl⟩ ho
      obtain ⟨g1, g2, g3⟩ := hend
      refine Studio.gather_bounds ?_ ?_
      · simp only [world, g1, Function.update_self, Option.map_some, Option.some.injEq]
        refine List.map_congr_left fun r hr' => ?_
        have hU : ∃ q ∈ rs, Under s.node q r := ⟨r, mem_stableSort.mp hr', .refl r⟩
        unfold item
        rw [g3 r hU, (hS.agree g3 hU).1]
      · simp only [world, g2, Function.update_self]

/-! ## a volume beside the MultiVolume it is in -/

/-- **C128, finding.**  A scene of deterministic volumes holds a volume and, with the same priority, a MultiVolume the volume is in.  Whatever else the
MultiVolume contains, after `populate` the scene has no atom inside the volume: the volume loses its atoms to the MultiVolume and the MultiVolume
to the volume. -/
theorem C128_own_container (env : Env) (k : ℕ) (s s' : Gallery) (j c m : ℕ) (rs vs : List ℕ) (p : ℤ) (hd : Option (List (V3 ℝ) × List ℤ))
    (hr : (s.scene j).objects = some rs) (hrs : rs = [c, m] ∨ rs = [m, c]) (e : s.node m = .multi vs p hd) (hc : c ∈ vs) (hp : (s.node c).priority = p)
    (hm : Deep s.node k m) (hk : Leaves CertainGen (tree s.node k m)) (h : s.populate env k j = (s', .ok ())) :
    ∃ as, s'.allAtoms env k j = .ok as ∧ ∀ x ∈ as, ¬ Inside env (tree s.node k c) x := by
  obtain ⟨k, rfl⟩ : ∃ l, k = l + 1 := by
    cases k with
    | zero => exact hm.elim
    | succ k => exact ⟨k, rfl⟩
  have hcd : Deep s.node k c := hm.child e hc
  have hct : tree s.node (k + 1) c = tree s.node k c := tree_succ hcd
  have hck : Leaves CertainGen (tree s.node (k + 1) c) := by rw [hct]; exact leaves_child hk e hc
  have hall : ∀ r ∈ rs, Deep s.node (k + 1) r ∧ Leaves CertainGen (tree s.node (k + 1) r) := by
    intro r hr'
    have : r = c ∨ r = m := by rcases hrs with rfl | rfl <;> simp at hr' <;> tauto
    rcases this with rfl | rfl
    · exact ⟨hcd.succ, hck⟩
    · exact ⟨hm, hk⟩
  obtain ⟨a1, a2⟩ := C128_as_if_copied_partial env (k + 1) s j rs hr (fun r hr' => .inr (hall r hr').1)
    (fun r hr' => by rw [item_deep (hall r hr').1]; exact (hall r hr').2) 0
  rw [h] at a1 a2
  have hw : (s.world (k + 1) j).objects = some (rs.map fun r => Item.vol (tree s.node (k + 1) r)) := by
    unfold world
    rw [hr]
    simp only [Option.map_some, Option.some.injEq]
    exact List.map_congr_left fun r hr' => item_deep (hall r hr').1
  obtain ⟨as, ss, b1, b2, b3, parts, b4, -, b5⟩ := C95_scene_contents env (s.world (k + 1) j) ((s.world (k + 1) j).populate env 0).1 0
    ((s.world (k + 1) j).populate env 0).2.1 _ hw (by
      intro m hm
      obtain ⟨r, -, hm⟩ := List.mem_map.mp hm
      cases hm) (Prod.ext rfl (Prod.ext rfl a1.symm))
  refine ⟨as, ?_, fun x hx hin => ?_⟩
  · show (s'.world (k + 1) j).allAtoms env = _
    rw [a2 rfl]; exact b1
  · have hmi : Inside env (tree s.node (k + 1) m) x := by
      have : tree s.node (k + 1) m = .multi (vs.map (tree s.node k)) p hd := by rw [tree, e]
      rw [this]
      rw [hct] at hin
      exact .multi _ _ _ _ _ (List.mem_map_of_mem hc) hin
    have hpm : (tree s.node (k + 1) m).priority = p := by rw [tree_priority hm, e]; rfl
    have hpc : (tree s.node (k + 1) c).priority = p := by rw [tree_priority hcd.succ, hp]
    obtain ⟨z, hz⟩ : ∃ z, (x, z) ∈ as.zip ss := by
      obtain ⟨i, hi, rfl⟩ := List.getElem_of_mem hx
      exact ⟨ss[i], List.mem_iff_getElem.mpr ⟨i, by simp; omega, by simp⟩⟩
    obtain ⟨i, -, h2⟩ := mem_contents_iff.mp (b5.mem_iff.mp hz)
    have hlen : (parts.map fun x => (⟨x.1.priority, x.2, Occupies env x.1⟩ : Body (V3 ℝ) ℤ)).length = 2 := by
      rw [List.length_map, ← List.length_map (f := Prod.fst), b4, List.length_map]
      rcases hrs with rfl | rfl <;> rfl
    have hbody : ∀ l : Fin (parts.map fun x => (⟨x.1.priority, x.2, Occupies env x.1⟩ : Body (V3 ℝ) ℤ)).length,
        (parts.map fun x => (⟨x.1.priority, x.2, Occupies env x.1⟩ : Body (V3 ℝ) ℤ))[l].priority = p ∧
        (parts.map fun x => (⟨x.1.priority, x.2, Occupies env x.1⟩ : Body (V3 ℝ) ℤ))[l].inside x := by
      intro l
      have hl : l.1 < parts.length := lt_of_lt_of_eq l.2 (List.length_map _)
      have hx : parts[l.1].1 ∈ rs.map fun r => Item.vol (tree s.node (k + 1) r) := by
        rw [← b4]; exact List.mem_map_of_mem (List.getElem_mem hl)
      obtain ⟨r, hr', hx⟩ := List.mem_map.mp hx
      have : r = c ∨ r = m := by rcases hrs with rfl | rfl <;> simp at hr' <;> tauto
      simp only [Fin.getElem_fin, List.getElem_map, ← hx]
      rcases this with rfl | rfl
      · exact ⟨hpc, hin⟩
      · exact ⟨hpm, hmi⟩
    obtain ⟨l, hl⟩ : ∃ l, l ≠ i := by
      have h0 : 0 < (parts.map fun x => (⟨x.1.priority, x.2, Occupies env x.1⟩ : Body (V3 ℝ) ℤ)).length := by rw [hlen]; norm_num
      have h1 : 1 < (parts.map fun x => (⟨x.1.priority, x.2, Occupies env x.1⟩ : Body (V3 ℝ) ℤ)).length := by rw [hlen]; norm_num
      by_cases hi : i = ⟨0, h0⟩
      · exact ⟨⟨1, h1⟩, by rw [hi]; simp⟩
      · exact ⟨⟨0, h0⟩, fun h => hi h.symm⟩
    exact h2 l hl (by rw [(hbody l).1, (hbody i).1]) (hbody l).2

/-! ## random numbers -/

noncomputable section
open Studio (alloy doping drawEnv alloyAtoms doped alloyAtoms_ne)

/-- A ball of the crystal with random substitutions, a MultiVolume of it and a scene of both. -/
def mixed (b : V3 ℝ × V3 ℝ) : Gallery :=
  ⟨fun r => if r = 0 then .vol (alloy doping none none) else .multi [0] 1 none, fun _ => ⟨some [0, 1], none, b⟩, 0⟩

theorem doped_vol (a : Option (List (V3 ℝ))) (z : Option (List ℤ)) (n : ℕ) : (alloy doping a z).populate drawEnv n =
    (alloy doping (some alloyAtoms) (some (List.replicate alloyAtoms.length (if n = 0 then 6 else 7))), .ok ()) := by
  have h := doped a z n
  simp only [Item.populate, VTree.populate, Prod.mk.injEq, Item.vol.injEq, VTree.vol.injEq, true_and] at h
  exact Prod.ext h.1 h.2

/-- **C128, finding.**  With random post transformations sharing is visible: a ball whose carbon is replaced by nitrogen at random is in a scene and in a
MultiVolume of the same scene.  Of private copies, the scene would show carbon of the ball; as it is, the MultiVolume populates the ball a second time
and the scene shows nitrogen only. -/
theorem C128_as_if_copied_refuted (b : V3 ℝ × V3 ℝ) : ∃ (env : Env) (k : ℕ) (s : Gallery), (s.scene 0).objects = some [0, 1] ∧
    (∀ r ∈ [0, 1], Sound s.node k r) ∧ (s.populate env k 0).2 = .ok () ∧ ((s.world k 0).populate env s.calls).2.2 = .ok () ∧
    (∃ ss, (s.populate env k 0).1.allSpecies env k 0 = .ok ss ∧ ∀ z ∈ ss, z = 7) ∧
    ∃ ss, ((s.world k 0).populate env s.calls).1.allSpecies env = .ok ss ∧ 6 ∈ ss := by
  let A : ℤ → Vol := fun z => alloy doping (some alloyAtoms) (some (List.replicate alloyAtoms.length z))
  obtain ⟨as, ss, r1, r2, r3⟩ := VTree.resolve_spec drawEnv [.vol (A 7)] (by simp) (by
    intro w hw
    simp only [List.mem_singleton] at hw
    subst hw
    exact ⟨_, _, rfl, by simp⟩)
  simp only [stableSort, insertByKey] at r1 r3
  have hss : ∀ z ∈ ss, z = 7 := by
    intro z hz
    obtain ⟨i, hi, rfl⟩ := List.getElem_of_mem hz
    have hz : (as[i], ss[i]) ∈ as.zip ss := List.mem_iff_getElem.mpr ⟨i, by simp; omega, by simp⟩
    rw [r3] at hz
    obtain ⟨l, h1, -⟩ := mem_contents_iff.mp hz
    have h2 : ((as[i], ss[i]) : V3 ℝ × ℤ) ∈ alloyAtoms.zip (List.replicate alloyAtoms.length (7 : ℤ)) := by
      obtain ⟨l, hl⟩ := l
      have : l = 0 := by simp only [List.map_cons, List.map_nil, List.length_cons, List.length_nil] at hl; omega
      subst this
      exact h1
    exact (List.mem_replicate.mp (List.of_mem_zip h2).2).2
  let M : Item := .vol (.multi [.vol (A 7)] 1 (some (as, ss)))
  have hres : ∀ z : ℤ, ∃ (c : List (List Bool)) (as' : List (V3 ℝ)) (ss' : List ℤ), Precedence.checks (([Item.vol (.vol (A z)), M].map (Item.view drawEnv)).map Scene.toObj) = .ok c ∧
      World.allSpecies drawEnv ⟨some [.vol (.vol (A z)), M], some c, b⟩ = .ok ss' ∧ as'.length = ss'.length ∧
      as'.zip ss' = contents ([Item.vol (.vol (A z)), M].map fun x =>
        (⟨x.priority, (x.held.getD ([], [])).1.zip (x.held.getD ([], [])).2, Occupies drawEnv x⟩ : Body (V3 ℝ) ℤ)) := by
    intro z
    obtain ⟨c, as', ss', h1, -, h3, h4, h5⟩ := World.resolved drawEnv [.vol (.vol (A z)), M] (by
      intro x hx
      simp only [List.mem_cons, List.not_mem_nil, or_false] at hx
      rcases hx with rfl | rfl
      · exact ⟨_, _, rfl, by simp⟩
      · exact ⟨_, _, rfl, r2⟩) ⟨none, none, b⟩
    have hsort : stableSort Item.priority [.vol (.vol (A z)), M] = [.vol (.vol (A z)), M] := by
      simp [stableSort, insertByKey, Item.priority, VTree.priority, M, A, alloy]
    rw [hsort] at h1 h3 h5
    exact ⟨c, as', ss', h1, h3, h4, h5⟩
  obtain ⟨c7, as7, ss7, a1, a2, a3, a4⟩ := hres 7
  obtain ⟨c6, as6, ss6, b1, b2, b3, b4⟩ := hres 6
  have hpop : ∃ g : Gallery, (mixed b).populate drawEnv 2 0 = (g, .ok ()) ∧ g.world 2 0 = ⟨some [.vol (.vol (A 7)), M], some c7, b⟩ := by
    have h1 : each (populateNode drawEnv 2) [0, 1] (mixed b).node 0 = (Function.update (Function.update (Function.update (mixed b).node 0 (.vol (A 6))) 0
        (.vol (A 7))) 1 (.multi [0] 1 (some (as, ss))), 2, .ok ()) := by
      simp [each, populateNode, mixed, doped_vol, stableSort, insertByKey, tree, A, r1]
    have hsc : (mixed b).scene 0 = ⟨some [0, 1], none, b⟩ := rfl
    have hsort : ∀ f : ℕ → Node, (f 0).priority = 0 → (f 1).priority = 1 → stableSort (fun r => (f r).priority) [0, 1] = [0, 1] := by
      intro f h0 h1
      simp [stableSort, insertByKey, h0, h1]
    unfold populate
    rw [hsc]
    simp only
    rw [show (mixed b).calls = 0 from rfl, h1]
    simp only
    rw [hsort _ (by simp [Node.priority, A, alloy]) (by simp [Node.priority])]
    have hi0 : item (Function.update (Function.update (Function.update (mixed b).node 0 (.vol (A 6))) 0 (.vol (A 7))) 1
        (.multi [0] 1 (some (as, ss)))) 2 0 = .vol (.vol (A 7)) := by simp [item, tree]
    have hi1 : item (Function.update (Function.update (Function.update (mixed b).node 0 (.vol (A 6))) 0 (.vol (A 7))) 1
        (.multi [0] 1 (some (as, ss)))) 2 1 = M := by simp [item, tree, M]
    simp only [List.map_cons, List.map_nil, hi0, hi1]
    simp only [List.map_cons, List.map_nil] at a1
    rw [a1]
    exact ⟨_, rfl, by simp only [world, Function.update_self, Option.map_some, List.map_cons, List.map_nil, hi0, hi1]⟩
  have hcop : (mixed b |>.world 2 0).populate drawEnv 0 = (⟨some [.vol (.vol (A 6)), M], some c6, b⟩, 2, .ok ()) := by
    have h1 : (mixed b).world 2 0 = ⟨some [.vol (.vol (alloy doping none none)), .vol (.multi [.vol (alloy doping none none)] 1 none)], none, b⟩ := by
      simp [world, mixed, item, tree]
    have h2 : Item.populateList drawEnv [.vol (.vol (alloy doping none none)), .vol (.multi [.vol (alloy doping none none)] 1 none)] 0 =
        ([.vol (.vol (A 6)), M], 2, .ok ()) := by
      simp [Item.populateList, Item.populate, VTree.populate, VTree.populateList, doped_vol, stableSort, insertByKey, A, r1, M]
    have hsort : stableSort Item.priority [.vol (.vol (A 6)), M] = [.vol (.vol (A 6)), M] := by
      simp [stableSort, insertByKey, Item.priority, VTree.priority, M, A, alloy]
    rw [h1, World.populate]
    simp only [h2, hsort, b1]
  obtain ⟨g, g1, g2⟩ := hpop
  refine ⟨drawEnv, 2, mixed b, rfl, ?_, by rw [g1], by rw [show (mixed b).calls = 0 from rfl, hcop], ⟨ss7, ?_, ?_⟩, ss6, ?_, ?_⟩
  · intro r hr
    right
    simp only [List.mem_cons, List.not_mem_nil, or_false] at hr
    rcases hr with rfl | rfl <;> simp [Deep, mixed]
  · rw [g1]; show (g.world 2 0).allSpecies drawEnv = _; rw [g2]; exact a2
  · intro z hz
    obtain ⟨i, hi, rfl⟩ := List.getElem_of_mem hz
    have hz : (as7[i], ss7[i]) ∈ as7.zip ss7 := List.mem_iff_getElem.mpr ⟨i, by simp; omega, by simp⟩
    rw [a4] at hz
    obtain ⟨l, h1, -⟩ := mem_contents_iff.mp hz
    have hl := l.2
    simp only [List.map_cons, List.map_nil, List.length_cons, List.length_nil] at hl
    obtain ⟨l, hl'⟩ := l
    have : l = 0 ∨ l = 1 := by simp at hl; omega
    rcases this with rfl | rfl
    · exact (List.mem_replicate.mp (List.of_mem_zip (show ((as7[i], ss7[i]) : V3 ℝ × ℤ) ∈ alloyAtoms.zip (List.replicate alloyAtoms.length (7 : ℤ)) from h1)).2).2
    · exact hss _ (List.of_mem_zip (show ((as7[i], ss7[i]) : V3 ℝ × ℤ) ∈ as.zip ss from h1)).2
  · rw [show (mixed b).calls = 0 from rfl, hcop]; exact b2
  · obtain ⟨x, hx⟩ := List.exists_mem_of_ne_nil _ alloyAtoms_ne
    have : (x, (6 : ℤ)) ∈ as6.zip ss6 := by
      rw [b4]
      refine mem_contents_iff.mpr ⟨⟨0, by simp⟩, ?_, ?_⟩
      · obtain ⟨i, hi, rfl⟩ := List.getElem_of_mem hx
        exact List.mem_iff_getElem.mpr ⟨i, by simp [Item.held, VTree.held, A, alloy]; omega, by simp [Item.held, VTree.held, A, alloy]⟩
      · rintro ⟨l, hl'⟩ hne hle
        have hl := hl'
        simp only [List.map_cons, List.map_nil, List.length_cons, List.length_nil] at hl
        have : l = 0 ∨ l = 1 := by omega
        rcases this with rfl | rfl
        · exact absurd rfl hne
        · simp [Item.priority, VTree.priority, M, A, alloy] at hle
    exact (List.of_mem_zip this).2

end

theorem Under.leaf {f : ℕ → Node} {r x : ℕ} (h : Under f r x) (hr : ∀ vs p hd, f r ≠ .multi vs p hd) : x = r := by
  cases h with
  | refl => rfl
  | step e _ _ => exact absurd e (hr _ _ _)

theorem touch_shape {env : Env} {k : ℕ} {f : ℕ → Node} (u : Gallery) (r : ℕ) (hu : Shape f u.node) : Shape f (u.touch env k r).1.node := by
  have := populateNode_shape env k r u.node u.calls
  unfold touch
  rcases e1 : populateNode env k r u.node u.calls with ⟨f, n, o⟩
  rw [e1] at this
  exact hu.trans this

theorem populate_shape {env : Env} {k : ℕ} {f : ℕ → Node} (u : Gallery) (j : ℕ) (hu : Shape f u.node) : Shape f (u.populate env k j).1.node := by
  unfold populate
  cases (u.scene j).objects with
  | none => exact hu
  | some rs =>
    have := each_shape (populateNode_shape env k) rs u.node u.calls
    simp only
    rcases e1 : each (populateNode env k) rs u.node u.calls with ⟨f, n, o⟩
    rw [e1] at this
    cases o with
    | error e => exact hu.trans this
    | ok u' =>
      simp only
      cases Precedence.checks (((stableSort (fun r => (f r).priority) rs).map fun r => Item.view env (item f k r)).map Scene.toObj) with
      | error e => exact hu.trans this
      | ok c => exact hu.trans this

theorem three_closed {f : ℕ → Node} {p : ℤ} {hd : Option (List (V3 ℝ) × List ℤ)} (h0 : ∀ vs p hd, f 0 ≠ .multi vs p hd)
    (h1 : ∀ vs p hd, f 1 ≠ .multi vs p hd) (h2 : f 2 = .multi [1, 0] p hd) {r x : ℕ} (hu : Under f r x) :
    (r = 0 ∨ r = 1 ∨ r = 2) → (x = 0 ∨ x = 1 ∨ x = 2) := by
  induction hu with
  | refl r => exact id
  | step e hq _ ih =>
    rintro (rfl | rfl | rfl)
    · exact absurd e (h0 _ _ _)
    · exact absurd e (h1 _ _ _)
    · rw [h2] at e; cases e
      rcases List.mem_cons.mp hq with rfl | hq
      · exact ih (.inr (.inl rfl))
      · exact ih (.inl (List.mem_singleton.mp hq))

/-- Concrete case: a ball is in a scene and, with another ball, in a MultiVolume of the same scene, of the same priority, and the MultiVolume is in a second
scene.  The hypotheses of the theorems above hold, the program populates everything again, puts the ball into another MultiVolume and moves
an object that is in neither. -/
example (env : Env) (b : V3 ℝ × V3 ℝ) : ∃ s s' : Gallery, (s.scene 0).objects = some [0, 2] ∧ (s.scene 1).objects = some [2] ∧
    s.node 2 = .multi [1, 0] 0 none ∧ (s.node 0).priority = 0 ∧ (∀ r ∈ [0, 2], Sound s.node 2 r) ∧ Deep s.node 2 2 ∧
    Leaves CertainGen (tree s.node 2 2) ∧ (∀ r ∈ [0, 2], Made CertainGen (item s.node 2 r)) ∧ s.populate env 2 0 = (s', .ok ()) ∧
    ApartRun env 2 0 (fun x => ∃ r ∈ [0, 2], Under s.node r x) s'
      [.populate 1, .touch 1, .touch 7, .transform 4 (.translation 0 true false), .addVolume 3 0, .populate 0, .touch 3] := by
  let s : Gallery := ⟨fun r => if r = 0 then .vol (ballVol 0 1 0 [0]) else if r = 1 then .vol (ballVol ⟨1, 0, 0⟩ 1 1 [⟨1, 0, 0⟩]) else
    if r = 2 then .multi [1, 0] 0 none else if r = 3 then .multi [] 0 none else .vol (ballVol 0 1 0 [0]),
    fun k => if k = 0 then ⟨some [0, 2], none, b⟩ else ⟨some [2], none, b⟩, 0⟩
  have hball : ∀ c r pr ps, Leaves CertainGen (.vol (ballVol c r pr ps)) := by
    intro c r pr ps
    refine .vol _ fun g hg => ?_
    simp only [ballVol, Option.some.injEq] at hg
    subst hg
    trivial
  have h2 : s.node 2 = .multi [1, 0] 0 none := rfl
  have t2 : tree s.node 2 2 = .multi [.vol (ballVol ⟨1, 0, 0⟩ 1 1 [⟨1, 0, 0⟩]), .vol (ballVol 0 1 0 [0])] 0 none := by simp [tree, s]
  have d0 : Deep s.node 2 0 := by simp [Deep, s]
  have d2 : Deep s.node 2 2 := by simp [Deep, s]
  have t0 : tree s.node 2 0 = .vol (ballVol 0 1 0 [0]) := by simp [tree, s]
  have l2 : Leaves CertainGen (tree s.node 2 2) := by
    rw [t2]
    refine .multi _ _ _ ?_
    simp only [List.mem_cons, List.not_mem_nil, or_false, forall_eq_or_imp, forall_eq]
    exact ⟨hball _ _ _ _, hball _ _ _ _⟩
  have hs : ∀ r ∈ [0, 2], Sound s.node 2 r := by
    intro r hr
    simp only [List.mem_cons, List.not_mem_nil, or_false] at hr
    rcases hr with rfl | rfl
    · exact .inr d0
    · exact .inr d2
  have hm : ∀ r ∈ [0, 2], Made CertainGen (item s.node 2 r) := by
    intro r hr
    simp only [List.mem_cons, List.not_mem_nil, or_false] at hr
    rcases hr with rfl | rfl
    · rw [item_deep d0, t0]; exact hball _ _ _ _
    · rw [item_deep d2]; exact l2
  obtain ⟨w, n, hw⟩ := C95_populate_succeeds env (s.world 2 0) 0 [.vol (tree s.node 2 0), .vol (tree s.node 2 2)]
    (by simp only [world, s]; simp [item, tree]) (by intro m hm; simp at hm) (by
      intro u hu
      simp only [List.mem_cons, Item.vol.injEq, List.not_mem_nil, or_false] at hu
      rcases hu with rfl | rfl
      · rw [t0]; exact ballVol_supplying _ _ _ _ _
      · rw [t2]
        refine .multi _ _ _ (by simp) ?_
        simp only [List.mem_cons, List.not_mem_nil, or_false, forall_eq_or_imp, forall_eq]
        exact ⟨ballVol_supplying _ _ _ _ _, ballVol_supplying _ _ _ _ _⟩)
  have hok := (C128_as_if_copied_partial env 2 s 0 [0, 2] rfl hs hm 0).1
  rw [hw] at hok
  have h0 : s.node 0 = .vol (ballVol 0 1 0 [0]) := by simp [s]
  have h1 : s.node 1 = .vol (ballVol ⟨1, 0, 0⟩ 1 1 [⟨1, 0, 0⟩]) := by simp [s]
  have h4 : s.node 4 = .vol (ballVol 0 1 0 [0]) := by simp [s]
  have o0 : (s.scene 0).objects = some [0, 2] := rfl
  have o1 : (s.scene 1).objects = some [2] := rfl
  clear_value s
  have hUmem : ∀ x, (∃ r ∈ [0, 2], Under s.node r x) → x = 0 ∨ x = 1 ∨ x = 2 := by
    rintro x ⟨r, hr, hu⟩
    refine three_closed (f := s.node) (by rw [h0]; simp) (by rw [h1]; simp) h2 hu ?_
    rcases List.mem_cons.mp hr with h | h
    · exact .inl h
    · exact .inr (.inr (List.mem_singleton.mp h))
  refine ⟨s, (s.populate env 2 0).1, o0, o1, h2, by rw [h0]; rfl, hs, d2, l2, hm, Prod.ext rfl hok, trivial, trivial, trivial, ?_, ?_, trivial, trivial, trivial⟩
  · intro x hx hU
    have hsh : Shape s.node ((((s.populate env 2 0).1.populate env 2 1).1.touch env 2 1).1.touch env 2 7).1.node :=
      touch_shape _ 7 (touch_shape _ 1 (populate_shape _ 1 (populate_shape s 0 (Shape.refl _))))
    have h5 := hsh 4
    rw [h4] at h5
    obtain ⟨v, hv⟩ := h5
    have : x = 4 := Under.leaf hx fun _ _ _ e => by have e' := hv.symm.trans e; cases e'
    subst this
    rcases hUmem 4 hU with h | h | h <;> cases h
  · intro hU
    rcases hUmem 3 hU with h | h | h <;> cases h

/-- Concrete case: a MultiVolume put into itself. -/
example (b : V3 ℝ × V3 ℝ) : ∃ (s : Gallery) (vs : List ℕ), (s.addVolume 0 0).2 = .ok () ∧ (s.addVolume 0 0).1.node 0 = .multi vs 0 none ∧ 0 ∈ vs ∧
    Under (s.addVolume 0 0).1.node 0 0 :=
  ⟨⟨fun _ => .multi [] 0 none, fun _ => ⟨none, none, b⟩, 0⟩, [0], rfl, by simp [addVolume], by simp, .refl 0⟩

end Gallery
end CZ
