import Verif.Props.GalleryRuns

/-!
# Shared volumes: what a single call changes

Continues `Props/Gallery` and `Props/GalleryRuns` (C128).
-/

namespace CZ

namespace Gallery

/-! ## specification -/

/-- How often volumes are populated by `populate_atoms` of `r`: once for each way that leads from `r` to a Volume. -/
def visits (f : ℕ → Node) : ℕ → ℕ → ℕ
  | 0, _ => 0
  | k + 1, r =>
    match f r with
    | .vol _ => 1
    | .multi vs _ _ => (vs.map (visits f k)).sum
    | .mol _ => 0

/-! ## lists -/

/-- **C128 (add_object).**  The object is appended to the list of this scene, which is made if there was none; nothing else changes, not even
the masks of the scene. -/
theorem C128_add_object (s : Gallery) (j r : ℕ) :
    (s.add j r).node = s.node ∧ (s.add j r).calls = s.calls ∧ (∀ i, i ≠ j → (s.add j r).scene i = s.scene i) ∧
    ((s.scene j).objects = none → ((s.add j r).scene j).objects = some [r]) ∧
    (∀ rs, (s.scene j).objects = some rs → ((s.add j r).scene j).objects = some (rs ++ [r])) ∧
    ((s.add j r).scene j).checks = (s.scene j).checks ∧ ((s.add j r).scene j).bounds = (s.scene j).bounds := by
  refine ⟨rfl, rfl, fun i hi => ?_, fun h => ?_, fun rs h => ?_, ?_, ?_⟩
  · simp [add, Function.update_of_ne hi]
  · simp [add, h]
  · simp [add, h]
  · simp [add]
  · simp [add]

/-- **C128 (bounds).**  New bounds are stored with their scene; objects, masks and the other scenes stay. -/
theorem C128_bounds (env : Env) (k : ℕ) (s : Gallery) (j : ℕ) (b : V3 ℝ × V3 ℝ) :
    ((s.step env k (.bounds j b)).scene j).bounds = b ∧ ((s.step env k (.bounds j b)).scene j).objects = (s.scene j).objects ∧
    ((s.step env k (.bounds j b)).scene j).checks = (s.scene j).checks ∧ (∀ i, i ≠ j → (s.step env k (.bounds j b)).scene i = s.scene i) ∧
    (s.step env k (.bounds j b)).node = s.node ∧ (s.step env k (.bounds j b)).calls = s.calls := by
  refine ⟨?_, ?_, ?_, fun i hi => ?_, rfl, rfl⟩
  · simp [step]
  · simp [step]
  · simp [step]
  · simp [step, Function.update_of_ne hi]

/-- **C128 (add_volume).**  A MultiVolume refuses molecules with AssertionError, Volumes and Molecules have no such method (AttributeError), and
nothing changes in these cases; otherwise the object is appended to the list of this MultiVolume, and priority and atoms stay. -/
theorem C128_add_volume (s : Gallery) (m r : ℕ) :
    (∀ vs p h x, s.node m = .multi vs p h → s.node r = .mol x → s.addVolume m r = (s, .error .assertion)) ∧
    ((∀ vs p h, s.node m ≠ .multi vs p h) → s.addVolume m r = (s, .error .attribute)) ∧
    ∀ vs p h, s.node m = .multi vs p h → (∀ x, s.node r ≠ .mol x) →
      (s.addVolume m r).2 = .ok () ∧ (s.addVolume m r).1.node m = .multi (vs ++ [r]) p h ∧
      (∀ i, i ≠ m → (s.addVolume m r).1.node i = s.node i) ∧ (s.addVolume m r).1.scene = s.scene ∧ (s.addVolume m r).1.calls = s.calls := by
  refine ⟨fun vs p h x hm hr => ?_, fun hm => ?_, fun vs p h hm hr => ?_⟩
  · simp only [addVolume, hm, hr]
  · unfold addVolume
    cases e : s.node m with
    | multi vs p h => exact absurd e (hm vs p h)
    | vol v => rfl
    | mol x => rfl
  · have key : s.addVolume m r = ({ s with node := Function.update s.node m (.multi (vs ++ [r]) p h) }, .ok ()) := by
      unfold addVolume
      rw [hm]
      cases e : s.node r with
      | mol x => exact absurd e (hr x)
      | vol v => rfl
      | multi vs' p' h' => rfl
    rw [key]
    refine ⟨rfl, ?_, fun i hi => ?_, rfl, rfl⟩
    · simp
    · simp [Function.update_of_ne hi]

/-- **C128 (molecules moved).**  `transform` of a molecule that knows its origin moves the atoms and the origin; no other object changes, no scene, and nothing
is drawn. -/
theorem C128_molecule_moved (env : Env) (k : ℕ) (s : Gallery) (r : ℕ) (m : Mol ℝ) (t : Tr ℝ) (hr : s.node r = .mol m)
    (hl : m.species.length = m.atoms.length) (o : V3 ℝ) (ho : m.origin = .ok o) :
    (s.transform env (k + 1) r t).2 = .ok () ∧
    (∃ m', (s.transform env (k + 1) r t).1.node r = .mol m' ∧ m'.atoms = m.atoms.map t.apply ∧ m'.species = m.species ∧
      m'.origin = .ok (t.apply o)) ∧
    (∀ i, i ≠ r → (s.transform env (k + 1) r t).1.node i = s.node i) ∧ (s.transform env (k + 1) r t).1.scene = s.scene ∧
    (s.transform env (k + 1) r t).1.calls = s.calls := by
  obtain ⟨m', hm, h1, h2, -, -, h3⟩ := Mol.C75_origin_moves m hl o ho t
  have key : s.transform env (k + 1) r t = ({ s with node := Function.update s.node r (.mol m') }, .ok ()) := by
    simp only [transform, transformNode, hr, hm]
  rw [key]
  refine ⟨rfl, ⟨m', ?_, h1, h2, h3⟩, fun i hi => ?_, rfl, rfl⟩
  · simp
  · simp [Function.update_of_ne hi]

/-! ## numbers of calls -/

/-- The same kinds of objects, and the same members in the MultiVolumes up to their order. -/
def Perms (f g : ℕ → Node) : Prop := ∀ q,
  match f q with
  | .mol _ => ∃ m, g q = .mol m
  | .vol _ => ∃ v, g q = .vol v
  | .multi vs _ _ => ∃ ws p h, g q = .multi ws p h ∧ ws.Perm vs

theorem Perms.refl (f : ℕ → Node) : Perms f f := by
  intro q
  cases f q with
  | mol m => exact ⟨_, rfl⟩
  | vol v => exact ⟨_, rfl⟩
  | multi vs p h => exact ⟨_, _, _, rfl, List.Perm.refl _⟩

theorem Perms.trans {f g h : ℕ → Node} (h1 : Perms f g) (h2 : Perms g h) : Perms f h := by
  intro q
  have a := h1 q
  have b := h2 q
  cases e : f q with
  | mol m => rw [e] at a; obtain ⟨m', a⟩ := a; rw [a] at b; exact b
  | vol m => rw [e] at a; obtain ⟨m', a⟩ := a; rw [a] at b; exact b
  | multi vs p h =>
    rw [e] at a; obtain ⟨ws, p', h', a, a'⟩ := a; rw [a] at b
    obtain ⟨us, p'', h'', b, b'⟩ := b
    exact ⟨us, p'', h'', b, b'.trans a'⟩

open Classical in
theorem Perms.update {f g : ℕ → Node} (hs : Perms f g) {r : ℕ} {c : Node}
    (h : match f r with
      | .mol _ => ∃ m, c = .mol m
      | .vol _ => ∃ v, c = .vol v
      | .multi vs _ _ => ∃ ws p h, c = .multi ws p h ∧ ws.Perm vs) : Perms f (Function.update g r c) := by
  intro q
  by_cases hq : q = r
  · subst hq; simp only [Function.update_self]; exact h
  · simp only [Function.update_of_ne hq]; exact hs q

theorem Perms.visits {f g : ℕ → Node} (hs : Perms f g) : ∀ k r, visits g k r = visits f k r
  | 0, _ => rfl
  | k + 1, r => by
    have a := hs r
    rw [Gallery.visits, Gallery.visits]
    cases e : f r with
    | mol m => rw [e] at a; obtain ⟨m', a⟩ := a; rw [a]
    | vol m => rw [e] at a; obtain ⟨m', a⟩ := a; rw [a]
    | multi vs p h =>
      rw [e] at a; obtain ⟨ws, p', h', a, a'⟩ := a; rw [a]
      simp only
      rw [(a'.map (Gallery.visits g k)).sum_eq]
      congr 1
      exact List.map_congr_left fun v _ => hs.visits k v

theorem each_perms {call : ℕ → (ℕ → Node) → ℕ → (ℕ → Node) × ℕ × Py Unit} (hc : ∀ r f n, Perms f (call r f n).1) :
    ∀ (rs : List ℕ) f n, Perms f (each call rs f n).1
  | [], f, _ => Perms.refl f
  | r :: rs, f, n => by
    have h1 := hc r f n
    rw [each]
    rcases e1 : call r f n with ⟨f', n', o⟩
    rw [e1] at h1
    cases o with
    | error e => exact h1
    | ok u => exact h1.trans (each_perms hc rs f' n')

theorem populateNode_perms (env : Env) : ∀ k r f n, Perms f (populateNode env k r f n).1
  | 0, _, f, _ => Perms.refl f
  | k + 1, r, f, n => by
    rw [populateNode]
    cases e : f r with
    | mol m => exact Perms.refl f
    | vol v => exact (Perms.refl f).update (by rw [e]; exact ⟨_, rfl⟩)
    | multi vs p h =>
      have h1 := each_perms (populateNode_perms env k) vs f n
      simp only
      rcases e1 : each (populateNode env k) vs f n with ⟨f', n', o⟩
      rw [e1] at h1
      cases o with
      | error e => exact h1
      | ok u =>
        simp only
        have h2 : ∀ p hd, Perms f (Function.update f' r (.multi (stableSort (fun q => (f' q).priority) vs) p hd)) := fun p hd =>
          h1.update (by rw [e]; exact ⟨_, _, _, rfl, stableSort_perm _ _⟩)
        cases VTree.resolve env ((stableSort (fun q => (f' q).priority) vs).map (tree f' k)) with
        | error e' => exact h2 p h
        | ok x => exact h2 p (some x)

theorem each_calls {k : ℕ} {call : ℕ → (ℕ → Node) → ℕ → (ℕ → Node) × ℕ × Py Unit} (hc : ∀ r f n, Perms f (call r f n).1)
    (hv : ∀ r f n, (call r f n).2.2 = .ok () → (call r f n).2.1 = n + visits f k r) :
    ∀ (rs : List ℕ) f n, (each call rs f n).2.2 = .ok () → (each call rs f n).2.1 = n + (rs.map (visits f k)).sum
  | [], _, _, _ => rfl
  | q :: rs, f, n, h => by
    have h1 := hc q f n
    have h2 := hv q f n
    rw [each] at h ⊢
    rcases e : call q f n with ⟨f', n', o⟩
    rw [e] at h h1 h2
    cases o with
    | error e => cases h
    | ok u =>
      have h3 := each_calls hc hv rs f' n' h
      have h4 := h2 rfl
      simp only at h3 h4 ⊢
      rw [h3, h4, List.map_cons, List.sum_cons, List.map_congr_left fun v _ => h1.visits k v, Nat.add_assoc]

theorem populateNode_calls (env : Env) : ∀ k r f n, (populateNode env k r f n).2.2 = .ok () → (populateNode env k r f n).2.1 = n + visits f k r
  | 0, _, _, _, h => by cases h
  | k + 1, r, f, n, h => by
    rw [populateNode] at h ⊢
    rw [visits]
    cases e : f r with
    | mol m => rfl
    | vol v => rfl
    | multi vs p hd =>
      rw [e] at h
      simp only at h ⊢
      have h1 := each_calls (populateNode_perms env k) (populateNode_calls env k) vs f n
      rcases e1 : each (populateNode env k) vs f n with ⟨f', n', o⟩
      rw [e1] at h h1
      cases o with
      | error e => cases h
      | ok u =>
        have h2 := h1 rfl
        simp only at h h2 ⊢
        cases e2 : VTree.resolve env ((stableSort (fun q => (f' q).priority) vs).map (tree f' k)) with
        | error e' => rw [e2] at h; cases h
        | ok x => exact h2

/-- **C128 (how often).**  Nothing remembers what has been populated: `populate_atoms` of an object and `populate` of a scene call the generator of a
shared Volume once for each way that leads to it. -/
theorem C128_how_often (env : Env) (k : ℕ) (s : Gallery) (j r : ℕ) :
    ((s.touch env k r).2 = .ok () → (s.touch env k r).1.calls = s.calls + visits s.node k r) ∧
    ∀ rs, (s.scene j).objects = some rs → (s.populate env k j).2 = .ok () →
      (s.populate env k j).1.calls = s.calls + (rs.map (visits s.node k)).sum := by
  refine ⟨fun h => ?_, fun rs hr h => ?_⟩
  · have := populateNode_calls env k r s.node s.calls
    unfold touch at h ⊢
    rcases e : populateNode env k r s.node s.calls with ⟨f, n, o⟩
    rw [e] at h this
    exact this h
  · have := each_calls (populateNode_perms env k) (populateNode_calls env k) rs s.node s.calls
    unfold populate at h ⊢
    rw [hr] at h ⊢
    simp only at h ⊢
    rcases e : each (populateNode env k) rs s.node s.calls with ⟨f, n, o⟩
    rw [e] at h this
    cases o with
    | error e => cases h
    | ok u =>
      simp only at h ⊢
      split at h
      · cases h
      · exact this rfl

/-- **C128 (populate raises).**  When the first object of the scene is a Volume whose `populate_atoms` raises, so does `populate` of the scene: no other object
is populated, list and masks of the scene stay, and what the Volume has drawn is not drawn again. -/
theorem C128_first_raises (env : Env) (k : ℕ) (s : Gallery) (j r : ℕ) (rs : List ℕ) (v : Vol) (e : PyErr) (hr : (s.scene j).objects = some (r :: rs))
    (hv : s.node r = .vol v) (he : (v.populate env s.calls).2 = .error e) :
    (s.populate env (k + 1) j).2 = .error e ∧ (s.populate env (k + 1) j).1.calls = s.calls + 1 ∧
    (s.populate env (k + 1) j).1.scene = s.scene ∧ ∀ i, i ≠ r → (s.populate env (k + 1) j).1.node i = s.node i := by
  have h1 : each (populateNode env (k + 1)) (r :: rs) s.node s.calls =
      (Function.update s.node r (.vol (v.populate env s.calls).1), s.calls + 1, .error e) := by
    rw [each, populateNode, hv]
    simp only [he]
  have h2 : s.populate env (k + 1) j =
      ({ s with node := Function.update s.node r (.vol (v.populate env s.calls).1), calls := s.calls + 1 }, .error e) := by
    unfold populate
    rw [hr]
    simp only [h1]
  rw [h2]
  exact ⟨rfl, rfl, rfl, fun i hi => by simp [Function.update_of_ne hi]⟩

/-- Moving draws nothing. -/
theorem transformNode_calls (env : Env) (t : Tr ℝ) : ∀ k r f n, (transformNode env t k r f n).2.1 = n
  | 0, _, _, _ => rfl
  | k + 1, r, f, n => by
    rw [transformNode]
    have : ∀ (rs : List ℕ) f n, (each (transformNode env t k) rs f n).2.1 = n := by
      intro rs
      induction rs with
      | nil => intro f n; rfl
      | cons q rs ih =>
        intro f n
        have h := transformNode_calls env t k q f n
        rw [each]
        rcases e : transformNode env t k q f n with ⟨f', n', o⟩
        rw [e] at h
        cases o with
        | error e => exact h
        | ok u => exact (ih f' n').trans h
    cases f r with
    | mol m => rfl
    | vol v => rfl
    | multi vs p h => exact this vs f n

/-- **C128 (moving draws nothing).** -/
theorem C128_moving_draws_nothing (env : Env) (k : ℕ) (s : Gallery) (r : ℕ) (t : Tr ℝ) : (s.transform env k r t).1.calls = s.calls := by
  have h := transformNode_calls env t k r s.node s.calls
  unfold transform
  rcases e : transformNode env t k r s.node s.calls with ⟨f, n, o⟩
  rw [e] at h
  exact h

/-- A MultiVolume holds a ball twice, a scene the MultiVolume and the ball: three calls of its generator. -/
example (v : Vol) : ([1, 0].map (visits (fun r => if r = 0 then .vol v else .multi [0, 0] 1 none) 2)).sum = 3 := rfl

/-- The ball with random substitutions, populated twice: the generator is called twice. -/
example (b : V3 ℝ × V3 ℝ) : (((mixed b).touch Studio.drawEnv 1 0).1.touch Studio.drawEnv 1 0).1.calls = 2 := by
  have h1 := (C128_how_often Studio.drawEnv 1 (mixed b) 0 0).1 (by simp [touch, populateNode, mixed, doped_vol])
  have h2 := (C128_how_often Studio.drawEnv 1 ((mixed b).touch Studio.drawEnv 1 0).1 0 0).1 (by simp [touch, populateNode, mixed, doped_vol])
  rw [h2, h1]
  simp [touch, populateNode, mixed, doped_vol, visits]

/-- The ball is appended to the MultiVolume of `mixed`; the ball itself has no `add_volume`. -/
example (b : V3 ℝ × V3 ℝ) : ((mixed b).addVolume 1 0).1.node 1 = .multi [0, 0] 1 none ∧ (mixed b).addVolume 0 1 = (mixed b, .error .attribute) :=
  ⟨((C128_add_volume (mixed b) 1 0).2.2 [0] 1 none (by simp [mixed]) (by simp [mixed])).2.1,
    (C128_add_volume (mixed b) 0 1).2.1 (by simp [mixed])⟩

/-- A scene whose first object is a Volume without a generator. -/
example (env : Env) (b : V3 ℝ × V3 ℝ) (m : Mol ℝ) :
    ((⟨fun r => if r = 0 then .vol (Vol.blank 0) else .mol m, fun _ => ⟨some [0, 1], none, b⟩, 5⟩ : Gallery).populate env 1 0).2 = .error .attribute :=
  (C128_first_raises env 0 _ 0 0 [1] (Vol.blank 0) .attribute rfl rfl rfl).1

/-- A water molecule, moved by one along x. -/
example (env : Env) (b : V3 ℝ × V3 ℝ) : ∃ m' : Mol ℝ,
    ((⟨fun _ => .mol ⟨[⟨0, 0, 0⟩, ⟨1, 0, 0⟩, ⟨0, 1, 0⟩], [8, 1, 1], 0, 1, false, none, some ⟨0, 0, 0⟩, true⟩, fun _ => ⟨none, none, b⟩, 0⟩ : Gallery).transform env 1 3
      (.translation ⟨1, 0, 0⟩ true false)).1.node 3 = .mol m' ∧ m'.origin = .ok ((Tr.translation ⟨1, 0, 0⟩ true false : Tr ℝ).apply ⟨0, 0, 0⟩) := by
  obtain ⟨-, ⟨m', h, -, -, h'⟩, -⟩ := C128_molecule_moved env 0
    (⟨fun _ => .mol ⟨[⟨0, 0, 0⟩, ⟨1, 0, 0⟩, ⟨0, 1, 0⟩], [8, 1, 1], 0, 1, false, none, some ⟨0, 0, 0⟩, true⟩, fun _ => ⟨none, none, b⟩, 0⟩ : Gallery) 3 _
    (.translation ⟨1, 0, 0⟩ true false) rfl rfl ⟨0, 0, 0⟩ rfl
  exact ⟨m', h, h'⟩

end Gallery

end CZ
