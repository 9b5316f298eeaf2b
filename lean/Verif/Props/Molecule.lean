import Verif.Spec.Molecule

/-!
# Properties C27 (molecules), C74-C79, C84: molecules
-/

set_option linter.unusedSectionVars false

namespace CZ
open Spec

/-! ## reshaping and deleting -/

theorem chunk3_flat3 {K : Type} (ps : List (V3 K)) : chunk3 (flat3 ps) = .ok ps := by
  induction ps with
  | nil => rfl
  | cons p ps ih =>
    show chunk3 (p.x :: p.y :: p.z :: flat3 ps) = _
    rw [chunk3, ih]
    rfl

theorem chunk3_length {K : Type} : ∀ (l : List K) (ps : List (V3 K)), chunk3 l = .ok ps → l = flat3 ps
  | [], ps, h => by cases h; rfl
  | [_], _, h => by cases h
  | [_, _], _, h => by cases h
  | x :: y :: z :: r, ps, h => by
    rw [chunk3] at h
    cases hr : chunk3 r with
    | error e => rw [hr] at h; cases h
    | ok qs =>
      rw [hr] at h
      cases h
      rw [chunk3_length r qs hr]
      rfl

theorem flat3_length {K : Type} (ps : List (V3 K)) : (flat3 ps).length = 3 * ps.length := by
  induction ps with
  | nil => rfl
  | cons p ps ih =>
    show (p.x :: p.y :: p.z :: flat3 ps).length = _
    simp [ih]; ring

theorem normIdx_ok {n : ℕ} {i : ℤ} {j : ℕ} (h : normIdx n i = .ok j) : position n i = j ∧ j < n := by
  unfold normIdx at h
  unfold position
  split_ifs at h <;> cases h <;> split_ifs <;> constructor <;> omega

theorem normIdx_of {n : ℕ} {i : ℤ} (h1 : -n ≤ i) (h2 : i < n) : normIdx n i = .ok (position n i).toNat := by
  unfold normIdx position
  split_ifs <;> first | omega | rfl

theorem normIdx_err {n : ℕ} {i : ℤ} {e : PyErr} (h : normIdx n i = .error e) : i < -n ∨ n ≤ i := by
  unfold normIdx at h
  split_ifs at h <;> first | omega | cases h

theorem foldl_set_length (js : List ℕ) (m : List Bool) : (js.foldl (fun m j => m.set j false) m).length = m.length := by
  induction js generalizing m with
  | nil => rfl
  | cons j js ih => rw [List.foldl_cons, ih, List.length_set]

theorem foldl_set_get (js : List ℕ) (m : List Bool) (i : ℕ) (hi : i < m.length) :
    (js.foldl (fun m j => m.set j false) m)[i]? = some (m[i] && decide (i ∉ js)) := by
  induction js generalizing m with
  | nil => simp [hi]
  | cons j js ih =>
    rw [List.foldl_cons, ih _ (by rwa [List.length_set])]
    rw [List.getElem_set]
    by_cases hj : j = i
    · subst hj; simp
    · have : ¬ i = j := fun h => hj h.symm
      simp [hj, this]

theorem mask_eq (js : List ℕ) (n : ℕ) :
    js.foldl (fun m j => m.set j false) (List.replicate n true) = (List.range n).map fun i => decide (i ∉ js) := by
  apply List.ext_getElem?
  intro i
  by_cases hi : i < n
  · rw [foldl_set_get js _ i (by simpa using hi)]
    simp [hi]
  · rw [List.getElem?_eq_none (by rw [foldl_set_length]; simpa using hi), List.getElem?_eq_none (by simpa using hi)]

theorem maskSel_range {α : Type} (f : ℕ → Bool) (xs : List α) :
    maskSel ((List.range xs.length).map f) xs = rowsAt xs ((List.range xs.length).filter f) := by
  induction xs generalizing f with
  | nil => rfl
  | cons x xs ih =>
    rw [List.length_cons, List.range_succ_eq_map, List.map_cons, maskSel_cons, List.map_map, ih]
    unfold rowsAt
    rw [List.filter_cons, List.filter_map]
    have : List.filterMap (fun i => xs[i]?) (List.filter (f ∘ Nat.succ) (List.range xs.length)) =
        List.filterMap (fun i => (x :: xs)[i]?) (List.map Nat.succ (List.filter (f ∘ Nat.succ) (List.range xs.length))) := by
      rw [List.filterMap_map]
      rfl
    rw [this]
    split_ifs <;> rfl

theorem mapM_norm (n : ℕ) : ∀ (rs : List ℤ) (js : List ℕ), rs.mapM (normIdx n) = .ok js →
    (∀ r ∈ rs, -n ≤ r ∧ r < n) ∧ ∀ i : ℕ, i ∈ js ↔ ∃ r ∈ rs, position n r = i
  | [], js, h => by cases h; simp
  | r :: rs, js, h => by
    rw [List.mapM_cons] at h
    cases hr : normIdx n r with
    | error e => rw [hr] at h; cases h
    | ok j =>
      rw [hr] at h
      cases hrs : rs.mapM (normIdx n) with
      | error e =>
        simp only [hrs, bind, Except.bind] at h
        cases h
      | ok js' =>
        simp only [hrs, bind, Except.bind, pure, Except.pure] at h
        cases h
        obtain ⟨h1, h2⟩ := mapM_norm n rs js' hrs
        obtain ⟨hp, hj⟩ := normIdx_ok hr
        refine ⟨?_, fun i => ?_⟩
        · intro q hq
          rcases List.mem_cons.mp hq with rfl | hq
          · unfold position at hp; split_ifs at hp <;> omega
          · exact h1 q hq
        · rw [List.mem_cons, h2]
          constructor
          · rintro (rfl | ⟨q, hq, he⟩)
            · exact ⟨r, by simp, hp⟩
            · exact ⟨q, by simp [hq], he⟩
          · rintro ⟨q, hq, he⟩
            rcases List.mem_cons.mp hq with rfl | hq
            · left; omega
            · exact Or.inr ⟨q, hq, he⟩

theorem mapM_norm_ok (n : ℕ) (rs : List ℤ) (h : ∀ r ∈ rs, -(n : ℤ) ≤ r ∧ r < n) : ∃ js, rs.mapM (normIdx n) = .ok js := by
  induction rs with
  | nil => exact ⟨[], rfl⟩
  | cons r rs ih =>
    obtain ⟨js, hjs⟩ := ih fun q hq => h q (by simp [hq])
    have := h r (by simp)
    exact ⟨_, by rw [List.mapM_cons, normIdx_of this.1 this.2]; simp only [hjs, bind, Except.bind, pure, Except.pure]; rfl⟩

theorem npDelete_ok {α : Type} {xs ys : List α} {rs : List ℤ} (h : npDelete xs rs = .ok ys) :
    (∀ r ∈ rs, -(xs.length : ℤ) ≤ r ∧ r < xs.length) ∧ ys = rowsAt xs (remaining xs.length rs) := by
  unfold npDelete at h
  cases hj : rs.mapM (normIdx xs.length) with
  | error e => rw [hj] at h; cases h
  | ok js =>
    rw [hj] at h
    obtain ⟨h1, h2⟩ := mapM_norm _ _ _ hj
    refine ⟨h1, ?_⟩
    simp only [bind, Except.bind, npMask] at h
    rw [if_pos (by rw [foldl_set_length, List.length_replicate])] at h
    cases h
    rw [mask_eq, maskSel_range]
    congr 1
    unfold remaining
    apply List.filter_congr
    intro i _
    rw [decide_eq_decide, h2]
    push Not
    rfl

theorem npDelete_succeeds {α : Type} (xs : List α) (rs : List ℤ) (h : ∀ r ∈ rs, -(xs.length : ℤ) ≤ r ∧ r < xs.length) :
    npDelete xs rs = .ok (rowsAt xs (remaining xs.length rs)) := by
  obtain ⟨js, hjs⟩ := mapM_norm_ok _ rs h
  have : ∃ ys, npDelete xs rs = .ok ys := by
    unfold npDelete
    rw [hjs]
    simp only [bind, Except.bind, npMask]
    rw [if_pos (by rw [foldl_set_length, List.length_replicate])]
    exact ⟨_, rfl⟩
  obtain ⟨ys, hys⟩ := this
  rw [hys, (npDelete_ok hys).2]

theorem npDelete_err {α : Type} {xs : List α} {rs : List ℤ} {e : PyErr} (h : npDelete xs rs = .error e) :
    ∃ r ∈ rs, r < -(xs.length : ℤ) ∨ xs.length ≤ r := by
  by_contra hc
  push Not at hc
  rw [npDelete_succeeds xs rs hc] at h
  cases h

theorem rowsAt_length {α : Type} (xs : List α) (is : List ℕ) (h : ∀ i ∈ is, i < xs.length) :
    (rowsAt xs is).length = is.length := by
  induction is with
  | nil => rfl
  | cons i is ih =>
    have hi := h i (by simp)
    unfold rowsAt at ih ⊢
    rw [List.filterMap_cons, List.getElem?_eq_getElem hi]
    simp [ih fun j hj => h j (by simp [hj])]

theorem remaining_lt {n : ℕ} {rs : List ℤ} : ∀ i ∈ remaining n rs, i < n := by
  intro i hi
  exact List.mem_range.mp (List.mem_filter.mp hi).1

namespace Mol
section
variable {K : Type} [Field K] [LinearOrder K] [IsStrictOrderedRing K]

/-! ## C74 -/

theorem setAtoms_ok {m m' : Mol K} {s : List ℤ} {p : List K} (h : m.setAtoms s p = (m', .ok ())) :
    ∃ ps, p = flat3 ps ∧ ps.length = s.length ∧ m' = { m with species := s, atoms := ps } := by
  unfold setAtoms at h
  cases hc : chunk3 p with
  | error e => rw [hc] at h; cases h
  | ok ps =>
    rw [hc] at h
    by_cases hl : ps.length = s.length
    · simp only [hl, ne_eq, not_true_eq_false, if_false] at h
      cases h
      exact ⟨ps, chunk3_length _ _ hc, hl, rfl⟩
    · simp only [ne_eq, hl, not_false_eq_true, if_true] at h
      cases h

theorem setAtoms_err {m m' : Mol K} {s : List ℤ} {p : List K} {e : PyErr} (h : m.setAtoms s p = (m', .error e)) : m' = m := by
  unfold setAtoms at h
  cases hc : chunk3 p with
  | error e => rw [hc] at h; cases h; rfl
  | ok ps =>
    rw [hc] at h
    by_cases hl : ps.length = s.length
    · simp only [hl, ne_eq, not_true_eq_false, if_false] at h; cases h
    · simp only [ne_eq, hl, not_false_eq_true, if_true] at h; cases h; rfl

/-- What `transform` does to atoms and species when both have equal length. -/
theorem transform_setAtoms (m : Mol K) (h : m.species.length = m.atoms.length) (t : Tr K) :
    m.setAtoms m.species (flat3 (m.atoms.map t.apply)) = ({ m with atoms := m.atoms.map t.apply }, .ok ()) := by
  unfold setAtoms
  rw [chunk3_flat3]
  simp [h]

theorem setOriginPoint_atoms (m : Mol K) (xs : List K) : (m.setOriginPoint xs).1.atoms = m.atoms ∧
    (m.setOriginPoint xs).1.species = m.species ∧ (m.setOriginPoint xs).1.orientation = m.orientation := by
  unfold setOriginPoint
  split <;> exact ⟨rfl, rfl, rfl⟩

theorem setOriginIdx_atoms (m : Mol K) (x : MolVal K) : (m.setOriginIdx x).1.atoms = m.atoms ∧
    (m.setOriginIdx x).1.species = m.species ∧ (m.setOriginIdx x).1.orientation = m.orientation := by
  unfold setOriginIdx
  split
  · exact ⟨rfl, rfl, rfl⟩
  · split <;> exact ⟨rfl, rfl, rfl⟩

theorem setOriginByIdx_atoms (m : Mol K) (x : MolVal K) : (m.setOriginByIdx x).1.atoms = m.atoms ∧
    (m.setOriginByIdx x).1.species = m.species ∧ (m.setOriginByIdx x).1.orientation = m.orientation := by
  unfold setOriginByIdx
  split
  · exact ⟨rfl, rfl, rfl⟩
  · exact setOriginIdx_atoms _ _

theorem removeAtoms_cases (m : Mol K) (hl : m.species.length = m.atoms.length) (rs : List ℤ) (x : MolVal K) :
    (∃ e, m.removeAtoms rs x = (m, .error e)) ∨
      ((∀ r ∈ rs, -(m.atoms.length : ℤ) ≤ r ∧ r < m.atoms.length) ∧
        m.removeAtoms rs x = ({ m with
          species := rowsAt m.species (remaining m.atoms.length rs)
          atoms := rowsAt m.atoms (remaining m.atoms.length rs) }, .ok ())) := by
  unfold removeAtoms
  cases hc : m.checkNewOrigin rs x with
  | error e => exact Or.inl ⟨e, rfl⟩
  | ok u =>
    cases u
    simp only
    generalize (if m.tracking = true then _ else _ : Py Bool) = b
    rcases b with e | _ | _
    · exact Or.inl ⟨e, rfl⟩
    · cases hd : npDelete m.species rs with
      | error e => exact Or.inl ⟨e, rfl⟩
      | ok ss =>
        obtain ⟨h1, h2⟩ := npDelete_ok hd
        rw [hl] at h1 h2
        right
        refine ⟨h1, ?_⟩
        simp only
        rw [npDelete_succeeds m.atoms rs h1, h2]
    · exact Or.inl ⟨_, rfl⟩

theorem transform_atoms (m : Mol K) (hl : m.species.length = m.atoms.length) (t : Tr K) (b : Bool) :
    (m.transform t b).1.atoms = m.atoms.map t.apply ∧ (m.transform t b).1.species = m.species ∧
      (m.transform t b).1.orientation = m.orientation := by
  unfold transform
  rw [transform_setAtoms m hl t]
  simp only
  split
  · split
    · split <;> exact ⟨rfl, rfl, rfl⟩
    · split
      · exact ⟨rfl, rfl, rfl⟩
      · exact setOriginPoint_atoms _ _
  · exact ⟨rfl, rfl, rfl⟩

theorem step_length (m : Mol K) (h : m.species.length = m.atoms.length) (o : Op K) :
    (m.step o).1.species.length = (m.step o).1.atoms.length := by
  cases o with
  | setAtoms s p =>
    rcases hs : m.setAtoms s p with ⟨m', r⟩
    simp only [step, hs]
    cases r with
    | error e => rw [setAtoms_err hs]; exact h
    | ok u =>
      obtain ⟨ps, -, hl, rfl⟩ := setAtoms_ok hs
      exact hl.symm
  | updatePositions p =>
    simp only [step, updatePositions]
    split
    · exact h
    · rename_i hne
      cases hc : chunk3 p with
      | error e => exact h
      | ok ps =>
        have := chunk3_length _ _ hc
        subst this
        rw [flat3_length] at hne
        simp only
        omega
  | updateSpecies s =>
    simp only [step, updateSpecies]
    split
    · exact h
    · rename_i hne
      simp only
      omega
  | removeAtoms rs x =>
    simp only [step]
    rcases removeAtoms_cases m h rs x with ⟨e, he⟩ | ⟨h1, he⟩
    · rw [he]; exact h
    · rw [he]
      simp only
      rw [rowsAt_length _ _ (by rw [h]; exact remaining_lt), rowsAt_length _ _ remaining_lt]
  | setOriginPoint xs =>
    simp only [step]
    rw [(setOriginPoint_atoms m xs).1, (setOriginPoint_atoms m xs).2.1]; exact h
  | setOriginIdx x =>
    simp only [step]
    rw [(setOriginByIdx_atoms m x).1, (setOriginByIdx_atoms m x).2.1]; exact h
  | setPriority x => simp only [step, setPriority]; split <;> exact h
  | setOrientation M => simp only [step, setOrientation]; split_ifs <;> exact h
  | resetOrientation => simp only [step, resetOrientation, setOrientation]; split_ifs <;> exact h
  | transform t b =>
    simp only [step]
    rw [(transform_atoms m h t b).1, (transform_atoms m h t b).2.1, List.length_map]; exact h
  | printWarnings b => exact h

theorem make_cases {s : List ℤ} {p : List K} {x : MolVal K} {M : Option (M3 K)} {m : Mol K}
    (h : Mol.make s p x M = .ok m) :
    ∃ ps, p = flat3 ps ∧ ps.length = s.length ∧ m.species = s ∧ m.atoms = ps ∧ m.priority = 0 ∧
      (m.orientation = 1 ∨ ∃ N m0, M = some N ∧ (Mol.setOrientation m0 N) = (m, .ok ())) := by
  unfold Mol.make at h
  rcases h1 : Mol.setAtoms (⟨[], [], 0, 1, false, none, none, true⟩ : Mol K) s p with ⟨m1, r1⟩
  rw [h1] at h
  cases r1 with
  | error e => cases h
  | ok u =>
    cases u
    obtain ⟨ps, hp, hl, rfl⟩ := setAtoms_ok h1
    simp only at h
    generalize hr : Mol.initOrigin _ x = r at h
    have hr' : r.1.atoms = ps ∧ r.1.species = s ∧ r.1.orientation = 1 ∧ r.1.priority = 0 := by
      have hpt : ∀ xs : List K, ∀ m1 : Mol K, (m1.setOriginPoint xs).1.priority = m1.priority := by
        intro xs m1; unfold Mol.setOriginPoint; split <;> rfl
      have hix : ∀ y : MolVal K, ∀ m1 : Mol K, (m1.setOriginByIdx y).1.priority = m1.priority := by
        intro y m1; unfold Mol.setOriginByIdx Mol.setOriginIdx; split
        · rfl
        · split
          · rfl
          · split <;> rfl
      cases x <;> subst hr <;>
        first
          | exact ⟨(setOriginPoint_atoms _ _).1, (setOriginPoint_atoms _ _).2.1, (setOriginPoint_atoms _ _).2.2, hpt _ _⟩
          | exact ⟨(setOriginByIdx_atoms _ _).1, (setOriginByIdx_atoms _ _).2.1, (setOriginByIdx_atoms _ _).2.2, hix _ _⟩
    obtain ⟨m2, r2⟩ := r
    cases r2 with
    | error e => cases h
    | ok u =>
      cases u
      simp only at h
      obtain ⟨ha, hsp, ho, hpr⟩ := hr'
      cases M with
      | none => cases h; exact ⟨ps, hp, hl, hsp, ha, hpr, Or.inl ho⟩
      | some N =>
        simp only at h
        rcases h3 : m2.setOrientation N with ⟨m3, r3⟩
        rw [h3] at h
        cases r3 with
        | error e => cases h
        | ok u =>
          cases h
          refine ⟨ps, hp, hl, ?_, ?_, ?_, Or.inr ⟨N, m2, rfl, h3⟩⟩
          all_goals
            unfold Mol.setOrientation at h3
            split_ifs at h3 <;> cases h3
            assumption

/-- **C74.** A molecule that was constructed has one species per position, and so it stays whatever calls are made on it,
whether they succeed or raise. -/
theorem C74_species_match_positions {s : List ℤ} {p : List K} {x : MolVal K} {M : Option (M3 K)} {m : Mol K}
    (h : Mol.make s p x M = .ok m) (ops : List (Op K)) :
    (m.run ops).species.length = (m.run ops).atoms.length := by
  have h0 : m.species.length = m.atoms.length := by
    obtain ⟨ps, -, hl, h1, h2, -⟩ := make_cases h
    rw [h1, h2, hl]
  clear h
  induction ops generalizing m with
  | nil => exact h0
  | cons o ops ih => exact ih (step_length m h0 o)

/-- Construction fails exactly when the counts do not fit (for a molecule without further arguments). -/
theorem C74_construction_checked (s : List ℤ) (p : List K) :
    (∃ m, Mol.make s p .none none = .ok m ∧ m.species = s ∧ flat3 m.atoms = p) ↔ p.length = 3 * s.length := by
  constructor
  · rintro ⟨m, h, hs, hp⟩
    obtain ⟨ps, rfl, hl, -⟩ := make_cases h
    rw [flat3_length, hl]
  · intro h
    have hc : ∀ (n : ℕ) (l : List K), l.length = 3 * n → ∃ ps, chunk3 l = .ok ps ∧ ps.length = n := by
      intro n
      induction n with
      | zero => intro l hl; cases l with
        | nil => exact ⟨[], rfl, rfl⟩
        | cons a l => simp at hl
      | succ n ih =>
        intro l hl
        match l, hl with
        | a :: b :: c :: l, hl =>
          obtain ⟨ps, hps, hn⟩ := ih l (by simp at hl; omega)
          exact ⟨⟨a, b, c⟩ :: ps, by rw [chunk3, hps]; rfl, by simp [hn]⟩
        | [], hl => simp at hl
        | [_], hl => simp at hl; omega
        | [_, _], hl => simp at hl; omega
    obtain ⟨ps, hps, hn⟩ := hc s.length p h
    refine ⟨⟨ps, s, 0, 1, false, none, some ⟨0, 0, 0⟩, true⟩, ?_, rfl, (chunk3_length _ _ hps).symm⟩
    simp [Mol.make, Mol.setAtoms, hps, hn, Mol.initOrigin, Mol.setOriginPoint]

/-! ## C75 -/

/-- **C75.** `transform` maps every position, keeps species, priority and orientation, does not raise when the origin can be
read, and the origin, fixed or tracked, becomes its image. -/
theorem C75_origin_moves (m : Mol K) (hl : m.species.length = m.atoms.length) (o : V3 K) (ho : m.origin = .ok o) (t : Tr K) :
    ∃ m', m.transform t true = (m', .ok ()) ∧ m'.atoms = m.atoms.map t.apply ∧ m'.species = m.species ∧
      m'.priority = m.priority ∧ m'.orientation = m.orientation ∧ m'.origin = .ok (t.apply o) := by
  unfold origin at ho
  unfold transform
  rw [transform_setAtoms m hl t]
  simp only
  rw [if_pos trivial]
  by_cases ht : m.tracking = true
  · rw [if_pos ht] at ho ⊢
    cases hi : m.originIdx with
    | none => rw [hi] at ho; cases ho
    | some i =>
      simp only [hi] at ho
      simp only [reduceCtorEq, and_false, if_false]
      refine ⟨_, rfl, rfl, rfl, rfl, rfl, ?_⟩
      unfold origin
      rw [if_pos ht]
      simp only [List.length_map]
      cases hn : normIdx m.atoms.length i with
      | error e => rw [hn] at ho; cases ho
      | ok j =>
        rw [hn] at ho
        simp only [bind, Except.bind, pyGet, List.getElem?_map] at ho ⊢
        cases hj : m.atoms[j]? with
        | none => rw [hj] at ho; cases ho
        | some q => rw [hj] at ho; cases ho; rfl
  · rw [if_neg ht] at ho ⊢
    cases hp : m.originPt with
    | none => rw [hp] at ho; cases ho
    | some q =>
      rw [hp] at ho
      have ho' := Except.ok.inj ho
      subst ho'
      simp only [origin, if_neg ht]
      simp only [setOriginPoint]
      refine ⟨_, rfl, rfl, rfl, rfl, rfl, ?_⟩
      simp

/-- **C75 (transform_origin=False).** The positions are mapped; a fixed origin stays where it is, a tracked one is the image
of the tracked position. -/
theorem C75_origin_stays (m : Mol K) (hl : m.species.length = m.atoms.length) (o : V3 K) (ho : m.origin = .ok o) (t : Tr K) :
    ∃ m', m.transform t false = (m', .ok ()) ∧ m'.atoms = m.atoms.map t.apply ∧ m'.species = m.species ∧
      m'.origin = .ok (if m.tracking then t.apply o else o) := by
  have h1 := C75_origin_moves m hl o ho t
  unfold transform at h1 ⊢
  rw [transform_setAtoms m hl t] at h1 ⊢
  simp only [if_true, Bool.false_eq_true, if_false] at h1 ⊢
  refine ⟨_, rfl, rfl, rfl, ?_⟩
  by_cases ht : m.tracking = true
  · rw [if_pos ht] at h1 ⊢
    obtain ⟨m', hm, -, -, -, -, h⟩ := h1
    split at hm
    · cases hm
    · cases hm; exact h
  · rw [if_neg ht]
    unfold origin at ho ⊢
    rw [if_neg ht] at ho ⊢
    exact ho

/-- Concrete case: a tracked origin under a rotation by 90 degrees about z. -/
example : (Mol.transform (⟨[⟨1, 0, 0⟩, ⟨0, 2, 0⟩], [6, 8], 0, 1, true, some (-1), none, true⟩ : Mol ℚ)
      (.matrix .general ⟨0, -1, 0, 1, 0, 0, 0, 0, 1⟩ none true false) true).1.origin = .ok ⟨-2, 0, 0⟩ ∧
    Mol.origin (⟨[⟨1, 0, 0⟩, ⟨0, 2, 0⟩], [6, 8], 0, 1, true, some (-1), none, true⟩ : Mol ℚ) = .ok ⟨0, 2, 0⟩ := by
  constructor <;> decide +kernel

/-! ## C77 -/

/-- **C77.** When `remove_atoms` succeeds, exactly the positions not requested remain, in order, for atoms and species alike,
and nothing else changes.  -/
theorem C77_removes_exactly (m m' : Mol K) (hl : m.species.length = m.atoms.length) (rs : List ℤ) (x : MolVal K)
    (h : m.removeAtoms rs x = (m', .ok ())) :
    m' = { m with species := rowsAt m.species (remaining m.atoms.length rs)
                  atoms := rowsAt m.atoms (remaining m.atoms.length rs) } := by
  rcases removeAtoms_cases m hl rs x with ⟨e, he⟩ | ⟨-, he⟩
  · rw [he] at h; cases h
  · rw [he] at h; cases h; rfl

/-- **C77 (requests out of range).** They make the call raise and leave the molecule as it was. -/
theorem C77_out_of_range (m : Mol K) (hl : m.species.length = m.atoms.length) (rs : List ℤ) (x : MolVal K) (r : ℤ) (hr : r ∈ rs)
    (hb : r < -(m.atoms.length : ℤ) ∨ m.atoms.length ≤ r) : ∃ e, m.removeAtoms rs x = (m, .error e) := by
  rcases removeAtoms_cases m hl rs x with h | ⟨h, -⟩
  · exact h
  · have := h r hr; omega

/-- **C77 (success).** With a fixed origin and without new_origin_idx every list of indices in range is accepted. -/
theorem C77_succeeds (m : Mol K) (hl : m.species.length = m.atoms.length) (ht : m.tracking = false) (rs : List ℤ)
    (hr : ∀ r ∈ rs, -(m.atoms.length : ℤ) ≤ r ∧ r < m.atoms.length) : ∃ m', m.removeAtoms rs .none = (m', .ok ()) := by
  unfold removeAtoms checkNewOrigin
  simp only [ht, Bool.false_eq_true, if_false]
  rw [npDelete_succeeds m.species rs (by rw [hl]; exact hr), npDelete_succeeds m.atoms rs hr]
  exact ⟨_, rfl⟩

/-- Concrete case: a repeated request and a negative one. -/
example : (Mol.removeAtoms (⟨[⟨1, 0, 0⟩, ⟨2, 0, 0⟩, ⟨3, 0, 0⟩, ⟨4, 0, 0⟩], [1, 2, 3, 4], 0, 1, false, none, some 0, true⟩ : Mol ℚ)
    [1, 1, -1] .none).1.species = [1, 3] ∧ remaining 4 [1, 1, -1] = [0, 2] := by
  constructor <;> decide +kernel

/-! ## C76 -/

theorem rowsAt_get {α : Type} (xs : List α) (is : List ℕ) (h : ∀ i ∈ is, i < xs.length) (k : ℕ) :
    (rowsAt xs is)[k]? = is[k]?.bind (xs[·]?) := by
  induction is generalizing k with
  | nil => rfl
  | cons i is ih =>
    have hi := h i (by simp)
    have e : rowsAt xs (i :: is) = xs[i] :: rowsAt xs is := by
      unfold rowsAt
      rw [List.filterMap_cons, List.getElem?_eq_getElem hi]
    rw [e]
    cases k with
    | zero => simp [List.getElem?_eq_getElem hi]
    | succ k => simpa using ih (fun j hj => h j (by simp [hj])) k

/-- **C76 (partial).** The tracked atom stays the origin if its index is not negative and only atoms behind it are removed,
or its index is negative and only atoms before it are removed.  Missing: every other removal, where the index is not
adapted (`C76_shift_refuted`, `C76_alias_refuted`). -/
theorem C76_tracked_origin_partial (m m' : Mol K) (hl : m.species.length = m.atoms.length) (ht : m.tracking = true) (i : ℤ)
    (hi : m.originIdx = some i) (o : V3 K) (ho : m.origin = .ok o) (rs : List ℤ) (x : MolVal K)
    (h : m.removeAtoms rs x = (m', .ok ()))
    (hside : (0 ≤ i ∧ ∀ r ∈ rs, i < position m.atoms.length r) ∨
      (i < 0 ∧ ∀ r ∈ rs, position m.atoms.length r < position m.atoms.length i)) :
    m'.origin = .ok o := by
  have hm := C77_removes_exactly m m' hl rs x h
  set n := m.atoms.length with hn
  unfold origin at ho ⊢
  rw [if_pos ht] at ho
  have ht' : m'.tracking = true := by rw [hm]; exact ht
  have hi' : m'.originIdx = some i := by rw [hm]; exact hi
  have ha' : m'.atoms = rowsAt m.atoms (remaining n rs) := by rw [hm]
  rw [if_pos ht']
  simp only [hi, hi', ha'] at ho ⊢
  rw [rowsAt_length _ _ remaining_lt]
  cases hj : normIdx n i with
  | error e => rw [hj] at ho; cases ho
  | ok j =>
    rw [hj] at ho
    obtain ⟨hp, hjn⟩ := normIdx_ok hj
    simp only [bind, Except.bind, pyGet] at ho
    have hat : m.atoms[j]? = some o := by
      cases hq : m.atoms[j]? with
      | none => rw [hq] at ho; cases ho
      | some q => rw [hq] at ho; cases ho; rfl
    -- the remaining positions around j
    suffices hs : ∃ k : ℕ, normIdx (remaining n rs).length i = .ok k ∧ (remaining n rs)[k]? = some j by
      obtain ⟨k, hk, hkj⟩ := hs
      rw [hk]
      simp only [bind, Except.bind, pyGet]
      rw [rowsAt_get _ _ remaining_lt, hkj]
      simp [hat]
    clear_value n
    clear hm ha' hn hl h
    obtain ⟨d, rfl⟩ : ∃ d, n = j + d := ⟨n - j, by omega⟩
    rcases hside with ⟨h0, hr⟩ | ⟨h0, hr⟩
    · have hij : i = j := by rw [← hp]; unfold position; rw [if_neg (by omega)]
      obtain ⟨d, rfl⟩ : ∃ d', d = 1 + d' := ⟨d - 1, by omega⟩
      have e : remaining (j + (1 + d)) rs = List.range (j + 1) ++ (remaining (j + (1 + d)) rs).drop (j + 1) := by
        have : remaining (j + (1 + d)) rs = List.range (j + 1) ++
            ((List.range d).map (j + 1 + ·)).filter fun a : ℕ => decide (∀ r ∈ rs, position (j + (1 + d)) r ≠ a) := by
          unfold remaining
          rw [show j + (1 + d) = (j + 1) + d by ring, List.range_add, List.filter_append]
          congr 1
          rw [List.filter_eq_self]
          intro a ha
          have ha := List.mem_range.mp ha
          rw [decide_eq_true_eq]
          intro r hrr
          have := hr r hrr
          rw [show j + (1 + d) = (j + 1) + d by ring] at this
          omega
        rw [this, List.drop_left' (by simp)]
      have hlen : j + 1 ≤ (remaining (j + (1 + d)) rs).length := by rw [e]; simp
      refine ⟨j, ?_, ?_⟩
      · rw [hij, normIdx_of (by omega) (by omega)]
        unfold position
        rw [if_neg (by omega)]
        rfl
      · rw [e, List.getElem?_append_left (by simp)]
        simp
    · have hij : i + (j + d : ℕ) = j := by
        have := hp
        unfold position at this
        rwa [if_pos h0] at this
      have hdi : i = -(d : ℤ) := by push_cast at hij; omega
      have e : remaining (j + d) rs = (List.range j).filter (fun a : ℕ => decide (∀ r ∈ rs, position (j + d) r ≠ a)) ++
          (List.range d).map (j + ·) := by
        unfold remaining
        rw [List.range_add, List.filter_append]
        congr 1
        rw [List.filter_eq_self]
        intro a ha
        obtain ⟨b, -, rfl⟩ := List.mem_map.mp ha
        rw [decide_eq_true_eq]
        intro r hrr
        have := hr r hrr
        rw [hp] at this
        push_cast
        omega
      set L := (List.range j).filter (fun a : ℕ => decide (∀ r ∈ rs, position (j + d) r ≠ a)) with hL
      have hlen : (remaining (j + d) rs).length = L.length + d := by rw [e]; simp
      refine ⟨L.length, ?_, ?_⟩
      · rw [hlen, normIdx_of (by omega) (by omega)]
        unfold position
        rw [if_pos h0]
        congr 1
        push_cast
        omega
      · rw [e, List.getElem?_append_right le_rfl]
        have : 0 < d := by omega
        simp [this]

/-- Concrete case: atom 1 is tracked, the last of four atoms is removed. -/
example : (Mol.removeAtoms (⟨[⟨1, 0, 0⟩, ⟨2, 0, 0⟩, ⟨3, 0, 0⟩, ⟨4, 0, 0⟩], [1, 2, 3, 4], 0, 1, true, some 1, none, true⟩ : Mol ℚ)
    [-1] .none).1.origin = .ok ⟨2, 0, 0⟩ := by decide +kernel

end

/-- **C76, finding (index not shifted).** The origin tracks atom 1, atom 0 is removed: the call succeeds and the origin is
now another atom. -/
theorem C76_shift_refuted :
    ∃ (m m' : Mol ℚ), m.species.length = m.atoms.length ∧ m.tracking = true ∧ m.originIdx = some 1 ∧
      m.origin = .ok ⟨2, 0, 0⟩ ∧ m.removeAtoms [0] .none = (m', .ok ()) ∧ ⟨2, 0, 0⟩ ∈ m'.atoms ∧
      m'.origin = .ok ⟨3, 0, 0⟩ :=
  ⟨⟨[⟨1, 0, 0⟩, ⟨2, 0, 0⟩, ⟨3, 0, 0⟩], [1, 2, 3], 0, 1, true, some 1, none, true⟩,
    ⟨[⟨2, 0, 0⟩, ⟨3, 0, 0⟩], [2, 3], 0, 1, true, some 1, none, true⟩, rfl, rfl, rfl, by decide +kernel, rfl, by simp, by decide +kernel⟩

/-- **C76, finding (alias).** The origin tracks atom -1; removing the same atom under its other index is not noticed. -/
theorem C76_alias_refuted :
    ∃ (m m' : Mol ℚ), m.species.length = m.atoms.length ∧ m.tracking = true ∧ m.originIdx = some (-1) ∧
      m.origin = .ok ⟨3, 0, 0⟩ ∧ m.removeAtoms [2] .none = (m', .ok ()) ∧ ⟨3, 0, 0⟩ ∉ m'.atoms ∧ m'.origin = .ok ⟨2, 0, 0⟩ :=
  ⟨⟨[⟨1, 0, 0⟩, ⟨2, 0, 0⟩, ⟨3, 0, 0⟩], [1, 2, 3], 0, 1, true, some (-1), none, true⟩,
    ⟨[⟨1, 0, 0⟩, ⟨2, 0, 0⟩], [1, 2], 0, 1, true, some (-1), none, true⟩, rfl, rfl, rfl, by decide +kernel, rfl, by decide +kernel,
    by decide +kernel⟩

/-- **C76, finding (dangling index).** The origin tracks the last atom; after removing another atom the origin cannot be
read any more. -/
theorem C76_dangling_refuted :
    ∃ (m m' : Mol ℚ), m.species.length = m.atoms.length ∧ m.origin = .ok ⟨2, 0, 0⟩ ∧
      m.removeAtoms [0] .none = (m', .ok ()) ∧ ⟨2, 0, 0⟩ ∈ m'.atoms ∧ m'.origin = .error .index :=
  ⟨⟨[⟨1, 0, 0⟩, ⟨2, 0, 0⟩], [1, 2], 0, 1, true, some 1, none, true⟩,
    ⟨[⟨2, 0, 0⟩], [2], 0, 1, true, some 1, none, true⟩, rfl, by decide +kernel, rfl, by simp, by decide +kernel⟩

section
variable {K : Type} [Field K] [LinearOrder K] [IsStrictOrderedRing K]

/-! ## C78 -/

/-- **C78 (partial).** Every call but `set_origin(idx=...)` that raises leaves a molecule with readable origin unchanged
(`transform` does not raise at all).  Missing: `set_origin(idx=...)` (`C78_set_origin_refuted`). -/
theorem C78_rejected_calls_partial (m : Mol K) (hl : m.species.length = m.atoms.length) (p : V3 K) (ho : m.origin = .ok p)
    (o : Op K) (hne : ∀ x, o ≠ .setOriginIdx x) (m' : Mol K) (e : PyErr) (h : m.step o = (m', .error e)) : m' = m := by
  cases o with
  | setAtoms s q => exact setAtoms_err h
  | updatePositions q =>
    simp only [step, updatePositions] at h
    split at h
    · cases h; rfl
    · split at h <;> cases h; rfl
  | updateSpecies s =>
    simp only [step, updateSpecies] at h
    split at h <;> cases h; rfl
  | removeAtoms rs x =>
    simp only [step] at h
    rcases removeAtoms_cases m hl rs x with ⟨e', he⟩ | ⟨-, he⟩
    · rw [he] at h; cases h; rfl
    · rw [he] at h; cases h
  | setOriginPoint xs =>
    simp only [step, setOriginPoint] at h
    split at h <;> cases h; rfl
  | setOriginIdx x => exact absurd rfl (hne x)
  | setPriority x =>
    simp only [step, setPriority] at h
    split at h <;> cases h; rfl
  | setOrientation M =>
    simp only [step, setOrientation] at h
    split_ifs at h <;> cases h <;> rfl
  | resetOrientation =>
    simp only [step, resetOrientation, setOrientation] at h
    split_ifs at h <;> cases h <;> rfl
  | transform t b =>
    cases b with
    | true =>
      obtain ⟨m2, h2, -⟩ := C75_origin_moves m hl p ho t
      simp only [step, h2] at h; cases h
    | false =>
      obtain ⟨m2, h2, -⟩ := C75_origin_stays m hl p ho t
      simp only [step, h2] at h; cases h
  | printWarnings b => cases h

/-- **C78 (set_origin).** What a refused `set_origin(idx=...)` does: atoms, species, index and point stay, tracking is
switched on. -/
theorem C78_set_origin_effect (m m' : Mol K) (x : MolVal K) (e : PyErr) (h : m.setOriginByIdx x = (m', .error e)) :
    m' = { m with tracking := true } := by
  unfold setOriginByIdx setOriginIdx at h
  split at h
  · cases h
  · split at h
    · cases h; rfl
    · split at h <;> cases h; rfl

/-- Concrete case: a rejected update of the positions. -/
example : Mol.step (⟨[⟨1, 0, 0⟩], [6], 0, 1, false, none, some 0, true⟩ : Mol ℚ) (.updatePositions [1, 2]) =
    (⟨[⟨1, 0, 0⟩], [6], 0, 1, false, none, some 0, true⟩, .error .value) := rfl

end

/-- **C78, finding.** A molecule with fixed origin: `set_origin(idx=7)` raises IndexError, and afterwards the origin cannot
be read (AttributeError); before the call it was (5,0,0). -/
theorem C78_set_origin_refuted :
    ∃ (m m' : Mol ℚ), Mol.make [6] [1, 0, 0] (.arr [5, 0, 0]) none = .ok m ∧ m.origin = .ok ⟨5, 0, 0⟩ ∧
      m.step (.setOriginIdx (.int 7)) = (m', .error .index) ∧ m'.origin = .error .attribute ∧ m' ≠ m :=
  ⟨⟨[⟨1, 0, 0⟩], [6], 0, 1, false, none, some ⟨5, 0, 0⟩, true⟩, ⟨[⟨1, 0, 0⟩], [6], 0, 1, true, none, some ⟨5, 0, 0⟩, true⟩,
    rfl, rfl, rfl, rfl, by simp⟩

section
variable {K : Type} [Field K] [LinearOrder K] [IsStrictOrderedRing K]

/-! ## C79 -/

theorem nearRotation_iff (M : M3 K) :
    NearRotation M ↔ ¬ 1 / 10 ^ 6 < |M.det - 1| ∧ ¬ 1 / 10 ^ 6 < Tr.sumAbs (M * M.transpose - 1) := by
  unfold NearRotation
  simp only [not_lt]
  have e1 : (⟨M.m00, M.m01, M.m02⟩ : V3 K).dot ((⟨M.m10, M.m11, M.m12⟩ : V3 K).cross ⟨M.m20, M.m21, M.m22⟩) = M.det := by
    simp [M3.det, V3.dot, V3.cross]; ring
  have e2 : Tr.sumAbs (M * M.transpose - 1) =
      |(⟨M.m00, M.m01, M.m02⟩ : V3 K).dot ⟨M.m00, M.m01, M.m02⟩ - 1| + |(⟨M.m10, M.m11, M.m12⟩ : V3 K).dot ⟨M.m10, M.m11, M.m12⟩ - 1| +
      |(⟨M.m20, M.m21, M.m22⟩ : V3 K).dot ⟨M.m20, M.m21, M.m22⟩ - 1| +
      2 * (|(⟨M.m00, M.m01, M.m02⟩ : V3 K).dot ⟨M.m10, M.m11, M.m12⟩| + |(⟨M.m00, M.m01, M.m02⟩ : V3 K).dot ⟨M.m20, M.m21, M.m22⟩| +
        |(⟨M.m10, M.m11, M.m12⟩ : V3 K).dot ⟨M.m20, M.m21, M.m22⟩|) := by
    simp only [Tr.sumAbs, M3.one_def, M3.sub_def, M3.mul_def, M3.transpose, V3.dot, sub_zero]
    rw [mul_comm M.m10 M.m00, mul_comm M.m11 M.m01, mul_comm M.m12 M.m02, mul_comm M.m20 M.m00, mul_comm M.m21 M.m01,
      mul_comm M.m22 M.m02, mul_comm M.m20 M.m10, mul_comm M.m21 M.m11, mul_comm M.m22 M.m12]
    ring
  rw [e1, e2]

theorem nearRotation_of (M : M3 K) (h1 : ¬ 1 / 10 ^ 6 < |M.det - 1|) (h2 : ¬ 1 / 10 ^ 6 < Tr.sumAbs (M * M.transpose - 1)) :
    NearRotation M := (nearRotation_iff M).mpr ⟨h1, h2⟩

theorem nearRotation_one : NearRotation (1 : M3 K) := by
  rw [M3.one_def]
  constructor <;> simp [V3.dot, V3.cross]

theorem setOrientation_near (m m' : Mol K) (M : M3 K) (h : m.setOrientation M = (m', .ok ())) : NearRotation m'.orientation := by
  unfold setOrientation at h
  split_ifs at h with h1 h2 <;> cases h
  exact nearRotation_of M h1 h2

/-- **C79.** The orientation of a constructed molecule is a rotation to within 1e-6, after any history of calls. -/
theorem C79_orientation_is_rotation {s : List ℤ} {p : List K} {x : MolVal K} {M : Option (M3 K)} {m : Mol K}
    (h : Mol.make s p x M = .ok m) (ops : List (Op K)) : NearRotation (m.run ops).orientation := by
  have h0 : m.species.length = m.atoms.length ∧ NearRotation m.orientation := by
    obtain ⟨ps, -, hl, h1, h2, -, ho⟩ := make_cases h
    refine ⟨by rw [h1, h2, hl], ?_⟩
    rcases ho with ho | ⟨N, m0, -, ho⟩
    · rw [ho]; exact nearRotation_one
    · exact setOrientation_near _ _ _ ho
  clear h
  induction ops generalizing m with
  | nil => exact h0.2
  | cons o ops ih =>
    refine ih ⟨step_length m h0.1 o, ?_⟩
    obtain ⟨hl, hr⟩ := h0
    cases o with
    | setAtoms s p =>
      rcases hs : m.setAtoms s p with ⟨m', r⟩
      simp only [step, hs]
      cases r with
      | error e => rw [setAtoms_err hs]; exact hr
      | ok u =>
        obtain ⟨ps, -, -, rfl⟩ := setAtoms_ok hs
        exact hr
    | updatePositions p =>
      simp only [step, updatePositions]
      split
      · exact hr
      · split <;> exact hr
    | updateSpecies s => simp only [step, updateSpecies]; split <;> exact hr
    | removeAtoms rs x =>
      simp only [step]
      rcases removeAtoms_cases m hl rs x with ⟨e, he⟩ | ⟨h1, he⟩ <;> rw [he] <;> exact hr
    | setOriginPoint xs => simp only [step]; rw [(setOriginPoint_atoms m xs).2.2]; exact hr
    | setOriginIdx x => simp only [step]; rw [(setOriginByIdx_atoms m x).2.2]; exact hr
    | setPriority x => simp only [step, setPriority]; split <;> exact hr
    | setOrientation N =>
      rcases hs : m.setOrientation N with ⟨m', r⟩
      simp only [step, hs]
      cases r with
      | ok u => exact setOrientation_near _ _ _ hs
      | error e => unfold Mol.setOrientation at hs; split_ifs at hs <;> cases hs <;> exact hr
    | resetOrientation =>
      rcases hs : m.setOrientation 1 with ⟨m', r⟩
      simp only [step, resetOrientation, hs]
      cases r with
      | ok u => exact setOrientation_near _ _ _ hs
      | error e => unfold Mol.setOrientation at hs; split_ifs at hs <;> cases hs <;> exact hr
    | transform t b => simp only [step]; rw [(transform_atoms m hl t b).2.2]; exact hr
    | printWarnings b => exact hr

/-- **C79 (acceptance).** Every matrix that is a rotation to within 1e-6 is accepted, every other one refused. -/
theorem C79_accepts_rotations (m : Mol K) (M : M3 K) :
    (m.setOrientation M).2 = .ok () ↔ NearRotation M := by
  constructor
  · intro h
    rcases hs : m.setOrientation M with ⟨m', r⟩
    rw [hs] at h
    simp only at h
    subst h
    unfold setOrientation at hs
    split_ifs at hs with h1 h2
    · cases hs
    · cases hs
    · exact nearRotation_of M h1 h2
  · intro h
    obtain ⟨h1, h2⟩ := (nearRotation_iff M).mp h
    unfold setOrientation
    rw [if_neg h1, if_neg h2]

/-! ## C27 (molecules) -/

/-- **C27 for molecules (partial).** Python and numpy integers are stored; everything else, booleans included, is refused
with TypeError and the old priority stays.  (The English statement would also refuse numpy integers, which the code
accepts on purpose.) -/
theorem C27_molecule_partial (m : Mol K) (x : MolVal K) :
    (∀ n, x = .int n ∨ x = .npInt n → m.setPriority x = ({ m with priority := n }, .ok ())) ∧
    ((∀ n, x ≠ .int n ∧ x ≠ .npInt n) → m.setPriority x = (m, .error .type)) := by
  refine ⟨?_, ?_⟩
  · rintro n (rfl | rfl) <;> rfl
  · intro h
    cases x with
    | int n => exact absurd rfl (h n).1
    | npInt n => exact absurd rfl (h n).2
    | _ => rfl

/-! ## C84 -/

/-- **C84.** `from_molecule(transformation=ts)` succeeds when the origin can be read and gives what one MultiTransform of
`ts` gives: all positions and the origin mapped in order, everything else copied. -/
theorem C84_from_molecule (m : Mol K) (hl : m.species.length = m.atoms.length) (o : V3 K) (ho : m.origin = .ok o)
    (ts : List (Tr K)) :
    ∃ m', m.fromMolecule ts = .ok m' ∧ m'.atoms = m.atoms.map (fun p => ts.foldl (fun q t => t.apply q) p) ∧
      m'.species = m.species ∧ m'.priority = m.priority ∧ m'.orientation = m.orientation ∧
      m'.origin = .ok (ts.foldl (fun q t => t.apply q) o) := by
  induction ts generalizing m o with
  | nil => exact ⟨m, rfl, by simp, rfl, rfl, rfl, ho⟩
  | cons t ts ih =>
    obtain ⟨m1, h1, ha, hs, hp, hr, h2⟩ := C75_origin_moves m hl o ho t
    obtain ⟨m2, h3, ha2, hs2, hp2, hr2, h4⟩ := ih m1 (by rw [hs, ha, hl, List.length_map]) _ h2
    refine ⟨m2, ?_, ?_, hs2.trans hs, hp2.trans hp, hr2.trans hr, h4⟩
    · rw [fromMolecule, h1]; exact h3
    · rw [ha2, ha, List.map_map]; rfl

end

end Mol

/-- Concrete case: translation, then rotation, of a molecule with fixed origin. -/
example : (Mol.fromMolecule (⟨[⟨1, 0, 0⟩], [6], 0, 1, false, none, some 0, true⟩ : Mol ℚ)
    [.translation ⟨1, 0, 0⟩ true false, .matrix .general ⟨0, -1, 0, 1, 0, 0, 0, 0, 1⟩ none true false]).map
      (fun m => (m.atoms, m.originPt)) = .ok ([⟨0, 2, 0⟩], some ⟨0, 1, 0⟩) := by
  decide +kernel

end CZ
