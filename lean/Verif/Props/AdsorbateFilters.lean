import Verif.Props.Adsorbate

/-!
# Property C68, first part: the candidates for the target of an adsorbate
-/

namespace CZ
open Spec Ads Surf

theorem foldl_set_true (js : List ℕ) (m : List Bool) : (js.foldl (fun m j => m.set j true) m).length = m.length ∧
    ∀ i, (js.foldl (fun m j => m.set j true) m)[i]? = some true ↔ m[i]? = some true ∨ (i ∈ js ∧ i < m.length) := by
  induction js generalizing m with
  | nil => simp
  | cons j js ih =>
    obtain ⟨h1, h2⟩ := ih (m.set j true)
    refine ⟨by rw [List.foldl_cons, h1, List.length_set], fun i => ?_⟩
    rw [List.foldl_cons, h2, List.getElem?_set, List.length_set]
    by_cases hj : j = i
    · subst hj
      by_cases hl : j < m.length
      · simp [hl]
      · simp [hl]
    · rw [if_neg hj]
      constructor
      · rintro (h | ⟨h, h'⟩)
        · exact .inl h
        · exact .inr ⟨List.mem_cons_of_mem _ h, h'⟩
      · rintro (h | ⟨h, h'⟩)
        · exact .inl h
        · rcases List.mem_cons.mp h with rfl | h
          · exact absurd rfl hj
          · exact .inr ⟨h, h'⟩

theorem maskOf_spec (n : ℕ) (is : List ℤ) (m : List Bool) (h : maskOf n is = .ok m) :
    m.length = n ∧ ∀ i : ℕ, m[i]? = some true ↔ ∃ r ∈ is, position n r = i := by
  unfold maskOf at h
  cases hj : is.mapM (normIdx n) with
  | error e => rw [hj] at h; cases h
  | ok js =>
    rw [hj] at h
    obtain ⟨h1, h2⟩ := mapM_norm n is js hj
    obtain ⟨h3, h4⟩ := foldl_set_true js (List.replicate n false)
    have hm : js.foldl (fun m j => m.set j true) (List.replicate n false) = m := Except.ok.inj h
    rw [hm] at h3 h4
    refine ⟨by simpa using h3, fun i => ?_⟩
    rw [h4, List.length_replicate, ← h2]
    constructor
    · rintro (h5 | h5)
      · rw [List.getElem?_replicate] at h5
        split at h5 <;> cases h5
      · exact h5.1
    · intro h5
      refine .inr ⟨h5, ?_⟩
      obtain ⟨r, hr, hp⟩ := (h2 i).mp h5
      have := h1 r hr
      unfold position at hp
      split_ifs at hp <;> omega

theorem maskOf_ok (n : ℕ) (is : List ℤ) (h : ∀ r ∈ is, -(n : ℤ) ≤ r ∧ r < n) : ∃ m, maskOf n is = .ok m := by
  obtain ⟨js, hj⟩ := mapM_norm_ok n is h
  exact ⟨_, by unfold maskOf; rw [hj]; rfl⟩

/-- The entries of a disjunction of comparisons. -/
theorem foldl_or (species : List ℤ) (zs : List ℤ) (m : List Bool) (hl : m.length = species.length) :
    (zs.foldl (fun m z => npOr m (species.map fun s => decide (s = z))) m).length = species.length ∧
    ∀ i : ℕ, (zs.foldl (fun m z => npOr m (species.map fun s => decide (s = z))) m)[i]? = some true ↔
      m[i]? = some true ∨ ∃ z ∈ zs, species[i]? = some z := by
  induction zs generalizing m with
  | nil => simp [hl]
  | cons z zs ih =>
    have hl' : (npOr m (species.map fun s => decide (s = z))).length = species.length := by simp [npOr, hl]
    obtain ⟨h1, h2⟩ := ih _ hl'
    refine ⟨h1, fun i => ?_⟩
    rw [List.foldl_cons, h2]
    have : (npOr m (species.map fun s => decide (s = z)))[i]? = some true ↔ m[i]? = some true ∨ species[i]? = some z := by
      unfold npOr
      rw [List.getElem?_zipWith, List.getElem?_map]
      by_cases hi : i < species.length
      · rw [List.getElem?_eq_getElem hi, List.getElem?_eq_getElem (by omega : i < m.length)]
        simp
      · rw [List.getElem?_eq_none (by omega : species.length ≤ i), List.getElem?_eq_none (by omega : m.length ≤ i)]
        simp
    rw [this]
    constructor
    · rintro ((h | h) | ⟨y, hy, h⟩)
      · exact .inl h
      · exact .inr ⟨z, List.mem_cons_self, h⟩
      · exact .inr ⟨y, List.mem_cons_of_mem _ hy, h⟩
    · rintro (h | ⟨y, hy, h⟩)
      · exact .inl (.inl h)
      · rcases List.mem_cons.mp hy with rfl | hy
        · exact .inl (.inr h)
        · exact .inr ⟨y, hy, h⟩

theorem getElem?_and (a b : List Bool) (i : ℕ) : (npAnd a b)[i]? = some true ↔ a[i]? = some true ∧ b[i]? = some true := by
  unfold npAnd
  rw [List.getElem?_zipWith]
  cases a[i]? <;> cases b[i]? <;> simp

theorem andBc_spec (a b r : List Bool) (ha : 2 ≤ a.length) (h : andBc a b = .ok r) :
    r.length = a.length ∧ ∀ i : ℕ, r[i]? = some true ↔ a[i]? = some true ∧ (b[i]? = some true ∨ b = [true]) := by
  unfold andBc at h
  split at h
  · rename_i hl
    obtain rfl := Except.ok.inj h
    refine ⟨by simp [npAnd, hl], fun i => ?_⟩
    rw [getElem?_and]
    refine and_congr_right fun _ => ⟨.inl, ?_⟩
    rintro (h1 | rfl)
    · exact h1
    · rw [hl] at ha; simp at ha
  · rename_i hl
    split at h
    · rename_i y
      obtain rfl := Except.ok.inj h
      refine ⟨by simp, fun i => ?_⟩
      rw [List.getElem?_map]
      cases hai : a[i]? with
      | none => simp
      | some x =>
        have : ([y] : List Bool)[i]? = some true → y = true := by
          intro h1
          have := List.mem_of_getElem? h1
          exact (List.mem_singleton.mp this).symm
        simp only [Option.map_some, Option.some.injEq, Bool.and_eq_true, List.cons.injEq, and_true]
        refine and_congr_right fun _ => ⟨.inr, ?_⟩
        rintro (h1 | h1)
        · exact this h1
        · exact h1
    · rename_i hne
      simp at ha
    · cases h

theorem eval_spec (atoms : List (V3 ℝ)) (species : List ℤ) (hs : species.length = atoms.length) (h2 : 2 ≤ atoms.length) (f : Filter)
    (t : Option (List Bool)) (h : f.eval atoms species = .ok t) :
    match t with
    | none => f = .other
    | some m => ∀ i : ℕ, (m[i]? = some true ∨ m = [true]) ↔ Passes atoms species i f := by
  cases f with
  | element zs =>
    cases zs with
    | nil => cases h
    | cons z zs =>
      obtain rfl := Except.ok.inj h
      obtain ⟨h3, h4⟩ := foldl_or species zs (species.map fun s => decide (s = z)) (by simp)
      intro i
      have hne : zs.foldl (fun m z => npOr m (species.map fun s => decide (s = z))) (species.map fun s => decide (s = z)) ≠ [true] := by
        intro hc
        rw [hc] at h3
        simp at h3; omega
      rw [or_iff_left hne, h4]
      show _ ↔ ∃ s ∈ z :: zs, species[i]? = some s
      have : (species.map fun s => decide (s = z))[i]? = some true ↔ species[i]? = some z := by
        rw [List.getElem?_map]; cases species[i]? <;> simp
      rw [this]
      simp
  | mask m =>
    obtain rfl := Except.ok.inj h
    exact fun i => Iff.rfl
  | indices is =>
    simp only [Filter.eval] at h
    cases hm : maskOf atoms.length is with
    | error e => rw [hm] at h; cases h
    | ok m =>
      rw [hm] at h
      obtain rfl := Except.ok.inj h
      obtain ⟨h3, h4⟩ := maskOf_spec _ _ _ hm
      intro i
      have hne : m ≠ [true] := by rintro rfl; simp at h3; omega
      rw [or_iff_left hne, h4]
      exact Iff.rfl
  | spatial f =>
    obtain rfl := Except.ok.inj h
    exact fun i => Iff.rfl
  | other =>
    obtain rfl := Except.ok.inj h
    rfl

theorem applyFilters_spec (atoms : List (V3 ℝ)) (species : List ℤ) (hs : species.length = atoms.length) (h2 : 2 ≤ atoms.length)
    (fs : List Filter) : ∀ (m r : List Bool), m.length = atoms.length → applyFilters atoms species fs m = .ok r →
      r.length = atoms.length ∧ ∀ i : ℕ, r[i]? = some true ↔ m[i]? = some true ∧ ∀ f ∈ fs, Passes atoms species i f := by
  induction fs with
  | nil =>
    intro m r hm h
    obtain rfl := Except.ok.inj h
    simp [hm]
  | cons f fs ih =>
    intro m r hm h
    rw [applyFilters] at h
    cases he : f.eval atoms species with
    | error e => rw [he] at h; cases h
    | ok t =>
      have hsp := eval_spec atoms species hs h2 f t he
      rw [he] at h
      cases t with
      | none =>
        obtain ⟨h3, h4⟩ := ih m r hm h
        refine ⟨h3, fun i => ?_⟩
        rw [h4]
        simp only at hsp
        subst hsp
        simp [Passes]
      | some b =>
        simp only at hsp
        change (andBc m b >>= fun m' => applyFilters atoms species fs m') = _ at h
        cases ha : andBc m b with
        | error e => rw [ha] at h; cases h
        | ok m' =>
          rw [ha] at h
          obtain ⟨h5, h6⟩ := andBc_spec m b m' (by omega) ha
          obtain ⟨h3, h4⟩ := ih m' r (by omega) h
          refine ⟨h3, fun i => ?_⟩
          rw [h4, h6, hsp]
          simp [and_assoc]

theorem applyFilters_ok (atoms : List (V3 ℝ)) (species : List ℤ) (hs : species.length = atoms.length)
    (fs : List Filter) (hf : ∀ f ∈ fs, FilterFits atoms f) : ∀ m : List Bool, m.length = atoms.length →
      ∃ r, applyFilters atoms species fs m = .ok r := by
  induction fs with
  | nil => exact fun m _ => ⟨m, rfl⟩
  | cons f fs ih =>
    intro m hm
    have hff := hf f List.mem_cons_self
    have hrec := ih fun g hg => hf g (List.mem_cons_of_mem _ hg)
    rw [applyFilters]
    have hbc : ∀ b : List Bool, b.length = atoms.length ∨ b.length = 1 → ∃ m', andBc m b = .ok m' ∧ m'.length = atoms.length := by
      intro b hb
      unfold andBc
      by_cases hl : m.length = b.length
      · rw [if_pos hl]
        exact ⟨_, rfl, by simp [npAnd]; omega⟩
      · rw [if_neg hl]
        rcases hb with hb | hb
        · omega
        · obtain ⟨y, rfl⟩ := List.length_eq_one_iff.mp hb
          exact ⟨_, rfl, by simpa using hm⟩
    have go : ∀ b : List Bool, f.eval atoms species = .ok (some b) → (b.length = atoms.length ∨ b.length = 1) →
        ∃ r, (f.eval atoms species >>= fun x => match x with
          | none => applyFilters atoms species fs m
          | some t => andBc m t >>= fun m' => applyFilters atoms species fs m') = .ok r := by
      intro b h3 h4
      obtain ⟨m', h5, h6⟩ := hbc b h4
      obtain ⟨r, h7⟩ := hrec m' h6
      exact ⟨r, by rw [h3]; show (andBc m b >>= _) = _; rw [h5]; exact h7⟩
    cases f with
    | element zs =>
      cases zs with
      | nil => exact absurd rfl hff
      | cons z zs =>
        refine go _ rfl (.inl ?_)
        rw [(foldl_or species zs _ (by simp)).1, hs]
    | mask b => exact go b rfl hff
    | indices is =>
      obtain ⟨b, hb⟩ := maskOf_ok atoms.length is hff
      refine go b (by simp only [Filter.eval]; rw [hb]; rfl) (.inl (maskOf_spec _ _ _ hb).1)
    | spatial f => exact go _ rfl hff
    | other => exact hrec m hm

/-- **C68 (candidates).** The atoms that can be chosen are exactly the surface atoms that satisfy every filter. -/
theorem C68_candidates (atoms : List (V3 ℝ)) (species : List ℤ) (hs : species.length = atoms.length) (h2 : 2 ≤ atoms.length)
    (surface : List ℕ) (fs : List Filter) (cs : List ℕ) (h : candidates atoms species surface fs = .ok cs) (i : ℕ) :
    i ∈ cs ↔ i ∈ surface ∧ ∀ f ∈ fs, Passes atoms species i f := by
  unfold candidates at h
  cases hm : maskOf atoms.length (surface.map fun i : ℕ => (i : ℤ)) with
  | error e => rw [hm] at h; cases h
  | ok m0 =>
    rw [hm] at h
    obtain ⟨h3, h4⟩ := maskOf_spec _ _ _ hm
    change (applyFilters atoms species fs m0 >>= fun m => pure ((List.range m.length).filter fun i => m.getD i false)) = _ at h
    cases ha : applyFilters atoms species fs m0 with
    | error e => rw [ha] at h; cases h
    | ok m =>
      rw [ha] at h
      obtain rfl := Except.ok.inj h
      obtain ⟨h5, h6⟩ := applyFilters_spec atoms species hs h2 fs m0 m h3 ha
      rw [List.mem_filter, List.mem_range, List.getD_eq_getElem?_getD]
      have : (i < m.length ∧ m[i]?.getD false = true) ↔ m[i]? = some true := by
        by_cases hi : i < m.length
        · rw [List.getElem?_eq_getElem hi]; simp [hi]
        · rw [List.getElem?_eq_none (by omega)]; simp
      rw [this, h6, h4]
      refine and_congr_left fun _ => ?_
      constructor
      · rintro ⟨r, hr, hp⟩
        obtain ⟨j, hj, rfl⟩ := List.mem_map.mp hr
        unfold position at hp
        rw [if_neg (by omega)] at hp
        have : j = i := by exact_mod_cast hp
        exact this ▸ hj
      · intro hi
        refine ⟨i, List.mem_map.mpr ⟨i, hi, rfl⟩, ?_⟩
        unfold position
        rw [if_neg (by omega)]

/-- With fitting filters and surface indices in range the candidates are computed without error. -/
theorem C68_candidates_ok (atoms : List (V3 ℝ)) (species : List ℤ) (hs : species.length = atoms.length)
    (surface : List ℕ) (hsurf : ∀ i ∈ surface, i < atoms.length) (fs : List Filter) (hf : ∀ f ∈ fs, FilterFits atoms f) :
    ∃ cs, candidates atoms species surface fs = .ok cs := by
  obtain ⟨m0, hm⟩ := maskOf_ok atoms.length (surface.map fun i : ℕ => (i : ℤ)) (by
    intro r hr
    obtain ⟨j, hj, rfl⟩ := List.mem_map.mp hr
    have := hsurf j hj
    omega)
  obtain ⟨m, hr⟩ := applyFilters_ok atoms species hs fs hf m0 (maskOf_spec _ _ _ hm).1
  refine ⟨(List.range m.length).filter fun i => m.getD i false, ?_⟩
  unfold candidates
  rw [hm]
  show (applyFilters atoms species fs m0 >>= _) = _
  rw [hr]
  rfl

theorem applyFilters_append (atoms : List (V3 ℝ)) (species : List ℤ) (fs gs : List Filter) : ∀ m r, applyFilters atoms species fs m = .ok r →
    applyFilters atoms species (fs ++ gs) m = applyFilters atoms species gs r := by
  induction fs with
  | nil => intro m r h; obtain rfl := Except.ok.inj h; rfl
  | cons f fs ih =>
    intro m r h
    rw [List.cons_append, applyFilters]
    rw [applyFilters] at h
    cases he : f.eval atoms species with
    | error e => rw [he] at h; cases h
    | ok o =>
      rw [he] at h
      cases o with
      | none => exact ih m r h
      | some t =>
        simp only [bind, Except.bind] at h ⊢
        cases hb : andBc m t with
        | error e => rw [hb] at h; cases h
        | ok m' => rw [hb] at h; exact ih m' r h

/-- **C68 (filters refused).** The first filter that does not fit decides the exception: TypeError for an empty list of elements,
ValueError for a mask or a spatial filter of another length than the atoms (and than 1), IndexError for an index that is out of range. -/
theorem C68_filters_refused (atoms : List (V3 ℝ)) (species : List ℤ) (hs : species.length = atoms.length) (h2 : 2 ≤ atoms.length)
    (surface : List ℕ) (hsurf : ∀ i ∈ surface, i < atoms.length) (pre post : List Filter) (hf : ∀ f ∈ pre, FilterFits atoms f) :
    candidates atoms species surface (pre ++ .element [] :: post) = .error .type ∧
    (∀ m : List Bool, ¬ FilterFits atoms (.mask m) → candidates atoms species surface (pre ++ .mask m :: post) = .error .value) ∧
    (∀ g, ¬ FilterFits atoms (.spatial g) → candidates atoms species surface (pre ++ .spatial g :: post) = .error .value) ∧
    (∀ is, ¬ FilterFits atoms (.indices is) → candidates atoms species surface (pre ++ .indices is :: post) = .error .index) := by
  obtain ⟨m0, hm⟩ := maskOf_ok atoms.length (surface.map fun i : ℕ => (i : ℤ)) (by
    intro r hr
    obtain ⟨j, hj, rfl⟩ := List.mem_map.mp hr
    have := hsurf j hj
    omega)
  obtain ⟨r, hr⟩ := applyFilters_ok atoms species hs pre hf m0 (maskOf_spec _ _ _ hm).1
  have hl := (applyFilters_spec atoms species hs h2 pre m0 r (maskOf_spec _ _ _ hm).1 hr).1
  have key : ∀ f e, applyFilters atoms species (f :: post) r = .error e → candidates atoms species surface (pre ++ f :: post) = .error e := by
    intro f e h
    unfold candidates
    rw [hm]
    show (applyFilters atoms species (pre ++ f :: post) m0 >>= _) = _
    rw [applyFilters_append _ _ _ _ _ _ hr, h]
    rfl
  have hbc : ∀ m : List Bool, ¬ (m.length = atoms.length ∨ m.length = 1) → andBc r m = .error .value := by
    intro m h
    push Not at h
    unfold andBc
    rw [if_neg (by omega)]
    split
    · simp at h
    · rename_i x _ _ _; simp at hl; omega
    · rfl
  refine ⟨key _ _ rfl, fun m h => key _ _ ?_, fun g h => key _ _ ?_, fun is h => key _ _ ?_⟩
  · have := hbc m h
    simp only [applyFilters, Filter.eval, bind, Except.bind, this]
  · have := hbc (g atoms) h
    simp only [applyFilters, Filter.eval, bind, Except.bind, this]
  · have h' : ∃ i ∈ is, ¬ (-(atoms.length : ℤ) ≤ i ∧ i < atoms.length) := by
      simpa only [FilterFits, not_forall, exists_prop] using h
    have hmap : ∀ l : List ℤ, (∃ i ∈ l, ¬ (-(atoms.length : ℤ) ≤ i ∧ i < atoms.length)) → l.mapM (normIdx atoms.length) = .error .index := by
      intro l
      induction l with
      | nil => simp
      | cons a l ih =>
        rintro ⟨i, hi, hn⟩
        rw [List.mapM_cons]
        by_cases ha : -(atoms.length : ℤ) ≤ a ∧ a < atoms.length
        · have : ∃ k, normIdx atoms.length a = .ok k := by
            unfold normIdx
            split_ifs <;> first | exact ⟨_, rfl⟩ | omega
          obtain ⟨k, hk⟩ := this
          rw [hk]
          show (l.mapM (normIdx atoms.length) >>= _) = _
          rw [ih ⟨i, (List.mem_cons.mp hi).resolve_left (fun h => hn (h ▸ ha)), hn⟩]
          rfl
        · have : normIdx atoms.length a = .error .index := by
            unfold normIdx
            split_ifs <;> first | rfl | omega
          rw [this]; rfl
    simp only [applyFilters, Filter.eval, maskOf, hmap is h', bind, Except.bind]

/-- Oxygen atoms out of the listed ones among three surface atoms. -/
example : ∃ cs, candidates [⟨0, 0, 0⟩, ⟨1, 0, 0⟩, ⟨0, 1, 0⟩, ⟨0, 0, 1⟩] [8, 8, 1, 8] [0, 1, 2] [.element [8, 7], .indices [1, -1], .other] =
    .ok cs ∧ cs = [1] := ⟨_, rfl, rfl⟩

theorem choose_mem (pick : ℕ) (l : List ℕ) (i : ℕ) (h : choose pick l = .ok i) : i ∈ l := by
  unfold choose at h
  split at h
  · cases h
  · rename_i hl
    have hp : pick % l.length < l.length := Nat.mod_lt _ (List.length_pos_iff.mpr hl)
    rw [pyGet_ok hp] at h
    obtain rfl := Except.ok.inj h
    exact List.getElem_mem hp

end CZ
