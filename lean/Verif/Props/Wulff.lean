import Verif.Spec.Wulff
import Verif.Props.Boundary

/-!
# Properties C72, C73, C91, C92: Wulff constructions
-/

namespace CZ
open Spec

noncomputable section
open Classical

namespace Wulff

/-! ## C72 -/

/-- The k-th of the parts of length `q`. -/
def chunk {α : Type} (q k : ℕ) (xs : List α) : List α := (xs.drop (k * q)).take q

theorem div_eq_iff' {i q k : ℕ} (hq : 0 < q) : i / q = k ↔ k * q ≤ i ∧ i < k * q + q := by
  constructor
  · rintro rfl
    exact ⟨Nat.div_mul_le_self i q, by have := Nat.lt_div_mul_add (a := i) hq; omega⟩
  · rintro ⟨h1, h2⟩
    exact Nat.div_eq_of_lt_le h1 (by rw [Nat.add_mul, one_mul]; exact h2)

theorem chunk_snoc {α : Type} {q : ℕ} (hq : 0 < q) (k : ℕ) (xs : List α) (x : α) :
    chunk q k (xs ++ [x]) = chunk q k xs ++ if xs.length / q = k then [x] else [] := by
  unfold chunk
  rw [List.drop_append, List.take_append, List.length_drop]
  congr 1
  split_ifs with h
  · obtain ⟨h1, h2⟩ := (div_eq_iff' hq).mp h
    rw [Nat.sub_eq_zero_of_le h1, List.drop_zero, List.take_of_length_le (by simp; omega)]
  · have : ¬ (k * q ≤ xs.length ∧ xs.length < k * q + q) := fun hh => h ((div_eq_iff' hq).mpr hh)
    by_cases h1 : k * q ≤ xs.length
    · rw [show q - (xs.length - k * q) = 0 by omega, List.take_zero]
    · rw [List.drop_eq_nil_of_le (by simp; omega), List.take_nil]

theorem place_spec {α : Type} {q m : ℕ} (hq : 0 < q) (A : ℕ → List α) : ∀ (ps xs : List α), xs.length ≤ m * q →
    place q xs.length ps ((List.range m).map fun k => A k ++ chunk q k xs) =
      if xs.length + ps.length ≤ m * q then .ok ((List.range m).map fun k => A k ++ chunk q k (xs ++ ps)) else .error .index
  | [], xs, h => by simp [place, h]
  | p :: ps, xs, h => by
    unfold place
    rw [if_neg hq.ne', List.getElem?_map]
    by_cases hlt : xs.length < m * q
    · have hk : xs.length / q < m := Nat.div_lt_of_lt_mul (by rwa [Nat.mul_comm])
      rw [List.getElem?_range hk]
      simp only [Option.map_some]
      have hset : ((List.range m).map fun k => A k ++ chunk q k xs).set (xs.length / q) (A (xs.length / q) ++ chunk q (xs.length / q) xs ++ [p]) =
          (List.range m).map fun k => A k ++ chunk q k (xs ++ [p]) := by
        apply List.ext_getElem
        · simp
        · intro k h1 h2
          simp only [List.getElem_set, List.getElem_map, List.getElem_range, chunk_snoc hq]
          split_ifs with hk
          · subst hk; rw [List.append_assoc]
          · simp
      rw [hset]
      have := place_spec hq A ps (xs ++ [p]) (by simp; omega)
      rw [List.length_append, List.length_singleton] at this
      rw [this, List.append_assoc, List.length_cons, List.singleton_append]
      simp only [show xs.length + 1 + ps.length = xs.length + (ps.length + 1) by omega]
    · have he : xs.length = m * q := by omega
      have hk : xs.length / q = m := by rw [he, Nat.mul_div_cancel _ hq]
      rw [hk, List.getElem?_eq_none (by simp)]
      simp only [Option.map_none]
      rw [if_neg (by rw [List.length_cons]; omega)]

theorem place_form {α : Type} {m : ℕ} (hm : 0 < m) (A : ℕ → List α) (f : List α) :
    (m ∣ f.length → place (f.length / m) 0 f ((List.range m).map A) = .ok ((List.range m).map fun k => A k ++ chunk (f.length / m) k f)) ∧
    (¬ m ∣ f.length → ∃ e, place (f.length / m) 0 f ((List.range m).map A) = .error e) := by
  by_cases h0 : f.length / m = 0
  · have hlt : f.length < m := by
      rcases Nat.div_eq_zero_iff.mp h0 with h | h
      · omega
      · exact h
    cases f with
    | nil => exact ⟨fun _ => by simp [place, chunk], fun h => absurd (dvd_zero m) h⟩
    | cons p ps =>
      refine ⟨fun hd => absurd (Nat.le_of_dvd (by simp) hd) (by omega), fun _ => ⟨.zeroDivision, ?_⟩⟩
      rw [h0]; rfl
  · have hq : 0 < f.length / m := Nat.pos_of_ne_zero h0
    have := place_spec (m := m) hq A f [] (by simp)
    have hA : (fun k => A k ++ chunk (f.length / m) k []) = A := by funext k; simp [chunk]
    rw [hA] at this
    simp only [List.length_nil, List.nil_append, Nat.zero_add] at this
    rw [this]
    constructor
    · intro hd
      rw [if_pos (by rw [Nat.mul_div_cancel' hd])]
    · intro hd
      refine ⟨.index, if_neg fun hle => hd ?_⟩
      have := Nat.mul_div_le f.length m
      exact ⟨f.length / m, by omega⟩

theorem placeForms_spec {α : Type} {m : ℕ} (hm : 0 < m) : ∀ (forms : List (List α)) (A : ℕ → List α),
    ((∀ f ∈ forms, m ∣ f.length) → placeForms m forms ((List.range m).map A) =
      .ok ((List.range m).map fun k => A k ++ forms.flatMap fun f => chunk (f.length / m) k f)) ∧
    ((¬ ∀ f ∈ forms, m ∣ f.length) → ∃ e, placeForms m forms ((List.range m).map A) = .error e)
  | [], A => ⟨fun _ => by simp [placeForms], fun h => absurd (by simp) h⟩
  | f :: fs, A => by
    obtain ⟨h1, h2⟩ := place_form hm A f
    by_cases hd : m ∣ f.length
    · obtain ⟨h3, h4⟩ := placeForms_spec hm fs fun k => A k ++ chunk (f.length / m) k f
      unfold placeForms
      rw [h1 hd]
      simp only [bind, Except.bind]
      refine ⟨fun h => ?_, fun h => h4 fun hh => h fun g hg => ?_⟩
      · rw [h3 fun g hg => h g (List.mem_cons_of_mem _ hg)]
        simp only [List.flatMap_cons, List.append_assoc]
      · rcases List.mem_cons.mp hg with rfl | hg
        · exact hd
        · exact hh g hg
    · refine ⟨fun h => absurd (h f List.mem_cons_self) hd, fun _ => ?_⟩
      obtain ⟨e, he⟩ := h2 hd
      unfold placeForms
      rw [he]
      exact ⟨e, rfl⟩

theorem chunks_even {α : Type} {m : ℕ} (f : List α) (hd : m ∣ f.length) :
    EvenDivision m f ((List.range m).map fun k => chunk (f.length / m) k f) := by
  have key : ∀ j, ((List.range j).map fun k => chunk (f.length / m) k f).flatten = f.take (j * (f.length / m)) := by
    intro j
    induction j with
    | zero => simp
    | succ j ih =>
      rw [List.range_succ, List.map_append, List.flatten_append, ih, Nat.add_mul, one_mul, List.take_add]
      simp [chunk]
  refine ⟨by simp, ?_, ?_⟩
  · rw [key, Nat.mul_div_cancel' hd, List.take_length]
  · intro p hp
    obtain ⟨k, hk, rfl⟩ := List.mem_map.mp hp
    have hk := List.mem_range.mp hk
    have e : m * (f.length / m) = f.length := Nat.mul_div_cancel' hd
    have : k * (f.length / m) + f.length / m ≤ f.length := by
      calc k * (f.length / m) + f.length / m = (k + 1) * (f.length / m) := by ring
        _ ≤ m * (f.length / m) := Nat.mul_le_mul_right _ hk
        _ = f.length := e
    rw [chunk, List.length_take, List.length_drop, Nat.min_eq_left (by omega), Nat.mul_comm]
    exact e

/-- **C72.** With a multiple of `m` facets in every form, the `m` grains get, form by form, the consecutive parts of equal
length: every facet is assigned, in order. -/
theorem C72_even {α : Type} (m : ℕ) (hm : 0 < m) (forms : List (List α)) (h : ∀ f ∈ forms, m ∣ f.length) :
    ∃ (lists : List (List α)) (parts : List (List (List α))), planesLists m forms = .ok lists ∧ lists.length = m ∧
      List.Forall₂ (EvenDivision m) forms parts ∧ ∀ k, k < m → lists[k]? = some (parts.flatMap fun p => p.getD k []) := by
  have h1 := (placeForms_spec hm forms fun _ => []).1 h
  refine ⟨_, forms.map fun f => (List.range m).map fun k => chunk (f.length / m) k f, by
    unfold planesLists
    rw [← h1]; congr 1
    rw [List.map_const', List.length_range], by simp, ?_, ?_⟩
  · rw [List.forall₂_map_right_iff, List.forall₂_same]
    exact fun f hf => chunks_even f (h f hf)
  · intro k hk
    rw [List.getElem?_map, List.getElem?_range hk, List.flatMap_map]
    simp only [Option.map_some, List.nil_append]
    congr 1
    refine List.flatMap_congr fun f _ => ?_
    rw [List.getD_eq_getElem?_getD, List.getElem?_map, List.getElem?_range hk]
    rfl

/-- **C72 (exactly then).** With any other number of facets in some form the division raises (ZeroDivisionError or
IndexError). -/
theorem C72_raises {α : Type} (m : ℕ) (hm : 0 < m) (forms : List (List α)) :
    (∃ lists, planesLists m forms = .ok lists) ↔ ∀ f ∈ forms, m ∣ f.length := by
  constructor
  · rintro ⟨lists, h⟩
    by_contra hd
    obtain ⟨e, he⟩ := (placeForms_spec hm forms fun _ => []).2 hd
    unfold planesLists at h
    rw [List.map_const', List.length_range] at he
    rw [he] at h
    cases h
  · intro h
    obtain ⟨lists, parts, h1, -⟩ := C72_even m hm forms h
    exact ⟨lists, h1⟩

example : planesLists 2 [[1, 2, 3, 4], [5, 6]] = .ok [[1, 2, 5], [3, 4, 6]] := rfl
example : planesLists 2 [[1, 2, 3]] = .error .index := rfl

/-! ## C73 -/

/-- **C73, refuted.** Whatever WulffPack does, `cube`, `cuboctohedron`, `octohedron` and `truncated_octohedron` never return. -/
theorem C73_convenience_refuted (env : Env) (e : List ((Bool × V3 ℤ) × (Bool × ℝ))) (pack : Single → Py (List Facet)) (gen : Option GenObj)
    (natoms : ℤ) : ¬ ∃ v, Single.convenience env e pack gen natoms = .ok v := by
  rintro ⟨v, h⟩
  unfold Single.convenience Single.make at h
  cases hg : generatorSet gen with
  | error e => rw [hg] at h; cases h
  | ok g => rw [hg] at h; cases h

/-- With a crystalline generator that has a structure the exception is AttributeError (`'int' object has no attribute
'items'`). -/
theorem C73_convenience_error (env : Env) (e : List ((Bool × V3 ℤ) × (Bool × ℝ))) (pack : Single → Py (List Facet)) (g : Gen ℝ) (s : Struct ℝ)
    (hs : g.struct = some s) (natoms : ℤ) : Single.convenience env e pack (some (.crystal g)) natoms = .error .attribute := by
  unfold Single.convenience Single.make generatorSet
  simp only [hs]; rfl

/-- **C73, refuted.** `WulffDecahedron.get_construction` never returns. -/
theorem C73_decahedron_refuted (env : Env) (g : Gen ℝ) (forms : Py (List (List Facet))) (sf zmin zmax : ℝ) :
    ¬ ∃ t, Deca.construction env g forms sf zmin zmax = .ok t := by
  rintro ⟨t, h⟩
  unfold Deca.construction at h
  have hc : ∀ b : Py Cylinder, pyCall ["axis", "point", "radius", "length"] ["radius"] b = .error .type := by simp [pyCall]
  simp only [hc, bind, Except.bind] at h
  repeat' split at h
  all_goals cases h

/-- **C73, refuted.** `WulffIcosahedron.get_construction` never returns. -/
theorem C73_icosahedron_refuted (env : Env) (g : Gen ℝ) (forms : Py (List (List Facet))) (rest : Gen ℝ → List Vol → Py VTree) :
    ¬ ∃ t, Ico.construction env g forms rest = .ok t := by
  rintro ⟨t, h⟩
  unfold Ico.construction at h
  have hc : pyCall ["points"] [] (.ok ()) = .error .type := by simp [pyCall]
  simp only [hc, bind, Except.bind] at h
  repeat' split at h
  all_goals cases h

/-! ## C91, C92 -/

theorem planesFrom_unit : ∀ {fs : List Facet}, (∀ f ∈ fs, len f.normal = 1) →
    planesFrom fs = .ok (fs.map fun f => ⟨f.normal, f.dist • f.normal, 1 / 10 ^ 5⟩)
  | [], _ => rfl
  | f :: fs, h => by
    unfold planesFrom
    have hf : norm3 f.normal = 1 := by rw [← len_eq]; exact h f List.mem_cons_self
    rw [Prefab.make_unit hf, planesFrom_unit fun g hg => h g (List.mem_cons_of_mem _ hg)]
    rfl

theorem foldl_addAlg (as : List Alg) (v : Vol) : as.foldl Vol.addAlg v = { v with algs := v.algs ++ as } := by
  induction as generalizing v with
  | nil => simp
  | cons a as ih => rw [List.foldl_cons, ih]; simp [Vol.addAlg]

theorem construction_eq (env : Env) (w : Single) (fs : List Facet) (h : ∀ f ∈ fs, len f.normal = 1) :
    w.construction env (.ok fs) = .ok { Vol.blank (1 / 10 ^ 10) with
      gen := some (.crystal w.gen), algs := fs.map fun f => .plane ⟨f.normal, f.dist • f.normal, 1 / 10 ^ 5⟩ } := by
  unfold Single.construction
  simp only [bind, Except.bind, planesFrom_unit h, Vol.make, Vol.addGenerator, pure, Except.pure, foldl_addAlg, List.map_map]
  rfl

/-- **C91.** For facets with unit normals `WulffSingle.get_construction` (and `winterbottom`) returns a Volume with the given
generator whose interior is the polyhedron of the facets (with the tolerance 1e-5). -/
theorem C91_polyhedron (env : Env) (w : Single) (fs : List Facet) (h : ∀ f ∈ fs, len f.normal = 1) :
    ∃ v, w.construction env (.ok fs) = .ok v ∧ v.gen = some (.crystal w.gen) ∧
      ∀ p, Inside env (.vol v) p ↔ InPolyhedron fs (1 / 10 ^ 5) p := by
  refine ⟨_, construction_eq env w fs h, rfl, fun p => ?_⟩
  rw [← Vol.interior_iff]
  unfold InPolyhedron
  simp only [Vol.interior, Vol.blank, Bool.true_and, List.all_map, List.all_eq_true, Function.comp]
  refine forall₂_congr fun f hf => ?_
  have hn : f.normal.x * f.normal.x + f.normal.y * f.normal.y + f.normal.z * f.normal.z = 1 := by
    have := h f hf
    rw [len_eq] at this
    exact norm3_eq_one.mp this
  rw [show (Alg.plane ⟨f.normal, f.dist • f.normal, 1 / 10 ^ 5⟩).interior p =
    decide ((⟨f.normal, f.dist • f.normal, 1 / 10 ^ 5⟩ : Plane).sdist p < 1 / 10 ^ 5) from rfl, decide_eq_true_iff]
  simp only [Plane.sdist, height, V3.dot, V3.smul_x, V3.smul_y, V3.smul_z]
  have e : f.dist * f.normal.x * f.normal.x + f.dist * f.normal.y * f.normal.y + f.dist * f.normal.z * f.normal.z = f.dist := by
    linear_combination f.dist * hn
  rw [e]
  constructor <;> intro h <;> linarith

/-- **C91 (constructor).** `WulffSingle` accepts exactly a crystalline generator with a structure, a number of atoms that is a number,
and energies that are a dict of tuples and floats, and holds these. -/
theorem C91_constructor (gen : Option GenObj) (e : Energies) (n : PyVal) (w : Single) : Single.make gen e n = .ok w ↔
    gen = some (.crystal w.gen) ∧ w.gen.struct ≠ none ∧ (∃ items, e = .dict items ∧ ∀ i ∈ items, i.1.1 = true ∧ i.2.1 = true) ∧ w.energies = e ∧
      ((∃ k : ℤ, (n = .int k ∨ n = .npInt k) ∧ w.natoms = k) ∨ (∃ b, n = .bool b ∧ w.natoms = if b then 1 else 0) ∨
        ∃ x : ℝ, n = .float x ∧ |(w.natoms : ℝ)| ≤ |x| ∧ |x - w.natoms| < 1 ∧ 0 ≤ x * w.natoms) := by
  obtain ⟨g, k, e'⟩ := w
  have hgen : ∀ g, generatorSet gen = .ok g ↔ gen = some (.crystal g) ∧ g.struct ≠ none := by
    intro g
    unfold generatorSet
    rcases gen with _ | (c | a | _)
    · simp
    · cases hs : c.struct with
      | none =>
        simp only [hs, reduceCtorEq, Option.some.injEq, GenObj.crystal.injEq, false_iff, not_and, not_not]
        rintro rfl; exact hs
      | some st =>
        simp only [hs, Except.ok.injEq, Option.some.injEq, GenObj.crystal.injEq]
        constructor
        · rintro rfl; exact ⟨rfl, by simp [hs]⟩
        · exact And.left
    · simp
    · simp
  have hn : ∀ k, natomsSet n = .ok k ↔ ((∃ k' : ℤ, (n = .int k' ∨ n = .npInt k') ∧ k = k') ∨ (∃ b, n = .bool b ∧ k = if b then 1 else 0) ∨
        ∃ x : ℝ, n = .float x ∧ |(k : ℝ)| ≤ |x| ∧ |x - k| < 1 ∧ 0 ≤ x * k) := by
    intro k
    cases n with
    | float x =>
      simp only [natomsSet, Except.ok.injEq, reduceCtorEq, or_self, false_and, exists_const, PyVal.float.injEq, false_or]
      constructor
      · intro h
        refine ⟨x, rfl, ?_⟩
        split_ifs at h with hx
        · subst h
          have h1 := Int.floor_le x
          have h2 := Int.lt_floor_add_one x
          have h3 : (0 : ℝ) ≤ ⌊x⌋ := by exact_mod_cast Int.floor_nonneg.mpr hx
          refine ⟨by rw [abs_of_nonneg h3, abs_of_nonneg hx]; exact h1, by rw [abs_lt]; constructor <;> linarith, mul_nonneg hx h3⟩
        · subst h
          have hx := not_le.mp hx
          have h1 := Int.le_ceil x
          have h2 := Int.ceil_lt_add_one x
          have h3 : ((⌈x⌉ : ℤ) : ℝ) ≤ 0 := by exact_mod_cast Int.ceil_le.mpr (by simpa using hx.le)
          refine ⟨by rw [abs_of_nonpos h3, abs_of_neg hx]; linarith, by rw [abs_lt]; constructor <;> linarith, mul_nonneg_of_nonpos_of_nonpos hx.le h3⟩
      · rintro ⟨y, rfl, h1, h2, h3⟩
        rw [abs_lt] at h2
        split_ifs with hx
        · rw [Int.floor_eq_iff]
          rw [abs_of_nonneg hx] at h1
          refine ⟨(le_abs_self _).trans h1, by linarith⟩
        · have hx := not_le.mp hx
          rw [Int.ceil_eq_iff]
          rw [abs_of_neg hx] at h1
          have := neg_abs_le (k : ℝ)
          exact ⟨by linarith, by linarith⟩
    | _ => simp [natomsSet, eq_comm]
  have he : ∀ e', energiesSet e = .ok e' ↔ (∃ items, e = .dict items ∧ ∀ i ∈ items, i.1.1 = true ∧ i.2.1 = true) ∧ e' = e := by
    intro e'
    cases e with
    | dict items =>
      simp only [energiesSet]
      split_ifs with h
      · simp only [List.all_eq_true, Bool.and_eq_true] at h
        simp only [Except.ok.injEq, Energies.dict.injEq, exists_eq_left']
        exact ⟨fun h' => ⟨h, h'.symm⟩, fun h' => h'.2.symm⟩
      · simp only [List.all_eq_true, Bool.and_eq_true] at h
        simp only [reduceCtorEq, Energies.dict.injEq, exists_eq_left', false_iff, not_and]
        exact fun h' => absurd h' h
    | int n => simp [energiesSet]
    | other => simp [energiesSet]
  have key : Single.make gen e n = .ok ⟨g, k, e'⟩ ↔ generatorSet gen = .ok g ∧ natomsSet n = .ok k ∧ energiesSet e = .ok e' := by
    unfold Single.make
    simp only [bind, Except.bind, pure, Except.pure]
    cases generatorSet gen <;> cases natomsSet n <;> cases energiesSet e <;> simp
  rw [key, hgen, hn, he]
  constructor
  · rintro ⟨⟨h1, h2⟩, h3, h4, h5⟩; exact ⟨h1, h2, h4, h5, h3⟩
  · rintro ⟨h1, h2, h4, h5, h3⟩; exact ⟨⟨h1, h2⟩, h3, h4, h5⟩

/-- **C91 (which exception).** The generator is checked before the number of atoms and that before the energies. -/
theorem C91_exceptions (gen : Option GenObj) (e : Energies) (n : PyVal) :
    ((∀ g, gen ≠ some (.crystal g)) → Single.make gen e n = .error .assertion) ∧
    (∀ g, gen = some (.crystal g) → g.struct = none → Single.make gen e n = .error .attribute) ∧
    (∀ g s, gen = some (.crystal g) → g.struct = some s → (n = .none ∨ n = .other) → Single.make gen e n = .error .type) ∧
    (∀ g s k, gen = some (.crystal g) → g.struct = some s → n = .int k →
      ((∀ items, e ≠ .dict items) → Single.make gen e n = .error .attribute) ∧
      ∀ items, e = .dict items → (∃ i ∈ items, i.1.1 = false ∨ i.2.1 = false) → Single.make gen e n = .error .assertion) := by
  refine ⟨fun h => ?_, ?_, ?_, ?_⟩
  · rcases gen with _ | (c | a | _)
    · rfl
    · exact absurd rfl (h c)
    · rfl
    · rfl
  · rintro g rfl hs
    simp only [Single.make, generatorSet, hs]; rfl
  · rintro g s rfl hs (rfl | rfl) <;>
    · simp only [Single.make, generatorSet, hs]; rfl
  · rintro g s k rfl hs rfl
    refine ⟨fun h => ?_, ?_⟩
    · cases e with
      | dict items => exact absurd rfl (h items)
      | int n => simp only [Single.make, generatorSet, hs]; rfl
      | other => simp only [Single.make, generatorSet, hs]; rfl
    · rintro items rfl ⟨i, hi, h⟩
      have : items.all (fun x => x.1.1 && x.2.1) = false := by
        rw [List.all_eq_false]
        exact ⟨i, hi, by rcases h with h | h <;> simp [h]⟩
      simp only [Single.make, generatorSet, hs, natomsSet, energiesSet, this]
      rfl

/-- **C91 (twinned particles).** `WulffDecahedron` and `WulffIcosahedron` accept what `WulffSingle` accepts together with a twin energy that is a
float, and hold these; any other twin energy (also an int) raises AssertionError, after the other arguments were checked. -/
theorem C91_twinned (gen : Option GenObj) (e : Energies) (t n : PyVal) :
    (∀ w : Single, Single.make gen e n = .ok w →
      (∀ x, t = .float x → Deca.make gen e t n = .ok ⟨w.gen, w.natoms, w.energies, x⟩) ∧
      ((∀ x, t ≠ .float x) → Deca.make gen e t n = .error .assertion)) ∧
    ∀ err, Single.make gen e n = .error err → Deca.make gen e t n = .error err := by
  unfold Single.make Deca.make
  simp only [bind, Except.bind, pure, Except.pure]
  cases generatorSet gen with
  | error _ => exact ⟨(fun _ h => by cases h), fun _ h => by cases h; rfl⟩
  | ok g =>
    cases natomsSet n with
    | error _ => exact ⟨(fun _ h => by cases h), fun _ h => by cases h; rfl⟩
    | ok k =>
      cases energiesSet e with
      | error _ => exact ⟨(fun _ h => by cases h), fun _ h => by cases h; rfl⟩
      | ok e' =>
        refine ⟨fun w h => ?_, (fun _ h => by cases h)⟩
        cases h
        refine ⟨?_, fun h => ?_⟩
        · rintro x rfl; rfl
        · cases t with
          | float x => exact absurd rfl (h x)
          | _ => rfl

/-- Concrete case: an int as twin energy is refused. -/
example : Deca.make (some (.crystal ⟨some ⟨1, [(0, 79)]⟩, some ⟨1, .scalar 1, 0⟩, none, none⟩)) (.dict [((true, ⟨1, 1, 1⟩), (true, 1))]) (.int 0) (.int 1000) =
    .error .assertion :=
  ((C91_twinned _ _ _ _).1 ⟨⟨some ⟨1, [(0, 79)]⟩, some ⟨1, .scalar 1, 0⟩, none, none⟩, 1000, .dict [((true, ⟨1, 1, 1⟩), (true, 1))]⟩ rfl).2 (by simp)

/-- **C91 (centre).** The centre belongs to the particle when all distances are positive (as in a Wulff construction). -/
theorem C91_centre (env : Env) (w : Single) (fs : List Facet) (h : ∀ f ∈ fs, len f.normal = 1) (hpos : ∀ f ∈ fs, 0 < f.dist) :
    ∃ v, w.construction env (.ok fs) = .ok v ∧ Inside env (.vol v) 0 := by
  obtain ⟨v, h1, -, h2⟩ := C91_polyhedron env w fs h
  refine ⟨v, h1, (h2 0).mpr fun f hf => ?_⟩
  have := hpos f hf
  simp only [height, V3.zero_x, V3.zero_y, V3.zero_z]
  linarith

/-- **C92, refuted.** A Wulff particle with more than three facets can never be populated: `populate_atoms` raises ValueError. -/
theorem C92_populate_refuted (env : Env) (w : Single) (x : Voxel ℝ) (hx : w.gen.voxel = some x) (fs : List Facet)
    (h : ∀ f ∈ fs, len f.normal = 1) (h3 : 3 < fs.length) (n : ℕ) :
    ∃ v, w.construction env (.ok fs) = .ok v ∧ v.populate env n = (v, .error .value) := by
  refine ⟨_, construction_eq env w fs h, ?_⟩
  have hpl : ∀ l : List Facet, ((l.map fun f => Alg.plane ⟨f.normal, f.dist • f.normal, 1 / 10 ^ 5⟩).filterMap fun | .plane s => some s | _ => none).length = l.length := by
    intro l
    induction l with
    | nil => rfl
    | cons f l ih => simp
  have hsp : ∀ l : List Facet, ((l.map fun f => Alg.plane ⟨f.normal, f.dist • f.normal, 1 / 10 ^ 5⟩).filterMap fun | .sphere s => some s | _ => none) = ([] : List Sphere) := by
    intro l
    induction l with
    | nil => rfl
    | cons f l ih => simp
  exact C20_planes_always_raise env _ n rfl (hsp fs) (lt_of_lt_of_eq h3 (hpl fs).symm) (.inl ⟨w.gen, x, rfl, hx⟩)

/-- The facets of a cube. -/
def cubeFacets (d : ℝ) : List Facet :=
  [⟨⟨1, 0, 0⟩, d⟩, ⟨⟨-1, 0, 0⟩, d⟩, ⟨⟨0, 1, 0⟩, d⟩, ⟨⟨0, -1, 0⟩, d⟩, ⟨⟨0, 0, 1⟩, d⟩, ⟨⟨0, 0, -1⟩, d⟩]

theorem cubeFacets_unit (d : ℝ) : ∀ f ∈ cubeFacets d, len f.normal = 1 := by
  intro f hf
  simp only [cubeFacets, List.mem_cons, List.not_mem_nil, or_false] at hf
  rcases hf with rfl | rfl | rfl | rfl | rfl | rfl <;> simp [len]

theorem formPlanes_unit : ∀ {fs : List (List Facet)}, (∀ l ∈ fs, ∀ f ∈ l, len f.normal = 1) →
    formPlanes fs = .ok (fs.map fun l => l.map fun f => ⟨f.normal, f.dist • f.normal, 1 / 10 ^ 5⟩)
  | [], _ => rfl
  | l :: fs, h => by
    unfold formPlanes
    rw [planesFrom_unit (h l List.mem_cons_self), formPlanes_unit fun g hg => h g (List.mem_cons_of_mem _ hg)]
    rfl

theorem shapes_ok (env : Env) : ∀ lists : List (List Plane), ∃ vols, (lists.mapM fun ps => Vol.make env none (ps.map .plane) none 0 (1 / 10 ^ 10) none) = .ok vols := by
  intro lists
  induction lists with
  | nil => exact ⟨_, rfl⟩
  | cons ps lists ih =>
    obtain ⟨vols, h⟩ := ih
    rw [List.mapM_cons, h]
    exact ⟨_, rfl⟩

/-- **C73 (which exception).** With unit normals and a number of facets that can be divided, `WulffDecahedron.get_construction` raises
TypeError (the Cylinder is asked for without axis, point and length), for every generator with a cell of non-zero volume. -/
theorem C73_decahedron_error (env : Env) (g : Gen ℝ) (x : Voxel ℝ) (hx : g.voxel = some x) (hd : x.bases.det ≠ 0)
    (forms : List (List Facet)) (hu : ∀ l ∈ forms, ∀ f ∈ l, len f.normal = 1) (h5 : ∀ l ∈ forms, 5 ∣ l.length) (sf zmin zmax : ℝ) :
    Deca.construction env g (.ok forms) sf zmin zmax = .error .type := by
  obtain ⟨lists, -, hl, -⟩ := C72_even 5 (by norm_num) (forms.map fun l => l.map fun f => (⟨f.normal, f.dist • f.normal, 1 / 10 ^ 5⟩ : Plane))
    (by simpa using h5)
  obtain ⟨vols, hv⟩ := shapes_ok env lists
  have hg : ∀ st vs i, ∃ ws, Deca.grains g st i vs = .ok ws := by
    intro st vs
    induction vs with
    | nil => exact fun i => ⟨_, rfl⟩
    | cons v vs ih =>
      intro i
      obtain ⟨ws, hw⟩ := ih (i + 1)
      obtain ⟨R, h1, h2, -⟩ := C45_rot_v ⟨0, 0, 1⟩ ((i : ℝ) * 2 * Real.pi / 5) (fun h => by simpa using congrArg V3.z h)
      have h3 : (R * x.bases).det ≠ 0 := by rw [M3.det_mul, h2.2, one_mul]; exact hd
      have h4 : ∃ g', g.fromGenerator [.matrix .rotation R none true false] = .ok g' := by
        simp only [Gen.fromGenerator, Gen.transform, hx, Tr.bases, basesSet_of_det h3]
        exact ⟨_, rfl⟩
      obtain ⟨g', h4⟩ := h4
      have h5 : Tr.mkRotation R none true false = .ok (.matrix .rotation R none true false) := Prefab.mkRotation_ok h2
      have h6 : ∃ w, Deca.grain g st i v = .ok w := by
        unfold Deca.grain
        simp only [h1, h5, h4, bind, Except.bind]
        exact ⟨_, rfl⟩
      obtain ⟨w, h6⟩ := h6
      unfold Deca.grains
      simp only [h6, hw, bind, Except.bind]
      exact ⟨_, rfl⟩
  have hs : ∃ st, HStrain.make (some (.six ![sf, 1, 1, 0, 0, 0])) none "crystal" = .ok st := ⟨_, rfl⟩
  obtain ⟨st, hs⟩ := hs
  obtain ⟨ws, hw⟩ := hg st vols 0
  have hc : ∀ b : Py Cylinder, pyCall ["axis", "point", "radius", "length"] ["radius"] b = .error .type := by simp [pyCall]
  have hb : norm3 (⟨0, 0, -1⟩ : V3 ℝ) = 1 := by simp [norm3, V3.normSq, V3.dot]
  have ht : norm3 (⟨0, 0, 1⟩ : V3 ℝ) = 1 := by simp [norm3, V3.normSq, V3.dot]
  unfold Deca.construction
  simp only [formPlanes_unit hu, hl, hs, hv, hw, hc, Prefab.make_unit hb, Prefab.make_unit ht, bind, Except.bind]

/-- **C73 (which exception).** The same for `WulffIcosahedron.get_construction` (`_strain_from_111` is called without points). -/
theorem C73_icosahedron_error (env : Env) (g : Gen ℝ) (forms : List (List Facet)) (hu : ∀ l ∈ forms, ∀ f ∈ l, len f.normal = 1)
    (h20 : ∀ l ∈ forms, 20 ∣ l.length) (rest : Gen ℝ → List Vol → Py VTree) : Ico.construction env g (.ok forms) rest = .error .type := by
  obtain ⟨lists, -, hl, -⟩ := C72_even 20 (by norm_num) (forms.map fun l => l.map fun f => (⟨f.normal, f.dist • f.normal, 1 / 10 ^ 5⟩ : Plane))
    (by simpa using h20)
  obtain ⟨vols, hv⟩ := shapes_ok env lists
  have hc : pyCall ["points"] [] (.ok ()) = .error .type := by simp [pyCall]
  unfold Ico.construction
  simp only [formPlanes_unit hu, hl, hv, hc, bind, Except.bind]

/-- Concrete case: one form with five equal facets. -/
example (env : Env) : Deca.construction env (cellGen 1 0 none) (.ok [List.replicate 5 ⟨⟨0, 0, 1⟩, 10⟩]) 1 (-10) 10 = .error .type :=
  C73_decahedron_error env _ _ rfl (by simp [M3.det_one]) _ (by simp [len]) (by simp) _ _ _

/-- Hypotheses of C91 and C92 are met by a cube. -/
example (env : Env) (n : ℕ) : ∃ v, (⟨cellGen 1 0 none, 1000, .dict []⟩ : Single).construction env (.ok (cubeFacets 10)) = .ok v ∧
    v.populate env n = (v, .error .value) :=
  C92_populate_refuted env _ _ rfl _ (cubeFacets_unit 10) (by simp [cubeFacets]) n

end Wulff

end
end CZ
