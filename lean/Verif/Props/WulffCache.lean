import Verif.WulffCache
import Verif.Props.Wulff

/-!
# Property C115: a WulffSingle object keeps its first particle
-/

namespace CZ
open Spec

noncomputable section
open Classical

namespace Wulff.Obj

/-- A call that changes an attribute (or the generator). -/
def Changes : Op → Prop
  | .setGenerator _ | .setNatoms _ | .setEnergies _ | .touch _ => True
  | _ => False

theorem run_cons (env : Env) (pack : Pack) (o : Obj) (op : Op) (ops : List Op) :
    run env pack o (op :: ops) = run env pack (step env pack o op) ops := rfl

theorem construct_state (env : Env) (pack : Pack) (o : Obj) : (o.construct env pack).1 = (o.wulff pack).1 := by
  unfold construct
  rcases o.wulff pack with ⟨o', _ | P⟩
  · rfl
  · simp only
    cases o'.volumeOf env P.facets <;> rfl

theorem wulff_cached {pack : Pack} {o : Obj} {P : Particle} (h : o.cache = some P) : o.wulff pack = (o, .ok P) := by
  unfold wulff; rw [h]

theorem step_cached (env : Env) (pack : Pack) (o : Obj) {P : Particle} (h : o.cache = some P) (op : Op) :
    (step env pack o op).cache = some P := by
  cases op with
  | setGenerator g =>
    simp only [step, setGenerator]
    split
    · split <;> exact h
    · exact h
  | setNatoms x =>
    simp only [step, setNatoms]
    split <;> exact h
  | setEnergies x =>
    simp only [step, setEnergies]
    split <;> exact h
  | touch g => exact h
  | construct => rw [step, construct_state, wulff_cached h]; exact h
  | getAreas => exact h
  | winterbottom i e => exact h

theorem run_cached (env : Env) (pack : Pack) {P : Particle} : ∀ (ops : List Op) (o : Obj), o.cache = some P →
    (run env pack o ops).cache = some P
  | [], _, h => h
  | op :: ops, o, h => run_cached env pack ops _ (step_cached env pack o h op)

theorem volumeOf_gen (env : Env) (o o' : Obj) (fs : List Facet) :
    o'.volumeOf env fs = (o.volumeOf env fs).map fun v => { v with gen := some (.crystal o'.gen) } := by
  unfold volumeOf
  cases planesFrom fs with
  | error e => rfl
  | ok ps =>
    simp only [bind, Except.bind, Vol.make, Vol.addGenerator, pure, Except.pure, foldl_addAlg]
    rfl

/-- **C115 (kept).** Once `get_construction` has returned, every later call returns the same shape and the same facet fractions,
whatever attributes were set in between and however often it is called; only the generator of the Volume is the one now
attached. -/
theorem C115_kept (env : Env) (pack : Pack) (o o1 : Obj) (v : Vol) (fr : List (V3 ℤ × ℝ))
    (h : o.construct env pack = (o1, .ok (v, fr))) (ops : List Op) :
    ((run env pack o1 ops).construct env pack).2 = .ok ({ v with gen := some (.crystal (run env pack o1 ops).gen) }, fr) := by
  have hc : ∃ P, o1.cache = some P ∧ o1.volumeOf env P.facets = .ok v ∧ P.fractions = fr := by
    have hs := construct_state env pack o
    rw [h] at hs
    unfold construct at h
    have hw : ∀ P, (o.wulff pack).2 = .ok P → (o.wulff pack).1.cache = some P := by
      unfold wulff
      intro P hP
      split
      · next Q hQ => rw [hQ] at hP; cases hP; exact hQ
      · next hN =>
        rw [hN] at hP
        simp only at hP
        split at hP
        · cases hP
        · next Q hQ => cases hP; rfl
    rcases hw' : o.wulff pack with ⟨o', _ | P⟩
    · rw [hw'] at h; cases h
    · rw [hw'] at h hs
      simp only at h hs
      subst hs
      refine ⟨P, ?_, ?_⟩
      · have := hw P (by rw [hw'])
        rwa [hw'] at this
      · split at h
        · cases h
        · next w hv => cases h; exact ⟨hv, rfl⟩
  obtain ⟨P, h1, h2, h3⟩ := hc
  have h4 := run_cached env pack ops o1 h1
  unfold construct
  rw [wulff_cached h4]
  simp only
  rw [volumeOf_gen env o1 _ P.facets, h2]
  simp only [Except.map, h3]

theorem step_fresh (env : Env) (pack : Pack) (o : Obj) (h : o.cache = none) {op : Op} (hop : op ≠ .construct) :
    (step env pack o op).cache = none := by
  cases op with
  | setGenerator g =>
    simp only [step, setGenerator]
    split
    · split <;> exact h
    · exact h
  | setNatoms x =>
    simp only [step, setNatoms]
    split <;> exact h
  | setEnergies x =>
    simp only [step, setEnergies]
    split <;> exact h
  | touch g => exact h
  | construct => exact absurd rfl hop
  | getAreas => exact h
  | winterbottom i e => exact h

theorem run_fresh (env : Env) (pack : Pack) : ∀ (ops : List Op) (o : Obj), o.cache = none → (∀ op ∈ ops, op ≠ .construct) →
    (run env pack o ops).cache = none
  | [], _, h, _ => h
  | op :: ops, o, h, ho => run_fresh env pack ops _ (step_fresh env pack o h (ho op List.mem_cons_self))
      fun x hx => ho x (List.mem_cons_of_mem _ hx)

theorem make_cache {gen : Option GenObj} {e : Energies} {n : PyVal} {o : Obj} (h : make gen e n = .ok o) : o.cache = none := by
  unfold make at h
  split at h
  · split at h
    · cases h
    · cases hn : natomsSet n with
      | error x => rw [hn] at h; cases h
      | ok m =>
        cases he : energiesSet e with
        | error x => rw [hn, he] at h; cases h
        | ok d => rw [hn, he] at h; cases h; rfl
  · cases h

/-- **C115 (first).** Before the first call of `get_construction` the attributes may be set freely: the first construction is the
one WulffPack gives for the attributes then held. -/
theorem C115_first (env : Env) (pack : Pack) (gen : Option GenObj) (e : Energies) (n : PyVal) (o : Obj) (h : make gen e n = .ok o)
    (ops : List Op) (hops : ∀ op ∈ ops, op ≠ .construct) (P : Particle)
    (hP : pack.single (run env pack o ops).energies (run env pack o ops).pAtoms (run env pack o ops).natoms = .ok P)
    (hu : ∀ f ∈ P.facets, len f.normal = 1) :
    ∃ v, ((run env pack o ops).construct env pack).2 = .ok (v, P.fractions) ∧ v.gen = some (.crystal (run env pack o ops).gen) ∧
      ∀ p, Inside env (.vol v) p ↔ InPolyhedron P.facets (1 / 10 ^ 5) p := by
  have hc := run_fresh env pack ops o (make_cache h) hops
  obtain ⟨v, h1, h2, h3⟩ := C91_polyhedron env ⟨(run env pack o ops).gen, 0, .other⟩ P.facets hu
  refine ⟨v, ?_, h2, h3⟩
  have hv : (run env pack o ops).volumeOf env P.facets = .ok v := h1
  unfold construct wulff
  rw [hc]
  simp only [hP]
  rw [volumeOf_gen env (run env pack o ops), hv]
  simp only [Except.map]
  rw [← h2]

/-- **C115 (retry).** When WulffPack raises, nothing is kept: the object is unchanged and the next call asks again. -/
theorem C115_retry (env : Env) (pack : Pack) (o : Obj) (x : PyErr) (hc : o.cache = none)
    (h : pack.single o.energies o.pAtoms o.natoms = .error x) : o.construct env pack = (o, .error x) := by
  unfold construct wulff
  rw [hc]
  simp only [h]

/-- **C115 (areas).** `get_areas` raises AttributeError as long as there was no construction. -/
theorem C115_areas_before (env : Env) (pack : Pack) (gen : Option GenObj) (e : Energies) (n : PyVal) (o : Obj) (h : make gen e n = .ok o)
    (ops : List Op) (hops : ∀ op ∈ ops, op ≠ .construct) : (run env pack o ops).getAreas = .error .attribute := by
  unfold getAreas
  rw [run_fresh env pack ops o (make_cache h) hops]

/-- **C115 (areas).** After a construction `get_areas` always gives the fractions of that first construction. -/
theorem C115_areas_after (env : Env) (pack : Pack) (o o1 : Obj) (v : Vol) (fr : List (V3 ℤ × ℝ))
    (h : o.construct env pack = (o1, .ok (v, fr))) (ops : List Op) : (run env pack o1 ops).getAreas = .ok fr := by
  have hk := C115_kept env pack o o1 v fr h ops
  have : ∃ P, (run env pack o1 ops).cache = some P := by
    by_contra hn
    have h1 : ∃ P, o1.cache = some P := by
      have hs := construct_state env pack o
      rw [h] at hs
      simp only at hs
      unfold wulff at hs
      unfold construct wulff at h
      cases hc : o.cache with
      | some P => rw [hc] at hs; exact ⟨P, by rw [hs]; exact hc⟩
      | none =>
        rw [hc] at hs h
        cases hp : pack.single o.energies o.pAtoms o.natoms with
        | error x => simp only [hp] at h; cases h
        | ok P => simp only [hp] at hs; exact ⟨P, by rw [hs]⟩
    obtain ⟨P, hP⟩ := h1
    exact hn ⟨P, run_cached env pack ops o1 hP⟩
  obtain ⟨P, hP⟩ := this
  unfold construct at hk
  rw [wulff_cached hP] at hk
  simp only at hk
  unfold getAreas
  rw [hP]
  simp only
  split at hk
  · cases hk
  · next w hw => cases hk; rfl

/-- **C115 (Winterbottom).** `winterbottom` always uses the attributes now held, and neither reads nor changes the kept particle:
leaving its calls out of a history changes nothing. -/
theorem C115_winterbottom (env : Env) (pack : Pack) (o : Obj) (i : V3 ℤ) (en : ℝ) (P : Particle)
    (hP : pack.winterbottom o.energies i en o.pAtoms o.natoms = .ok P) (hu : ∀ f ∈ P.facets, len f.normal = 1) :
    (∃ v, o.winterbottom env pack i en = .ok v ∧ v.gen = some (.crystal o.gen) ∧
      ∀ p, Inside env (.vol v) p ↔ InPolyhedron P.facets (1 / 10 ^ 5) p) ∧
    ∀ pre post, run env pack o (pre ++ .winterbottom i en :: post) = run env pack o (pre ++ post) := by
  refine ⟨?_, fun pre post => ?_⟩
  · obtain ⟨v, h1, h2, h3⟩ := C91_polyhedron env ⟨o.gen, 0, .other⟩ P.facets hu
    refine ⟨v, ?_, h2, h3⟩
    have hv : o.volumeOf env P.facets = .ok v := h1
    unfold winterbottom
    rw [hP]
    exact hv
  · simp only [run, List.foldl_append, List.foldl_cons]
    rfl

/-- The object made anew from the attributes now held. -/
def Renewed (o o' : Obj) : Prop :=
  make (some (.crystal o.gen)) o.energies (.int o.natoms) = .ok o'

/-- A crystal with one atom in the given cell. -/
def atomGen (B : M3 ℝ) : Gen ℝ := ⟨some ⟨B, [(0, 79)]⟩, some ⟨B, .scalar 1, 0⟩, none, none⟩

/-- A cube whose half edge is the number of atoms, for every structure and all energies. -/
def cubePack : Pack where
  single := fun _ _ n => .ok ⟨cubeFacets n, []⟩
  winterbottom := fun _ _ _ _ n => .ok ⟨cubeFacets n, []⟩

/-- **C115, refuted.** Setting `natoms` (to an accepted value) after a construction has no effect: the object reports the new
number, but its construction differs from that of an object made with the same attributes. -/
theorem C115_natoms_refuted (env : Env) : ¬ ∀ (pack : Pack) (o o' : Obj) (ops : List Op), o.cache = none →
    Renewed (run env pack o ops) o' →
    ∀ v v', ((run env pack o ops).construct env pack).2 = .ok v → (o'.construct env pack).2 = .ok v' →
      ∀ p, Inside env (.vol v.1) p ↔ Inside env (.vol v'.1) p := by
  intro H
  obtain ⟨s, hs⟩ : ∃ s, (atomGen 1).struct = some s := ⟨_, rfl⟩
  let o : Obj := ⟨atomGen 1, s, 1, .dict [], none⟩
  have hr : run env cubePack o [.construct, .setNatoms (.int 3)] = ⟨atomGen 1, s, 3, .dict [], some ⟨cubeFacets 1, []⟩⟩ := by
    simp only [run, List.foldl_cons, List.foldl_nil, step, construct_state]
    simp [wulff, o, cubePack, setNatoms, natomsSet]
  have hm : make (some (.crystal (atomGen 1))) (.dict []) (.int 3) = .ok ⟨atomGen 1, s, 3, .dict [], none⟩ := by
    simp only [make, hs]; rfl
  have key := H cubePack o ⟨atomGen 1, s, 3, .dict [], none⟩ [.construct, .setNatoms (.int 3)] rfl
    (by rw [hr]; exact hm)
  rw [hr] at key
  obtain ⟨v, hv, -, hi⟩ := C91_polyhedron env ⟨atomGen 1, 0, .other⟩ (cubeFacets 1) (cubeFacets_unit 1)
  obtain ⟨v', hv', -, hi'⟩ := C91_polyhedron env ⟨atomGen 1, 0, .other⟩ (cubeFacets 3) (cubeFacets_unit 3)
  have e1 : ((⟨atomGen 1, s, 3, .dict [], some ⟨cubeFacets 1, []⟩⟩ : Obj).construct env cubePack).2 = .ok (v, []) := by
    have : (⟨atomGen 1, s, 3, .dict [], some ⟨cubeFacets 1, []⟩⟩ : Obj).volumeOf env (cubeFacets 1) = .ok v := hv
    simp only [construct, wulff, this]
  have e2 : ((⟨atomGen 1, s, 3, .dict [], none⟩ : Obj).construct env cubePack).2 = .ok (v', []) := by
    have : (⟨atomGen 1, s, 3, .dict [], some ⟨cubeFacets 3, []⟩⟩ : Obj).volumeOf env (cubeFacets 3) = .ok v' := hv'
    simp only [construct, wulff, cubePack, Int.cast_ofNat, this]
  have k := key _ _ e1 e2 ⟨2, 0, 0⟩
  simp only at k
  rw [hi, hi'] at k
  have h3 : InPolyhedron (cubeFacets 3) (1 / 10 ^ 5) ⟨2, 0, 0⟩ := by
    intro f hf
    simp only [cubeFacets, List.mem_cons, List.not_mem_nil, or_false] at hf
    rcases hf with rfl | rfl | rfl | rfl | rfl | rfl <;> simp [height] <;> norm_num
  have h1 := k.mpr h3 ⟨⟨1, 0, 0⟩, 1⟩ (by simp [cubeFacets])
  simp [height] at h1
  norm_num at h1

theorem step_same (env : Env) (pack : Pack) (o : Obj) {op : Op} (h : ¬ Changes op) :
    (step env pack o op).gen = o.gen ∧ (step env pack o op).pAtoms = o.pAtoms ∧ (step env pack o op).natoms = o.natoms ∧
      (step env pack o op).energies = o.energies := by
  cases op with
  | setGenerator g => exact absurd trivial h
  | setNatoms x => exact absurd trivial h
  | setEnergies x => exact absurd trivial h
  | touch g => exact absurd trivial h
  | construct =>
    rw [step, construct_state]
    unfold wulff
    split
    · exact ⟨rfl, rfl, rfl, rfl⟩
    · split <;> exact ⟨rfl, rfl, rfl, rfl⟩
  | getAreas => exact ⟨rfl, rfl, rfl, rfl⟩
  | winterbottom i e => exact ⟨rfl, rfl, rfl, rfl⟩

/-- The kept particle, if any, belongs to the attributes held. -/
def InStep (pack : Pack) (o : Obj) : Prop := ∀ P, o.cache = some P → pack.single o.energies o.pAtoms o.natoms = .ok P

theorem run_inStep (env : Env) (pack : Pack) : ∀ (ops : List Op) (o : Obj), InStep pack o → (∀ op ∈ ops, ¬ Changes op) →
    InStep pack (run env pack o ops)
  | [], _, h, _ => h
  | op :: ops, o, h, ho => by
    refine run_inStep env pack ops _ ?_ fun x hx => ho x (List.mem_cons_of_mem _ hx)
    obtain ⟨-, h2, h3, h4⟩ := step_same env pack o (ho op List.mem_cons_self)
    intro P hP
    rw [h2, h3, h4]
    cases op with
    | setGenerator g => exact absurd trivial (ho _ List.mem_cons_self)
    | setNatoms x => exact absurd trivial (ho _ List.mem_cons_self)
    | setEnergies x => exact absurd trivial (ho _ List.mem_cons_self)
    | touch g => exact absurd trivial (ho _ List.mem_cons_self)
    | construct =>
      rw [step, construct_state] at hP
      unfold wulff at hP
      cases hc : o.cache with
      | some Q => rw [hc] at hP; exact h P hP
      | none =>
        rw [hc] at hP
        cases hp : pack.single o.energies o.pAtoms o.natoms with
        | error x => simp only [hp] at hP; rw [hc] at hP; cases hP
        | ok Q => simp only [hp] at hP; cases hP; rfl
    | getAreas => exact h P hP
    | winterbottom i e => exact h P hP

/-- **C115, partial.** The construction agrees with that of an object made with the attributes now held as long as no attribute is
set, and the generator not changed, after the first call of `get_construction`.  Missing: the cases of
`C115_natoms_refuted` and `C115_structure_refuted`. -/
theorem C115_current_partial (env : Env) (pack : Pack) (gen : Option GenObj) (e : Energies) (n : PyVal) (o o' : Obj) (h : make gen e n = .ok o)
    (pre post : List Op) (hpre : ∀ op ∈ pre, op ≠ .construct) (hpost : ∀ op ∈ post, ¬ Changes op)
    (hg : (run env pack o pre).gen.struct = some (run env pack o pre).pAtoms)
    (hr : Renewed (run env pack o (pre ++ post)) o') :
    ((run env pack o (pre ++ post)).construct env pack).2 = (o'.construct env pack).2 := by
  set q := run env pack o (pre ++ post) with hq
  have hsame : ∀ (ops : List Op) (x : Obj), (∀ op ∈ ops, ¬ Changes op) →
      (run env pack x ops).gen = x.gen ∧ (run env pack x ops).pAtoms = x.pAtoms := by
    intro ops
    induction ops with
    | nil => intro x _; exact ⟨rfl, rfl⟩
    | cons op ops ih =>
      intro x hx
      obtain ⟨a, b, -, -⟩ := step_same env pack x (hx op List.mem_cons_self)
      obtain ⟨c, d⟩ := ih (step env pack x op) fun y hy => hx y (List.mem_cons_of_mem _ hy)
      rw [run_cons]
      exact ⟨c.trans a, d.trans b⟩
  have hsplit : q = run env pack (run env pack o pre) post := by rw [hq]; simp only [run, List.foldl_append]
  have hst : q.gen.struct = some q.pAtoms := by
    obtain ⟨a, b⟩ := hsame post (run env pack o pre) hpost
    rw [hsplit, a, b]; exact hg
  have hin : InStep pack q := by
    rw [hsplit]
    refine run_inStep env pack post _ (fun P hP => ?_) hpost
    rw [run_fresh env pack pre o (make_cache h) hpre] at hP
    cases hP
  have ho' : o' = { q with cache := none } := by
    unfold Renewed make at hr
    simp only [hst] at hr
    simp only [natomsSet, bind, Except.bind] at hr
    cases he : energiesSet q.energies with
    | error x => rw [he] at hr; cases hr
    | ok d =>
      rw [he] at hr
      have : d = q.energies := by
        unfold energiesSet at he
        split at he
        · split at he
          · next hq' _ => cases he; rw [hq']
          · cases he
        · cases he
        · cases he
      subst this
      cases hr; rfl
  rw [ho']
  cases hc : q.cache with
  | none => rw [show ({ q with cache := none } : Obj) = q by rw [← hc]]
  | some P =>
    have hp := hin P hc
    have e1 : ({ q with cache := none } : Obj).wulff pack = (q, .ok P) := by
      unfold wulff
      simp only [hp]
      rw [← hc]
    unfold construct
    rw [wulff_cached hc, e1]

/-- **C115, refuted (structure).** A structure given to the attached generator afterwards is not noticed, not even by the first
construction: it still uses the primitive cell read when the generator was attached. -/
theorem C115_structure_refuted (env : Env) : ¬ ∀ (pack : Pack) (o o' : Obj) (ops : List Op), o.cache = none →
    o.gen.struct = some o.pAtoms → (∀ op ∈ ops, op ≠ .construct) → Renewed (run env pack o ops) o' →
    ((run env pack o ops).construct env pack).2 = (o'.construct env pack).2 := by
  intro H
  obtain ⟨s, hs⟩ : ∃ s, (atomGen 1).struct = some s := ⟨_, rfl⟩
  obtain ⟨s', hs'⟩ : ∃ s, (atomGen ((2 : ℝ) • 1)).struct = some s := ⟨_, rfl⟩
  have hne : s ≠ s' := by
    intro h
    have : (atomGen 1).struct = (atomGen ((2 : ℝ) • 1)).struct := by rw [hs, hs', h]
    have := congrArg (fun t => (t.map fun t : Struct ℝ => t.latticeMatrix)) this
    simp only [atomGen, Option.map_some, Option.some.injEq] at this
    have := congrArg M3.m00 this
    simp only [M3.smul_def, show M3.m00 (1 : M3 ℝ) = 1 from rfl] at this
    norm_num at this
  let pack : Pack := ⟨fun _ t _ => if t = s then .error .value else .error .type, fun _ _ _ _ _ => .error .value⟩
  have key := H pack ⟨atomGen 1, s, 1, .dict [], none⟩ ⟨atomGen ((2 : ℝ) • 1), s', 1, .dict [], none⟩ [.touch (atomGen ((2 : ℝ) • 1))]
    rfl hs (by simp) (by
      unfold Renewed
      simp only [run, List.foldl_cons, List.foldl_nil, step, make, hs']
      rfl)
  simp [run, step, construct, wulff, pack, hne.symm] at key

/-- **C115 (which exception).** The constructor and the setter raise AssertionError for anything but a crystalline generator and AttributeError for
one without a structure; TypeError for a number of atoms that is no number; AttributeError for energies that are no dict and
AssertionError for a dict with other keys or values.  The generator is checked before the number and that before the energies. -/
theorem C115_exceptions (o : Obj) (g : Option GenObj) (e : Energies) (n : PyVal) :
    ((∀ g', g ≠ some (.crystal g')) → make g e n = .error .assertion ∧ o.setGenerator g = (o, .error .assertion)) ∧
    (∀ g', g = some (.crystal g') → g'.struct = none → make g e n = .error .attribute ∧ (o.setGenerator g).2 = .error .attribute) ∧
    (∀ g' s, g = some (.crystal g') → g'.struct = some s → (n = .none ∨ n = .other) →
      make g e n = .error .type ∧ o.setNatoms n = (o, .error .type)) ∧
    (∀ g' s k, g = some (.crystal g') → g'.struct = some s → n = .int k →
      ((∀ items, e ≠ .dict items) → make g e n = .error .attribute ∧ o.setEnergies e = (o, .error .attribute)) ∧
      ∀ items, e = .dict items → (∃ i ∈ items, i.1.1 = false ∨ i.2.1 = false) →
        make g e n = .error .assertion ∧ o.setEnergies e = (o, .error .assertion)) := by
  refine ⟨?_, ?_, ?_, ?_⟩
  · intro h
    rcases g with _ | (g' | _ | _)
    · exact ⟨rfl, rfl⟩
    · exact absurd rfl (h g')
    all_goals exact ⟨rfl, rfl⟩
  · rintro g' rfl hs
    simp only [make, setGenerator, hs, and_self]
  · rintro g' s rfl hs (rfl | rfl) <;> simp only [make, setNatoms, hs, natomsSet] <;> exact ⟨rfl, trivial⟩
  · rintro g' s k rfl hs rfl
    refine ⟨fun h => ?_, ?_⟩
    · cases e with
      | dict items => exact absurd rfl (h items)
      | _ => simp only [make, setEnergies, hs, energiesSet]; exact ⟨rfl, trivial⟩
    · rintro items rfl ⟨i, hi, hbad⟩
      have hall : ¬ items.all (fun x => x.1.1 && x.2.1) = true := by
        intro h
        have := List.all_eq_true.mp h i hi
        rw [Bool.and_eq_true] at this
        rcases hbad with h | h
        · rw [h] at this; cases this.1
        · rw [h] at this; cases this.2
      simp only [make, setEnergies, hs, energiesSet, if_neg hall]
      exact ⟨rfl, trivial⟩

/-- **C115 (accepted).** What the setters accept and store, the other attributes unchanged: numbers of atoms that are int, bool,
numpy integer or float (cut off towards zero); energies that are a dict of tuples and floats, exactly those; a crystalline
generator with a structure, whose structure is read at that moment. -/
theorem C115_accepted (o : Obj) :
    (∀ n, o.setNatoms (.int n) = ({ o with natoms := n }, .ok ()) ∧ o.setNatoms (.npInt n) = ({ o with natoms := n }, .ok ())) ∧
    (∀ x : ℝ, ∃ k : ℤ, o.setNatoms (.float x) = ({ o with natoms := k }, .ok ()) ∧ |(k : ℝ)| ≤ |x| ∧ |x - k| < 1 ∧ 0 ≤ x * k) ∧
    (∀ x, (∃ o', o.setEnergies x = (o', .ok ())) ↔ ∃ items, x = .dict items ∧ ∀ i ∈ items, i.1.1 = true ∧ i.2.1 = true) ∧
    (∀ x o', o.setEnergies x = (o', .ok ()) → o' = { o with energies := x }) ∧
    (∀ g s, g.struct = some s → o.setGenerator (some (.crystal g)) = ({ o with gen := g, pAtoms := s }, .ok ())) := by
  refine ⟨fun n => ⟨rfl, rfl⟩, fun x => ?_, fun x => ?_, fun x o' => ?_, fun g s hs => ?_⟩
  · by_cases hx : 0 ≤ x
    · refine ⟨⌊x⌋, by simp only [setNatoms, natomsSet, if_pos hx], ?_⟩
      have h1 := Int.floor_le x
      have h2 := Int.lt_floor_add_one x
      have h3 : (0 : ℝ) ≤ ⌊x⌋ := by exact_mod_cast Int.floor_nonneg.mpr hx
      refine ⟨by rw [abs_of_nonneg h3, abs_of_nonneg hx]; exact h1, ?_, mul_nonneg hx h3⟩
      rw [abs_of_nonneg (by linarith)]; linarith
    · refine ⟨⌈x⌉, by simp only [setNatoms, natomsSet, if_neg hx], ?_⟩
      have h1 := Int.le_ceil x
      have h2 := Int.ceil_lt_add_one x
      push Not at hx
      have h3 : ((⌈x⌉ : ℤ) : ℝ) ≤ 0 := by exact_mod_cast Int.ceil_le.mpr (by simpa using hx.le)
      refine ⟨by rw [abs_of_nonpos h3, abs_of_neg hx]; linarith, ?_, mul_nonneg_of_nonpos_of_nonpos hx.le h3⟩
      rw [abs_of_nonpos (by linarith)]; linarith
  · cases x with
    | dict items =>
      by_cases h : items.all (fun x => x.1.1 && x.2.1) = true
      · refine ⟨fun _ => ⟨items, rfl, fun i hi => ?_⟩, fun _ => ⟨_, by simp only [setEnergies, energiesSet, if_pos h]; rfl⟩⟩
        have := List.all_eq_true.mp h i hi
        rwa [Bool.and_eq_true] at this
      · constructor
        · rintro ⟨o', ho'⟩
          simp only [setEnergies, energiesSet, if_neg h] at ho'
          cases ho'
        · rintro ⟨items', he, ha⟩
          cases he
          exact absurd (List.all_eq_true.mpr fun i hi => by rw [Bool.and_eq_true]; exact ha i hi) h
    | int n =>
      exact ⟨fun ⟨o', ho'⟩ => (by cases ho'), fun ⟨i, hi, _⟩ => (by cases hi)⟩
    | other =>
      exact ⟨fun ⟨o', ho'⟩ => (by cases ho'), fun ⟨i, hi, _⟩ => (by cases hi)⟩
  · intro h
    cases x with
    | dict items =>
      by_cases h' : items.all (fun x => x.1.1 && x.2.1) = true
      · simp only [setEnergies, energiesSet, if_pos h'] at h
        cases h; rfl
      · simp only [setEnergies, energiesSet, if_neg h'] at h
        cases h
    | int n => cases h
    | other => cases h
  · simp only [setGenerator, hs]

/-- **C115 (setters).** A value refused by the setters of `natoms` and `surface_energies`, and a generator that is not crystalline,
leave the object as it was. -/
theorem C115_refused_partial (o : Obj) :
    (∀ x, (∃ e, (o.setNatoms x).2 = .error e) → (o.setNatoms x).1 = o) ∧
    (∀ x, (∃ e, (o.setEnergies x).2 = .error e) → (o.setEnergies x).1 = o) ∧
    (∀ g, (o.setGenerator g).2 = .error .assertion → (o.setGenerator g).1 = o) := by
  refine ⟨fun x => ?_, fun x => ?_, fun g => ?_⟩
  · unfold setNatoms
    split
    · exact fun _ => rfl
    · rintro ⟨e, he⟩; cases he
  · unfold setEnergies
    split
    · exact fun _ => rfl
    · rintro ⟨e, he⟩; cases he
  · unfold setGenerator
    split
    · split
      · intro h; cases h
      · intro h; cases h
    · exact fun _ => rfl

/-- **C115, refuted (setters).** A crystalline generator without a structure is refused with an AttributeError but is attached all
the same: the next construction is the old shape filled by a generator that cannot supply atoms. -/
theorem C115_refused_refuted : ¬ ∀ (o : Obj) (g : Option GenObj), (∃ e, (o.setGenerator g).2 = .error e) → (o.setGenerator g).1 = o := by
  intro H
  obtain ⟨s, hs⟩ : ∃ s, (atomGen 1).struct = some s := ⟨_, rfl⟩
  have h := H ⟨atomGen 1, s, 1, .dict [], none⟩ (some (.crystal ⟨none, none, none, none⟩)) ⟨.attribute, rfl⟩
  have := (congrArg (fun o : Obj => o.gen.struct) h).trans hs
  cases this

/-- The hypotheses of `C115_kept` and `C115_first` are met: a cube of half edge 1 which stays when 3 atoms are asked for. -/
example (env : Env) (s : Struct ℝ) : ∃ o1 v, (⟨atomGen 1, s, 1, .dict [], none⟩ : Obj).construct env cubePack = (o1, .ok (v, [])) ∧
    ((run env cubePack o1 [.setNatoms (.int 3)]).construct env cubePack).2 = .ok (v, []) ∧ (run env cubePack o1 [.setNatoms (.int 3)]).natoms = 3 := by
  obtain ⟨v, hv, hg, -⟩ := C91_polyhedron env ⟨atomGen 1, 0, .other⟩ (cubeFacets 1) (cubeFacets_unit 1)
  have h : (⟨atomGen 1, s, 1, .dict [], none⟩ : Obj).construct env cubePack =
      (⟨atomGen 1, s, 1, .dict [], some ⟨cubeFacets 1, []⟩⟩, .ok (v, [])) := by
    have : (⟨atomGen 1, s, 1, .dict [], some ⟨cubeFacets 1, []⟩⟩ : Obj).volumeOf env (cubeFacets 1) = .ok v := hv
    simp only [construct, wulff, cubePack, Int.cast_one, this]
  refine ⟨_, v, h, ?_, rfl⟩
  rw [C115_kept env cubePack _ _ v [] h [.setNatoms (.int 3)]]
  congr 1
  rw [show (run env cubePack ⟨atomGen 1, s, 1, .dict [], some ⟨cubeFacets 1, []⟩⟩ [.setNatoms (.int 3)]).gen = atomGen 1 from rfl, ← hg]

end Wulff.Obj

end
end CZ
