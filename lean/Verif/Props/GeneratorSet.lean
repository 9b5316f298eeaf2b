import Verif.GeneratorSet
import Verif.Props.Generator

/-!
# Property C125: the settings of a crystal can be changed at any time
-/

namespace CZ
open Spec
namespace GenSet

section
variable {K : Type} [Field K] [LinearOrder K] [IsStrictOrderedRing K] [FloorRing K]

/-! ## Specification -/

/-- The basis a generator has; the identity as long as it has none. -/
def St.bases (g : St K) : M3 K := (g.voxel.map Vox.bases).getD 1
/-- The scale a generator has; 1 as long as it has none. -/
def St.scale (g : St K) : ScaleVal K := (g.voxel.map Vox.scale).getD (.flat (.scalar 1))
/-- The origin a generator has; 0 as long as it has none. -/
def St.origin (g : St K) : V3 K := (g.voxel.map Vox.origin).getD 0

/-- The assignments and calls of a history that returned normally. -/
def accepted (g : St K) : List (Op K) → List (Op K)
  | [] => []
  | o :: os => match step g o with
    | (g', .ok ()) => o :: accepted g' os
    | (g', .error _) => accepted g' os

/-- What an accepted step makes of the bases: a structure, a voxel or an assignment gives new ones, a transformation acts on them. -/
def nextBases (B : M3 K) : Op K → M3 K
  | .structure_ (.of s) => s.latticeMatrix
  | .voxel (.of v) => v.bases
  | .bases (.mat C) => C
  | .transform (.of t) => t.bases B
  | _ => B

/-- What an accepted step makes of the scale: a structure sets it to 1. -/
def nextScale (c : ScaleVal K) : Op K → ScaleVal K
  | .structure_ (.of _) => .flat (.scalar 1)
  | .voxel (.of v) => v.scale
  | .scale (.fits s) => .flat s
  | .scale .deep => .deep
  | _ => c

/-- What an accepted step makes of the origin: a structure leaves it alone. -/
def nextOrigin (o : V3 K) : Op K → V3 K
  | .origin (.vec p) => p
  | .voxelOrigin (.vec p) => p
  | .voxel (.of v) => v.origin
  | .transform (.of t) => if t.basisOnly then o else t.apply o
  | _ => o

/-- What an accepted step makes of the structure. -/
def nextStruct (s : Option (Struct K)) : Op K → Option (Struct K)
  | .structure_ (.of s') => some s'
  | _ => s

/-- What an accepted step makes of the post transform. -/
def nextPost (p : Option (Post K)) : Op K → Option (Post K)
  | .post (.of p') => some p'
  | _ => p

/-- The settings of a strain field: matrix, mode and kind of origin. -/
def settings (s : HStrain K) : M3 K × String × Bool := (s.matrix, s.mode, s.fromGenerator)

/-- What an accepted step makes of the settings of the strain field. -/
def nextStrain (s : Option (M3 K × String × Bool)) : Op K → Option (M3 K × String × Bool)
  | .strain (.of s') => some (settings s')
  | _ => s

/-- The lattice of a structure is one a Voxel takes as bases: no two non-zero rows are multiples of each other (C33). -/
def Usable (B : M3 K) : Prop :=
  ∀ p ∈ [(B.row0, B.row1), (B.row0, B.row2), (B.row1, B.row2)], p.1 ≠ 0 → p.2 ≠ 0 → ¬ ∃ c : K, p.2 = c • p.1

/-- The structures assigned by a step have usable lattices. -/
def Sound : Op K → Prop
  | .structure_ (.of s) => Usable s.latticeMatrix
  | _ => True

/-! ## Lemmas -/

theorem basesSet_cases (B : M3 K) : (Voxel.basesSet B = .ok B ∧ Usable B) ∨ (Voxel.basesSet B = .error .assertion ∧ ¬ Usable B) := by
  have h := C33_acceptance B
  have h' : Voxel.basesSet B = .ok B ∨ Voxel.basesSet B = .error .assertion := by
    unfold Voxel.basesSet
    split
    · exact .inr rfl
    · split
      · exact .inr rfl
      · split
        · exact .inr rfl
        · exact .inl rfl
  rcases h' with h' | h'
  · exact .inl ⟨h', h.mp ⟨_, h'⟩⟩
  · refine .inr ⟨h', fun hu => ?_⟩
    obtain ⟨B', hB⟩ := h.mpr hu
    rw [h'] at hB
    cases hB

open Classical in
/-- **C33 (whole constructor).** `Voxel(bases, scale, origin)` keeps the three values unchanged when no two non-zero rows of the
bases are multiples of each other and raises AssertionError otherwise. -/
theorem C33_constructor (B : M3 K) (s : Scale K) (o : V3 K) :
    Voxel.make B s o = if Usable B then .ok ⟨B, s, o⟩ else .error .assertion := by
  rcases basesSet_cases B with ⟨h, hu⟩ | ⟨h, hu⟩
  · rw [if_pos hu]; unfold Voxel.make; rw [h]; rfl
  · rw [if_neg hu]; unfold Voxel.make; rw [h]; rfl

/-- Two equal rows are refused. -/
example (o : V3 ℚ) : Voxel.make (⟨1, 0, 0, 1, 0, 0, 0, 0, 1⟩ : M3 ℚ) (.scalar 2) o = .error .assertion := by
  rw [C33_constructor, if_neg]
  intro h
  exact h ((⟨1, 0, 0⟩ : V3 ℚ), (⟨1, 0, 0⟩ : V3 ℚ)) (by simp [M3.row0, M3.row1]) (by intro h; simpa using congrArg V3.x h)
    (by intro h; simpa using congrArg V3.x h) ⟨1, by ext <;> simp⟩

omit [FloorRing K] in
theorem basesSet_ok {B C : M3 K} (h : Voxel.basesSet B = .ok C) : C = B := by
  unfold Voxel.basesSet at h
  split at h
  · cases h
  · split at h
    · cases h
    · split at h
      · cases h
      · exact (Except.ok.inj h).symm

omit [FloorRing K] in
theorem scrape_settings (s : HStrain K) (B : M3 K) (o : V3 K) : settings (s.scrape B o) = settings s := by
  unfold HStrain.scrape settings
  by_cases h1 : s.mode = "crystal" <;> cases h2 : s.fromGenerator <;> simp [h1, h2]

theorem supply_frame (g : St K) (rng : ℕ → ℕ → ℕ → K) (bbox : List (V3 K)) :
    ∃ s, (g.supply rng bbox).1 = { g with strain := s } ∧ s.map settings = g.strain.map settings := by
  unfold St.supply
  split
  · exact ⟨g.strain, rfl, rfl⟩
  · rename_i v hv
    split
    · exact ⟨g.strain, rfl, rfl⟩
    · rename_i s hs
      refine ⟨_, rfl, ?_⟩
      show (((g.gen s).supply rng bbox).1).strain.map settings = (g.gen s).strain.map settings
      unfold Gen.supply
      split
      · rfl
      · split
        · rfl
        · split
          · rfl
          · split
            · rfl
            · simp only
              split
              · rfl
              · rename_i st hst
                split <;> simp only [Option.map_some, scrape_settings, hst]

/-! ## C125 -/

/-- **C125 (one step).**  A step that returns normally gives every setting the value it names and leaves all others alone. -/
theorem C125_accepted (g g' : St K) (o : Op K) (h : step g o = (g', .ok ())) :
    g'.bases = nextBases g.bases o ∧ g'.scale = nextScale g.scale o ∧ g'.origin = nextOrigin g.origin o ∧
    g'.struct = nextStruct g.struct o ∧ g'.post = nextPost g.post o ∧ g'.strain.map settings = nextStrain (g.strain.map settings) o := by
  cases o with
  | structure_ x =>
    cases x with
    | other => cases h
    | of s =>
      simp only [step, store, Vox.make, basesStore, scaleStore, originStore] at h
      cases hb : Voxel.basesSet s.latticeMatrix with
      | error e => rw [hb] at h; cases h
      | ok B =>
        rw [hb] at h
        obtain rfl := basesSet_ok hb
        obtain rfl := (Prod.mk.inj h).1
        refine ⟨rfl, rfl, ?_, rfl, rfl, rfl⟩
        unfold St.origin
        cases g.voxel <;> rfl
  | origin x =>
    simp only [step] at h
    cases hv : g.voxel with
    | none =>
      rw [hv] at h
      rcases basesSet_cases (1 : M3 K) with ⟨hb, -⟩ | ⟨hb, -⟩
      · cases x <;> simp only [store, Vox.make, basesStore, scaleStore, originStore, hb] at h
        · obtain rfl := (Prod.mk.inj h).1
          exact ⟨by simp [St.bases, hv, nextBases], by simp [St.scale, hv, nextScale], rfl, rfl, rfl, rfl⟩
        · cases h
        · cases h
      · simp only [store, Vox.make, basesStore, hb] at h
        cases h
    | some v =>
      rw [hv] at h
      cases x <;> simp only [store, originStore] at h
      · obtain rfl := (Prod.mk.inj h).1
        exact ⟨by simp [St.bases, hv, nextBases], by simp [St.scale, hv, nextScale], rfl, rfl, rfl, rfl⟩
      · cases h
      · cases h
  | voxel x =>
    cases x with
    | other => cases h
    | of v => obtain rfl := (Prod.mk.inj h).1; exact ⟨rfl, rfl, rfl, rfl, rfl, rfl⟩
  | strain x =>
    cases x with
    | other => cases h
    | of v => obtain rfl := (Prod.mk.inj h).1; exact ⟨rfl, rfl, rfl, rfl, rfl, rfl⟩
  | post x =>
    cases x with
    | other => cases h
    | of v => obtain rfl := (Prod.mk.inj h).1; exact ⟨rfl, rfl, rfl, rfl, rfl, rfl⟩
  | bases x =>
    simp only [step, inVoxel] at h
    cases hv : g.voxel with
    | none => rw [hv] at h; cases h
    | some v =>
      rw [hv] at h
      cases x with
      | misfit => cases h
      | mat B =>
        simp only [store, basesStore] at h
        cases hb : Voxel.basesSet B with
        | error e => rw [hb] at h; cases h
        | ok C =>
          rw [hb] at h
          obtain rfl := basesSet_ok hb
          obtain rfl := (Prod.mk.inj h).1
          exact ⟨rfl, by simp [St.scale, hv, nextScale], by simp [St.origin, hv, nextOrigin], rfl, rfl, rfl⟩
  | scale x =>
    simp only [step, inVoxel] at h
    cases hv : g.voxel with
    | none => rw [hv] at h; cases h
    | some v =>
      rw [hv] at h
      cases x <;> simp only [store, scaleStore] at h
      · obtain rfl := (Prod.mk.inj h).1
        exact ⟨by simp [St.bases, hv, nextBases], rfl, by simp [St.origin, hv, nextOrigin], rfl, rfl, rfl⟩
      · obtain rfl := (Prod.mk.inj h).1
        exact ⟨by simp [St.bases, hv, nextBases], rfl, by simp [St.origin, hv, nextOrigin], rfl, rfl, rfl⟩
      · cases h
      · cases h
  | voxelOrigin x =>
    simp only [step, inVoxel] at h
    cases hv : g.voxel with
    | none => rw [hv] at h; cases h
    | some v =>
      rw [hv] at h
      cases x <;> simp only [store, originStore] at h
      · obtain rfl := (Prod.mk.inj h).1
        exact ⟨by simp [St.bases, hv, nextBases], by simp [St.scale, hv, nextScale], rfl, rfl, rfl, rfl⟩
      · cases h
      · cases h
  | transform x =>
    cases x with
    | other => cases h
    | of t =>
      simp only [step] at h
      cases hv : g.voxel with
      | none => rw [hv] at h; cases h
      | some v =>
        rw [hv] at h
        simp only [store, basesStore] at h
        cases hb : Voxel.basesSet (t.bases v.bases) with
        | error e => rw [hb] at h; cases h
        | ok C =>
          rw [hb] at h
          obtain rfl := basesSet_ok hb
          obtain rfl := (Prod.mk.inj h).1
          refine ⟨?_, ?_, ?_, rfl, rfl, rfl⟩
          · simp [St.bases, hv, nextBases]
          · simp [St.scale, hv, nextScale]
          · simp [St.origin, hv, nextOrigin]
  | supply rng bbox =>
    obtain ⟨s, h1, h2⟩ := supply_frame g rng bbox
    have : g' = (g.supply rng bbox).1 := (Prod.mk.inj h).1.symm
    rw [this, h1]
    exact ⟨rfl, rfl, rfl, rfl, rfl, h2⟩

/-- **C125 (refused, partial).**  A refused assignment or transformation leaves the generator as it was.  Missing: structures whose lattice
is refused, which stay (`C125_structure_refuted`). -/
theorem C125_refused_partial (g : St K) (o : Op K) (e : PyErr) (h : (step g o).2 = .error e) (hs : Sound o) :
    (∃ s, (step g o).1 = { g with strain := s } ∧ s.map settings = g.strain.map settings) ∧
    ((∀ rng bbox, o ≠ .supply rng bbox) → (step g o).1 = g) := by
  have key : (step g o).1 = g →
      (∃ s, (step g o).1 = { g with strain := s } ∧ s.map settings = g.strain.map settings) ∧
      ((∀ rng bbox, o ≠ .supply rng bbox) → (step g o).1 = g) := fun hg => ⟨⟨g.strain, hg, rfl⟩, fun _ => hg⟩
  have hstore : ∀ {α : Type} (r : Py α) (f : α → St K), (store g r f).2 = .error e → (store g r f).1 = g := by
    intro α r f h
    unfold store at h ⊢
    split
    · cases h
    · rfl
  have hin : ∀ {α : Type} (r : Py α) (f : Vox K → α → Vox K), (inVoxel g r f).2 = .error e → (inVoxel g r f).1 = g := by
    intro α r f h
    unfold inVoxel at h ⊢
    split
    · rfl
    · rename_i v hv
      rw [hv] at h
      exact hstore _ _ h
  cases o with
  | structure_ x =>
    cases x with
    | other => exact key rfl
    | of s =>
      rcases basesSet_cases s.latticeMatrix with ⟨hb, -⟩ | ⟨-, hu⟩
      · simp only [step, store, Vox.make, basesStore, scaleStore, originStore, hb] at h
        cases h
      · exact absurd hs hu
  | origin x =>
    apply key
    simp only [step] at h ⊢
    split
    · rename_i hv
      rw [hv] at h
      exact hstore _ _ h
    · rename_i v hv
      rw [hv] at h
      exact hstore _ _ h
  | voxel x => cases x with
    | other => exact key rfl
    | of v => cases h
  | strain x => cases x with
    | other => exact key rfl
    | of v => cases h
  | post x => cases x with
    | other => exact key rfl
    | of v => cases h
  | bases x => exact key (hin _ _ h)
  | scale x => exact key (hin _ _ h)
  | voxelOrigin x => exact key (hin _ _ h)
  | transform x => cases x with
    | other => exact key rfl
    | of t =>
      apply key
      simp only [step] at h ⊢
      split
      · rfl
      · rename_i v hv
        rw [hv] at h
        exact hstore _ _ h
  | supply rng bbox => exact ⟨supply_frame g rng bbox, fun hn => absurd rfl (hn rng bbox)⟩

/-- **C125 (histories, partial).**  After any history every setting is what the accepted steps made of it, one setting without regard to the
others.  Missing: histories that assign a structure with an unusable lattice. -/
theorem C125_history_partial (g : St K) (h : List (Op K)) (hs : ∀ o ∈ h, Sound o) :
    (run g h).bases = (accepted g h).foldl nextBases g.bases ∧ (run g h).scale = (accepted g h).foldl nextScale g.scale ∧
    (run g h).origin = (accepted g h).foldl nextOrigin g.origin ∧ (run g h).struct = (accepted g h).foldl nextStruct g.struct ∧
    (run g h).post = (accepted g h).foldl nextPost g.post ∧
    (run g h).strain.map settings = (accepted g h).foldl nextStrain (g.strain.map settings) := by
  induction h generalizing g with
  | nil => exact ⟨rfl, rfl, rfl, rfl, rfl, rfl⟩
  | cons o os ih =>
    have ih' := ih (step g o).1 fun o' ho => hs o' (List.mem_cons_of_mem _ ho)
    have hrun : run g (o :: os) = run (step g o).1 os := rfl
    rw [hrun]
    rcases hstep : step g o with ⟨g', _ | ⟨⟩⟩
    · rename_i e
      have hr := (C125_refused_partial g o e (by rw [hstep]) (hs o List.mem_cons_self)).1
      obtain ⟨s, h1, h2⟩ := hr
      rw [hstep] at ih' h1
      simp only at h1
      have ha : accepted g (o :: os) = accepted g' os := by simp only [accepted, hstep]
      rw [ha]
      subst h1
      refine ⟨ih'.1, ih'.2.1, ih'.2.2.1, ih'.2.2.2.1, ih'.2.2.2.2.1, ?_⟩
      rw [ih'.2.2.2.2.2, ← h2]
    · have ha : accepted g (o :: os) = o :: accepted g' os := by simp only [accepted, hstep]
      obtain ⟨a1, a2, a3, a4, a5, a6⟩ := C125_accepted g g' o hstep
      rw [ha, List.foldl_cons, List.foldl_cons, List.foldl_cons, List.foldl_cons, List.foldl_cons, List.foldl_cons]
      rw [hstep] at ih'
      rw [← a1, ← a2, ← a3, ← a4, ← a5, ← a6]
      exact ih'

/-- **C125 (what is supplied).**  After a history without strain field and post transform, `supply_atoms` gives sites of the crystal of
the settings accepted last, and all of them in the box (basis atoms near the cell, see C30). -/
theorem C125_supplied_partial (g : St K) (h : List (Op K)) (hs : ∀ o ∈ h, Sound o) (st : Struct K) (c : Scale K) (B : M3 K) (o : V3 K)
    (hst : (accepted g h).foldl nextStruct g.struct = some st) (hc : (accepted g h).foldl nextScale g.scale = .flat c)
    (hB : (accepted g h).foldl nextBases g.bases = B) (ho : (accepted g h).foldl nextOrigin g.origin = o)
    (hp : (accepted g h).foldl nextPost g.post = none) (hf : (accepted g h).foldl nextStrain (g.strain.map settings) = none)
    (rng : ℕ → ℕ → ℕ → K) (bbox ps : List (V3 K)) (zs : List ℤ) (hok : ((run g h).supply rng bbox).2 = .ok (ps, zs)) :
    (∀ a ∈ ps.zip zs, a ∈ Crystal (⟨B, c, o⟩ : Voxel K).sbases o st.sites) ∧
    (FracNearCell st.sites → ∀ a ∈ Crystal (⟨B, c, o⟩ : Voxel K).sbases o st.sites, a.1 ∈ Region bbox → a ∈ ps.zip zs) := by
  obtain ⟨h1, h2, h3, h4, h5, h6⟩ := C125_history_partial g h hs
  rw [hB] at h1
  rw [hc] at h2
  rw [ho] at h3
  rw [hst] at h4
  rw [hp] at h5
  rw [hf] at h6
  generalize run g h = r at *
  unfold St.supply at hok
  cases hv : r.voxel with
  | none => rw [hv] at hok; cases hok
  | some v =>
    rw [hv] at hok
    simp only [St.bases, St.scale, St.origin, hv, Option.map_some, Option.getD_some] at h1 h2 h3
    subst h1 h3
    simp only [h2] at hok
    have hg : Gen.Plain (r.gen c) ⟨v.bases, c, v.origin⟩ st.sites := by
      refine ⟨?_, ?_, ?_, ?_⟩
      · simp [St.gen, hv]
      · exact ⟨st.latticeMatrix, by simp [St.gen, h4]⟩
      · simpa [St.gen] using h6
      · simp [St.gen, h5]
    refine ⟨?_, fun hfr a ha hin => C30_fills_region_partial _ _ _ hg hfr rng bbox ps zs hok a ha hin⟩
    obtain ⟨lo, hi, -, idx, -, -, e1, e2⟩ := C29_enumerates_once _ _ _ hg rng bbox ps zs hok
    intro a ha
    rw [e1, e2, List.zip_map', List.mem_map] at ha
    obtain ⟨x, -, rfl⟩ := ha
    exact ⟨x.1, _, List.getElem_mem _, rfl⟩

/-- **C125 (exceptions).**  Which steps are refused, and how.  Objects of the wrong class: AssertionError, for voxels TypeError.  Origins
that are lists or numbers: AttributeError; arrays of another shape: AssertionError.  Without voxel, its attributes cannot be assigned, and
neither `transform` nor `supply_atoms` works (AttributeError).  Bases are refused if of another shape or with parallel rows
(AssertionError), scales if they do not broadcast (ValueError) or are no numbers (TypeError). -/
theorem C125_exceptions (g : St K) :
    ((step g (.structure_ .other)).2 = .error .assertion ∧ (step g (.strain .other)).2 = .error .assertion ∧
      (step g (.post .other)).2 = .error .assertion ∧ (step g (.transform .other)).2 = .error .assertion ∧
      (step g (.voxel .other)).2 = .error .type) ∧
    (∀ s, (step g (.structure_ (.of s))).2 = .ok () ↔ Usable s.latticeMatrix) ∧
    (∀ s, ¬ Usable s.latticeMatrix → (step g (.structure_ (.of s))).2 = .error .assertion) ∧
    (∀ o, (step g (.origin (.vec o))).2 = .ok ()) ∧ (step g (.origin .misfit)).2 = .error .assertion ∧
    (step g (.origin .noShape)).2 = .error .attribute ∧
    (∀ s, (step g (.strain (.of s))).2 = .ok ()) ∧ (∀ t, (step g (.post (.of t))).2 = .ok ()) ∧
    (∀ v, (step g (.voxel (.of v))).2 = .ok ()) ∧
    (g.voxel = none → (∀ x, (step g (.bases x)).2 = .error .attribute) ∧ (∀ x, (step g (.scale x)).2 = .error .attribute) ∧
      (∀ x, (step g (.voxelOrigin x)).2 = .error .attribute) ∧ (∀ t, (step g (.transform (.of t))).2 = .error .attribute) ∧
      ∀ rng bbox, (g.supply rng bbox).2 = .error .attribute) ∧
    (∀ v, g.voxel = some v →
      (∀ B, (step g (.bases (.mat B))).2 = .ok () ↔ Usable B) ∧
      (∀ B, ¬ Usable B → (step g (.bases (.mat B))).2 = .error .assertion) ∧ (step g (.bases .misfit)).2 = .error .assertion ∧
      (∀ s, (step g (.scale (.fits s))).2 = .ok ()) ∧ (step g (.scale .misfit)).2 = .error .value ∧
      (step g (.scale .noNumber)).2 = .error .type ∧
      (∀ o, (step g (.voxelOrigin (.vec o))).2 = .ok ()) ∧ (step g (.voxelOrigin .misfit)).2 = .error .assertion ∧
      (step g (.voxelOrigin .noShape)).2 = .error .attribute ∧
      (∀ t, (step g (.transform (.of t))).2 = .ok () ↔ Usable (t.bases v.bases)) ∧
      ∀ t, ¬ Usable (t.bases v.bases) → (step g (.transform (.of t))).2 = .error .assertion) := by
  have h1 : Voxel.basesSet (1 : M3 K) = .ok 1 := by
    apply basesSet_of_det
    simp [M3.det, M3.one_def]
  refine ⟨⟨rfl, rfl, rfl, rfl, rfl⟩, ?_, ?_, ?_, ?_, ?_, fun _ => rfl, fun _ => rfl, fun _ => rfl, ?_, ?_⟩
  · intro s
    rcases basesSet_cases s.latticeMatrix with ⟨hb, hu⟩ | ⟨hb, hu⟩
    · refine iff_of_true ?_ hu
      simp only [step, store, Vox.make, basesStore, scaleStore, originStore, hb]
      rfl
    · refine iff_of_false ?_ hu
      simp only [step, store, Vox.make, basesStore, scaleStore, originStore, hb]
      intro h
      cases h
  · intro s hs
    rcases basesSet_cases s.latticeMatrix with ⟨hb, hu⟩ | ⟨hb, hu⟩
    · exact absurd hu hs
    · simp only [step, store, Vox.make, basesStore, scaleStore, originStore, hb]
      rfl
  · intro o
    simp only [step]
    split
    · simp only [store, Vox.make, basesStore, scaleStore, originStore, h1]
      rfl
    · rfl
  · simp only [step]
    split
    · simp only [store, Vox.make, basesStore, scaleStore, originStore, h1]
      rfl
    · rfl
  · simp only [step]
    split
    · simp only [store, Vox.make, basesStore, scaleStore, originStore, h1]
      rfl
    · rfl
  · intro hv
    refine ⟨?_, ?_, ?_, ?_, ?_⟩ <;> intros <;> simp [step, inVoxel, St.supply, hv]
  · intro v hv
    have hb : ∀ B, (step g (.bases (.mat B))).2 = (Voxel.basesSet B).map fun _ => () := by
      intro B
      simp only [step, inVoxel, hv, store, basesStore]
      cases Voxel.basesSet B <;> rfl
    have ht : ∀ t, (step g (.transform (.of t))).2 = (Voxel.basesSet (t.bases v.bases)).map fun _ => () := by
      intro t
      simp only [step, hv, store, basesStore]
      cases Voxel.basesSet (t.bases v.bases) <;> rfl
    have hs : ∀ x, (step g (.scale x)).2 = (scaleStore x).map fun _ => () := by
      intro x
      simp only [step, inVoxel, hv, store]
      cases scaleStore x <;> rfl
    have ho : ∀ x, (step g (.voxelOrigin x)).2 = (originStore x).map fun _ => () := by
      intro x
      simp only [step, inVoxel, hv, store]
      cases originStore x <;> rfl
    have hm : ∀ B : M3 K, ((Voxel.basesSet B).map fun _ => ()) = .ok () ↔ Usable B := by
      intro B
      rcases basesSet_cases B with ⟨h, hu⟩ | ⟨h, hu⟩
      · exact iff_of_true (by rw [h]; rfl) hu
      · exact iff_of_false (by rw [h]; intro h; cases h) hu
    have hn : ∀ B : M3 K, ¬ Usable B → ((Voxel.basesSet B).map fun _ => ()) = .error .assertion := by
      intro B hB
      rcases basesSet_cases B with ⟨h, hu⟩ | ⟨h, hu⟩
      · exact absurd hu hB
      · rw [h]; rfl
    refine ⟨fun B => by rw [hb]; exact hm B, fun B hB => by rw [hb]; exact hn B hB, ?_, fun s => by rw [hs]; rfl, by rw [hs]; rfl,
      by rw [hs]; rfl, fun o => by rw [ho]; rfl, by rw [ho]; rfl, by rw [ho]; rfl, fun t => by rw [ht]; exact hm _,
      fun t hB => by rw [ht]; exact hn _ hB⟩
    simp only [step, inVoxel, hv, store, basesStore]

/-- **C125 (constructor).**  `Generator(origin, structure, strain_field)` with a structure of usable lattice, a strain field and an array
of shape (3,) holds exactly these, with scale 1 and without post transform; arguments left out give nothing. -/
theorem C125_constructor (origin : Option (V3 K)) (s : Option (Struct K)) (f : Option (HStrain K))
    (hs : ∀ x, s = some x → Usable x.latticeMatrix) :
    ∃ g, make (origin.map .vec) (s.map .of) (f.map .of) = .ok g ∧ g.struct = s ∧ g.strain = f ∧ g.post = none ∧
      g.bases = (s.map Struct.latticeMatrix).getD 1 ∧ g.scale = .flat (.scalar 1) ∧ g.origin = origin.getD 0 ∧
      (g.voxel = none ↔ origin = none ∧ s = none) := by
  have h1 : Voxel.basesSet (1 : M3 K) = .ok 1 := by
    apply basesSet_of_det
    simp [M3.det, M3.one_def]
  have hb : ∀ x, s = some x → Voxel.basesSet x.latticeMatrix = .ok x.latticeMatrix := by
    intro x hx
    rcases basesSet_cases x.latticeMatrix with ⟨h, -⟩ | ⟨-, h⟩
    · exact h
    · exact absurd (hs x hx) h
  cases s with
  | none =>
    cases f <;> cases origin <;>
      simp [make, St.bases, St.scale, St.origin, step, store, Vox.make, basesStore, scaleStore, originStore, h1, bind, Except.bind, pure, Except.pure]
  | some x =>
    have hx := hb x rfl
    cases f <;> cases origin <;>
      simp [make, St.bases, St.scale, St.origin, step, store, Vox.make, basesStore, scaleStore, originStore, hx, bind, Except.bind, pure, Except.pure]

end

/-! ## Findings -/

/-- A simple cubic carbon crystal. -/
def cubic : Struct ℚ := ⟨1, [(⟨0, 0, 0⟩, 6)]⟩
/-- A structure of silicon with two parallel lattice vectors. -/
def flatLattice : Struct ℚ := ⟨⟨1, 0, 0, 2, 0, 0, 0, 0, 1⟩, [(⟨0, 0, 0⟩, 14), (⟨1/2, 0, 0⟩, 14)]⟩
/-- The generator of the cubic crystal. -/
def cubicSt : St ℚ := ⟨some cubic, some ⟨1, .flat (.scalar 1), 0⟩, none, none⟩
/-- A box around the origin. -/
def smallBox : List (V3 ℚ) := [⟨0, 0, 0⟩]

/-- **C125, finding.**  A structure whose lattice is refused with AssertionError is stored all the same: `structure` is the new one, the
lattice is the old one, and `supply_atoms` puts the atoms of the new structure on the old lattice. -/
theorem C125_structure_refuted :
    make none (some (.of cubic)) none = .ok cubicSt ∧
    (step cubicSt (.structure_ (.of flatLattice))).2 = .error .assertion ∧
    (step cubicSt (.structure_ (.of flatLattice))).1.struct = some flatLattice ∧
    (step cubicSt (.structure_ (.of flatLattice))).1.bases = cubic.latticeMatrix ∧
    (cubicSt.supply (fun _ _ _ => 0) smallBox).2 = .ok ([⟨0, 0, 0⟩], [6]) ∧
    ((step cubicSt (.structure_ (.of flatLattice))).1.supply (fun _ _ _ => 0) smallBox).2 = .ok ([⟨0, 0, 0⟩, ⟨1/2, 0, 0⟩], [14, 14]) := by
  have h1 : Voxel.basesSet (1 : M3 ℚ) = .ok 1 := by decide +kernel
  have h2 : Voxel.basesSet flatLattice.latticeMatrix = .error .assertion := by decide +kernel
  have h3 : step cubicSt (.structure_ (.of flatLattice)) = ({ cubicSt with struct := some flatLattice }, .error .assertion) := by
    simp only [step, store, Vox.make, basesStore, h2]
    rfl
  refine ⟨?_, ?_, ?_, ?_, ?_, ?_⟩
  · simp [make, step, store, Vox.make, basesStore, scaleStore, originStore, h1, bind, Except.bind, pure, Except.pure, cubic, cubicSt]
  · rw [h3]
  · rw [h3]
  · rw [h3]; rfl
  · decide +kernel
  · rw [h3]; decide +kernel

/-- **C125, finding.**  Scales that give no crystal are accepted: zero, after which `supply_atoms` raises LinAlgError, and arrays with more
than two axes, after which it raises ValueError. -/
theorem C125_scale_refuted {K : Type} [Field K] [LinearOrder K] [IsStrictOrderedRing K] [FloorRing K] (g : St K) (v : Vox K)
    (hv : g.voxel = some v) (rng : ℕ → ℕ → ℕ → K) (p : V3 K) (bbox : List (V3 K)) :
    (step g (.scale (.fits (.scalar 0)))).2 = .ok () ∧
    ((step g (.scale (.fits (.scalar 0)))).1.supply rng (p :: bbox)).2 = .error .linAlg ∧
    (step g (.scale .deep)).2 = .ok () ∧ ((step g (.scale .deep)).1.supply rng (p :: bbox)).2 = .error .value := by
  have h1 : step g (.scale (.fits (.scalar 0))) = ({ g with voxel := some { v with scale := .flat (.scalar 0) } }, .ok ()) := by
    simp only [step, inVoxel, hv, store, scaleStore]
  have h2 : step g (.scale .deep) = ({ g with voxel := some { v with scale := .deep } }, .ok ()) := by
    simp only [step, inVoxel, hv, store, scaleStore]
  rw [h1, h2]
  refine ⟨rfl, ?_, rfl, rfl⟩
  have hd : (⟨v.bases, .scalar 0, v.origin⟩ : Voxel K).sbases.det = 0 := by
    simp [Voxel.sbases, M3.det, M3.smul_def]
  have he : (⟨v.bases, .scalar 0, v.origin⟩ : Voxel K).getExtents (p :: bbox) = .error .linAlg := by
    unfold Voxel.getExtents Voxel.fracBox
    rw [List.map_cons, List.mapM_cons]
    have : ∀ q, (⟨v.bases, .scalar 0, v.origin⟩ : Voxel K).sbases.solve q = .error .linAlg := by
      intro q
      unfold M3.solve
      simp [hd]
    rw [this]
    rfl
  simp only [St.supply, Gen.supply, St.gen, Option.map_some, he]

/-! ## Example -/

/-- A history: origin, structure, a refused list as origin, a scale, a quarter turn. -/
example : let h : List (Op ℚ) := [.origin (.vec ⟨1, 2, 3⟩), .structure_ (.of cubic), .origin .noShape, .scale (.fits (.scalar 2)),
      .transform (.of (.matrix .rotation ⟨0, -1, 0, 1, 0, 0, 0, 0, 1⟩ none true false))]
    (run ⟨none, none, none, none⟩ h).origin = ⟨-2, 1, 3⟩ ∧ (run ⟨none, none, none, none⟩ h).bases = ⟨0, -1, 0, 1, 0, 0, 0, 0, 1⟩ ∧
      (accepted ⟨none, none, none, none⟩ h).length = 4 := by
  decide +kernel

end GenSet
end CZ
