import Verif.Sharing
import Verif.Props.Strain

/-!
# Properties C118, C119: generators that share a strain field or a voxel
-/

set_option linter.unusedSectionVars false

namespace CZ
open Spec

namespace Pool

section
variable {K : Type} [Field K] [LinearOrder K] [IsStrictOrderedRing K] [FloorRing K]

/-! ## what the user has assigned to a strain field -/

/-- The settings of a strain field as the user made them: matrix, mode and the point it is taken about (none: the origin of the
generator that is asked for atoms). -/
structure Settings (K : Type) where
  matrix : M3 K
  mode : String
  about : Option (V3 K)

/-- The settings after an assignment to strain field `s`.  Values the matrix setter refuses change nothing.  An origin only counts
for fields that are taken about a fixed point. -/
def Settings.assign (s : ℕ) (x : Settings K) : Op K → Settings K
  | .matrix s' a => if s' = s then (match HStrain.matrixSet a with | .ok m => { x with matrix := m } | .error _ => x) else x
  | .mode s' m => if s' = s then { x with mode := m } else x
  | .place s' o => if s' = s then { x with about := x.about.map fun _ => o } else x
  | _ => x

/-- The settings after a program. -/
def Settings.after (s : ℕ) (x : Settings K) (ops : List (Op K)) : Settings K := ops.foldl (Settings.assign s) x

/-- The field is the one with the given settings, up to what `supply_atoms` writes to it. -/
def Agrees (x : Settings K) (st : HStrain K) : Prop :=
  st.matrix = x.matrix ∧ st.mode = x.mode ∧ st.fromGenerator = x.about.isNone ∧ ∀ o, x.about = some o → st.origin = o

theorem make_agrees {m : M3 K} {o : Option (V3 K)} {md : String} {st : HStrain K} (h : HStrain.make (some (.square m)) o md = .ok st) :
    Agrees ⟨m, md, o⟩ st := by
  unfold HStrain.make HStrain.modeSet at h
  cases o with
  | none => simp at h; cases h; exact ⟨rfl, rfl, rfl, fun _ h => by cases h⟩
  | some o => simp at h; cases h; exact ⟨rfl, rfl, rfl, fun _ h => by cases h; rfl⟩

theorem make_ok (m : M3 K) (o : Option (V3 K)) (md : String) : ∃ st, HStrain.make (some (.square m)) o md = .ok st := by
  unfold HStrain.make HStrain.modeSet
  cases o <;> exact ⟨_, by simp; rfl⟩

theorem scrape_agrees {x : Settings K} {st : HStrain K} (h : Agrees x st) (B : M3 K) (o : V3 K) : Agrees x (st.scrape B o) := by
  obtain ⟨h1, h2, h3, h4⟩ := h
  refine ⟨(scrape_fields st B o).1.trans h1, (scrape_fields st B o).2.1.trans h2, ?_, fun p hp => ?_⟩
  · rw [← h3]; unfold HStrain.scrape; simp only; split_ifs <;> simp_all
  · rw [(scrape_fields st B o).2.2.2, h3, hp]; exact h4 p hp

theorem applyPt_congr {s t : HStrain K} (h1 : s.matrix = t.matrix) (h2 : s.mode = t.mode) (h3 : s.origin = t.origin)
    (h4 : s.mode = "crystal" → s.bases = t.bases) (p : V3 K) : s.applyPt p = t.applyPt p := by
  unfold HStrain.applyPt
  rw [← h1, ← h2, ← h3]
  split_ifs with hm
  · rw [h4 hm]
  · rfl

theorem apply_congr {s t : HStrain K} (h1 : s.matrix = t.matrix) (h2 : s.mode = t.mode) (h3 : s.origin = t.origin)
    (h4 : s.mode = "crystal" → s.bases = t.bases) (ps : List (V3 K)) : s.apply ps = t.apply ps := by
  have hp : s.applyPt = t.applyPt := funext (applyPt_congr h1 h2 h3 h4)
  unfold HStrain.apply
  rw [← h2, hp]
  split_ifs with hm
  · rw [h4 hm]
  · rfl

/-- Two fields with the same settings act alike in `supply_atoms`. -/
theorem scrape_apply_congr {x : Settings K} {s t : HStrain K} (hs : Agrees x s) (ht : Agrees x t) (B : M3 K) (o : V3 K) (ps : List (V3 K)) :
    (s.scrape B o).apply ps = (t.scrape B o).apply ps := by
  have hs' := scrape_agrees hs B o
  have ht' := scrape_agrees ht B o
  refine apply_congr (hs'.1.trans ht'.1.symm) (hs'.2.1.trans ht'.2.1.symm) ?_ (fun hm => ?_) ps
  · rw [(scrape_fields s B o).2.2.2, (scrape_fields t B o).2.2.2, hs.2.2.1, ht.2.2.1]
    cases ha : x.about with
    | none => rfl
    | some p => simp only [Option.isNone_some, Bool.false_eq_true, if_false]; rw [hs.2.2.2 p ha, ht.2.2.2 p ha]
  · rw [(scrape_fields s B o).2.1] at hm
    rw [(scrape_fields s B o).2.2.1 hm, (scrape_fields t B o).2.2.1 (by rw [ht.2.1, ← hs.2.1]; exact hm)]

theorem supply_congr {x : Settings K} {s t : HStrain K} (hs : Agrees x s) (ht : Agrees x t) (g : Gen K) (rng : ℕ → ℕ → ℕ → K) (b : List (V3 K)) :
    (({ g with strain := some s } : Gen K).supply rng b).2 = (({ g with strain := some t } : Gen K).supply rng b).2 := by
  unfold Gen.supply
  cases g.voxel with
  | none => rfl
  | some v =>
    simp only
    cases v.getExtents b with
    | error e => rfl
    | ok r =>
      simp only
      cases g.struct with
      | none => rfl
      | some c =>
        simp only
        cases Gen.rawAtoms v c.sites b with
        | error e => rfl
        | ok atoms =>
          simp only
          rw [scrape_apply_congr hs ht]
          generalize (HStrain.scrape t v.sbases v.origin).apply _ = r
          cases r <;> rfl

/-- What `supply_atoms` does to the generator: only the strain field is written to, by `scrape_params`. -/
theorem supply_effect (g : Gen K) (rng : ℕ → ℕ → ℕ → K) (b : List (V3 K)) :
    ((g.supply rng b).1.voxel = g.voxel ∧ (g.supply rng b).1.struct = g.struct ∧ (g.supply rng b).1.post = g.post) ∧
      ((g.supply rng b).1.strain = g.strain ∨ ∃ st B o, g.strain = some st ∧ (g.supply rng b).1.strain = some (st.scrape B o)) := by
  unfold Gen.supply
  cases hv : g.voxel with
  | none => exact ⟨⟨hv, rfl, rfl⟩, .inl rfl⟩
  | some v =>
    simp only
    cases v.getExtents b with
    | error e => exact ⟨⟨hv, rfl, rfl⟩, .inl rfl⟩
    | ok r =>
      simp only
      cases hc : g.struct with
      | none => exact ⟨⟨hv, hc, rfl⟩, .inl rfl⟩
      | some c =>
        simp only
        cases Gen.rawAtoms v c.sites b with
        | error e => exact ⟨⟨hv, hc, rfl⟩, .inl rfl⟩
        | ok atoms =>
          simp only
          cases hst : g.strain with
          | none => exact ⟨⟨hv, hc, rfl⟩, .inl hst⟩
          | some st =>
            simp only
            split
            · exact ⟨⟨rfl, rfl, rfl⟩, .inr ⟨st, _, _, rfl, rfl⟩⟩
            · exact ⟨⟨rfl, rfl, rfl⟩, .inr ⟨st, _, _, rfl, rfl⟩⟩

theorem transform_strain (g : Gen K) (t : Tr K) : (g.transform t).1.strain = g.strain ∧ (g.transform t).1.struct = g.struct ∧
    (g.transform t).1.post = g.post := by
  unfold Gen.transform
  cases g.voxel with
  | none => exact ⟨rfl, rfl, rfl⟩
  | some v =>
    simp only
    cases Voxel.basesSet (t.bases v.bases) <;> exact ⟨rfl, rfl, rfl⟩

theorem write_same_strain {P : Pool K} {g : ℕ} {w : Gen K} (h : w.strain = (P.val g).strain) : (P.write g w).strain = P.strain := by
  unfold write
  simp only [h, val]
  cases (P.gen g).strain with
  | none => rfl
  | some r => simp only [Option.map_some, put, Function.update_eq_self]

theorem step_agrees {P : Pool K} {s : ℕ} {x : Settings K} (h : Agrees x (P.strain s)) (op : Op K) (hn : ∀ v, op ≠ .originType s v) :
    Agrees (x.assign s op) ((P.step op).strain s) := by
  cases op with
  | supply g rng b =>
    show Agrees x ((P.write g _).strain s)
    obtain ⟨-, h2 | ⟨st, B, o, e1, e2⟩⟩ := supply_effect (P.val g) rng b
    · rw [write_same_strain h2]; exact h
    · unfold write
      simp only [e2]
      simp only [val] at e1
      cases hr : (P.gen g).strain with
      | none => rw [hr] at e1; cases e1
      | some r =>
        rw [hr] at e1
        simp only [Option.map_some, Option.some.injEq] at e1
        simp only [put]
        by_cases hs : s = r
        · subst hs; rw [Function.update_self, ← e1]; exact scrape_agrees h B o
        · rw [Function.update_of_ne hs]; exact h
  | transform g t =>
    show Agrees x ((P.write g _).strain s)
    rw [write_same_strain (transform_strain (P.val g) t).1]; exact h
  | origin g o =>
    show Agrees x ((P.step (.origin g o)).strain s)
    unfold step
    simp only
    cases (P.gen g).voxel <;> exact h
  | structure_ g c =>
    show Agrees x ((P.step (.structure_ g c)).strain s)
    unfold step
    simp only
    generalize Voxel.make c.latticeMatrix _ _ = r
    cases r <;> exact h
  | voxel g v => exact h
  | field g v => exact h
  | matrix s' a =>
    unfold step Settings.assign
    simp only
    cases hm : HStrain.matrixSet a with
    | error e => simp only [ite_self]; exact h
    | ok m =>
      simp only
      split_ifs with hs
      · subst hs; rw [Function.update_self]; exact ⟨rfl, h.2.1, h.2.2.1, h.2.2.2⟩
      · rw [Function.update_of_ne (Ne.symm hs)]; exact h
  | mode s' m =>
    unfold step Settings.assign
    have hm : HStrain.modeSet m = .ok m := by simp [HStrain.modeSet]
    simp only [hm]
    split_ifs with hs
    · subst hs; rw [Function.update_self]; exact ⟨h.1, rfl, h.2.2.1, h.2.2.2⟩
    · rw [Function.update_of_ne (Ne.symm hs)]; exact h
  | place s' o =>
    unfold step Settings.assign
    simp only
    split_ifs with hs
    · subst hs
      rw [Function.update_self]
      refine ⟨h.1, h.2.1, by rw [h.2.2.1]; cases x.about <;> rfl, fun p hp => ?_⟩
      cases ha : x.about with
      | none => rw [ha] at hp; cases hp
      | some q => rw [ha] at hp; exact Option.some.inj hp
    · rw [Function.update_of_ne (Ne.symm hs)]; exact h
  | originType s' v =>
    have hs : s' ≠ s := fun e => hn v (e ▸ rfl)
    unfold step Settings.assign
    simp only
    rw [Function.update_of_ne (Ne.symm hs)]; exact h

theorem run_agrees {s : ℕ} (ops : List (Op K)) (hn : ∀ v, Op.originType s v ∉ ops) : ∀ {P : Pool K} {x : Settings K},
    Agrees x (P.strain s) → Agrees (x.after s ops) ((P.run ops).strain s) := by
  induction ops with
  | nil => intro P x h; exact h
  | cons op ops ih =>
    intro P x h
    exact ih (fun v hv => hn v (List.mem_cons_of_mem _ hv)) (step_agrees h op fun v e => hn v (e ▸ List.mem_cons_self ..))

/-- **C118.** A strain field made by `HStrain(matrix, origin, mode)` and attached to any number of generators.  After any program
that does not assign its `origin_type`, every generator it is attached to supplies the atoms it would supply with a strain field
of its own, made with the matrix and mode assigned last, and with the origin assigned last if the field was made with a fixed
origin.  (Not covered: assignments to `origin_type`.) -/
theorem C118_shared_partial (P : Pool K) (s : ℕ) (m : M3 K) (o : Option (V3 K)) (md : String)
    (hs : HStrain.make (some (.square m)) o md = .ok (P.strain s)) (ops : List (Op K)) (hn : ∀ v, Op.originType s v ∉ ops) (g : ℕ)
    (hg : ((P.run ops).gen g).strain = some s) :
    ∃ own, HStrain.make (some (.square ((Settings.mk m md o).after s ops).matrix)) ((Settings.mk m md o).after s ops).about
      ((Settings.mk m md o).after s ops).mode = .ok own ∧ ∀ (rng : ℕ → ℕ → ℕ → K) (b : List (V3 K)),
      (((P.run ops).val g).supply rng b).2 = (({ (P.run ops).val g with strain := some own } : Gen K).supply rng b).2 := by
  obtain ⟨own, hown⟩ := make_ok (K := K) ((Settings.mk m md o).after s ops).matrix ((Settings.mk m md o).after s ops).about
    ((Settings.mk m md o).after s ops).mode
  refine ⟨own, hown, fun rng b => ?_⟩
  have h1 := run_agrees ops hn (make_agrees hs)
  have h2 := make_agrees hown
  have h3 : (P.run ops).val g = { (P.run ops).val g with strain := some ((P.run ops).strain s) } := by
    simp only [val, hg, Option.map_some]
  rw [h3]
  exact supply_congr h1 h2 _ rng b

/-- What is known of a strain field when also `origin_type` is assigned: matrix, mode, whether it is taken about the origin of the generator asked,
and the value of `origin`, which is known from the last assignment until atoms are asked for while the field is of the generator kind. -/
structure Known (K : Type) where
  matrix : M3 K
  mode : String
  ofGenerator : Bool
  origin : Option (V3 K)

/-- What is known after a call or assignment. -/
def Known.assign (s : ℕ) (x : Known K) : Op K → Known K
  | .matrix s' a => if s' = s then (match HStrain.matrixSet a with | .ok m => { x with matrix := m } | .error _ => x) else x
  | .mode s' m => if s' = s then { x with mode := m } else x
  | .place s' o => if s' = s then { x with origin := some o } else x
  | .originType s' v => if s' = s then { x with ofGenerator := v == "generator" } else x
  | .supply _ _ _ => if x.ofGenerator then { x with origin := none } else x
  | _ => x

/-- What is known after a program. -/
def Known.after (s : ℕ) (x : Known K) (ops : List (Op K)) : Known K := ops.foldl (Known.assign s) x

/-- The point the field is taken about (none: the origin of the generator asked), if that is known. -/
def Known.about (x : Known K) : Option (Option (V3 K)) := if x.ofGenerator then some none else x.origin.map some

/-- The field has the values that are known. -/
def Holds (x : Known K) (st : HStrain K) : Prop :=
  st.matrix = x.matrix ∧ st.mode = x.mode ∧ st.fromGenerator = x.ofGenerator ∧ ∀ o, x.origin = some o → st.origin = o

theorem make_holds {m : M3 K} {o : Option (V3 K)} {md : String} {st : HStrain K} (h : HStrain.make (some (.square m)) o md = .ok st) :
    Holds ⟨m, md, o.isNone, some (o.getD 0)⟩ st := by
  unfold HStrain.make HStrain.modeSet at h
  cases o with
  | none => simp at h; cases h; exact ⟨rfl, rfl, rfl, fun _ h => by cases h; rfl⟩
  | some o => simp at h; cases h; exact ⟨rfl, rfl, rfl, fun _ h => by cases h; rfl⟩

theorem step_holds {P : Pool K} {s : ℕ} {x : Known K} (h : Holds x (P.strain s)) (op : Op K) : Holds (x.assign s op) ((P.step op).strain s) := by
  cases op with
  | supply g rng b =>
    have hw : Holds (x.assign s (.supply g rng b)) (P.strain s) := by
      unfold Known.assign
      split_ifs
      · exact ⟨h.1, h.2.1, h.2.2.1, fun _ h => by cases h⟩
      · exact h
    show Holds _ ((P.write g _).strain s)
    obtain ⟨-, h2 | ⟨st, B, o, e1, e2⟩⟩ := supply_effect (P.val g) rng b
    · rw [write_same_strain h2]; exact hw
    · unfold write
      simp only [e2]
      simp only [val] at e1
      cases hr : (P.gen g).strain with
      | none => rw [hr] at e1; cases e1
      | some r =>
        rw [hr] at e1
        simp only [Option.map_some, Option.some.injEq] at e1
        simp only [put]
        by_cases hs : s = r
        · subst hs
          rw [Function.update_self, ← e1]
          refine ⟨(scrape_fields _ B o).1.trans hw.1, (scrape_fields _ B o).2.1.trans hw.2.1, ?_, fun p hp => ?_⟩
          · rw [← hw.2.2.1]; unfold HStrain.scrape; simp only; split_ifs <;> simp_all
          · rw [(scrape_fields _ B o).2.2.2]
            unfold Known.assign at hp
            rw [h.2.2.1]
            split_ifs at hp ⊢ with hk
            exact h.2.2.2 p hp
        · rw [Function.update_of_ne hs]; exact hw
  | transform g t =>
    show Holds x ((P.write g _).strain s)
    rw [write_same_strain (transform_strain (P.val g) t).1]; exact h
  | origin g o =>
    show Holds x ((P.step (.origin g o)).strain s)
    unfold step
    simp only
    cases (P.gen g).voxel <;> exact h
  | structure_ g c =>
    show Holds x ((P.step (.structure_ g c)).strain s)
    unfold step
    simp only
    generalize Voxel.make c.latticeMatrix _ _ = r
    cases r <;> exact h
  | voxel g v => exact h
  | field g v => exact h
  | matrix s' a =>
    unfold step Known.assign
    simp only
    cases hm : HStrain.matrixSet a with
    | error e => simp only [ite_self]; exact h
    | ok m =>
      simp only
      split_ifs with hs
      · subst hs; rw [Function.update_self]; exact ⟨rfl, h.2.1, h.2.2.1, h.2.2.2⟩
      · rw [Function.update_of_ne (Ne.symm hs)]; exact h
  | mode s' m =>
    unfold step Known.assign
    have hm : HStrain.modeSet m = .ok m := by simp [HStrain.modeSet]
    simp only [hm]
    split_ifs with hs
    · subst hs; rw [Function.update_self]; exact ⟨h.1, rfl, h.2.2.1, h.2.2.2⟩
    · rw [Function.update_of_ne (Ne.symm hs)]; exact h
  | place s' o =>
    unfold step Known.assign
    simp only
    split_ifs with hs
    · subst hs; rw [Function.update_self]; exact ⟨h.1, h.2.1, h.2.2.1, fun p hp => Option.some.inj hp⟩
    · rw [Function.update_of_ne (Ne.symm hs)]; exact h
  | originType s' v =>
    unfold step Known.assign
    simp only
    split_ifs with hs
    · subst hs; rw [Function.update_self]; exact ⟨h.1, h.2.1, rfl, h.2.2.2⟩
    · rw [Function.update_of_ne (Ne.symm hs)]; exact h

theorem run_holds {s : ℕ} (ops : List (Op K)) : ∀ {P : Pool K} {x : Known K}, Holds x (P.strain s) → Holds (x.after s ops) ((P.run ops).strain s) := by
  induction ops with
  | nil => intro P x h; exact h
  | cons op ops ih => intro P x h; exact ih (step_holds h op)

/-- **C118 (all programs, partial).** The same for programs that also assign `origin_type`: a field of the generator kind is taken about the origin of
the generator asked; any other field about the origin assigned last (or given to the constructor), unless atoms have been asked for
since then while the field was of the generator kind.  Missing: that case, in which the origin of the generator asked then stays
(`C118_origin_type_refuted`). -/
theorem C118_kinds_partial (P : Pool K) (s : ℕ) (m : M3 K) (o : Option (V3 K)) (md : String)
    (hs : HStrain.make (some (.square m)) o md = .ok (P.strain s)) (ops : List (Op K)) (about : Option (V3 K))
    (ha : ((Known.mk m md o.isNone (some (o.getD 0))).after s ops).about = some about) (g : ℕ) (hg : ((P.run ops).gen g).strain = some s) :
    ∃ own, HStrain.make (some (.square ((Known.mk m md o.isNone (some (o.getD 0))).after s ops).matrix)) about
      ((Known.mk m md o.isNone (some (o.getD 0))).after s ops).mode = .ok own ∧ ∀ (rng : ℕ → ℕ → ℕ → K) (b : List (V3 K)),
      (((P.run ops).val g).supply rng b).2 = (({ (P.run ops).val g with strain := some own } : Gen K).supply rng b).2 := by
  have h1 := run_holds ops (make_holds hs)
  generalize (Known.mk m md o.isNone (some (o.getD 0))).after s ops = x at *
  obtain ⟨own, hown⟩ := make_ok (K := K) x.matrix about x.mode
  refine ⟨own, hown, fun rng b => ?_⟩
  have h3 : (P.run ops).val g = { (P.run ops).val g with strain := some ((P.run ops).strain s) } := by
    simp only [val, hg, Option.map_some]
  rw [h3]
  refine supply_congr (x := ⟨x.matrix, x.mode, about⟩) ⟨h1.1, h1.2.1, ?_, fun p hp => ?_⟩ (make_agrees hown) _ rng b
  · rw [h1.2.2.1]
    unfold Known.about at ha
    split_ifs at ha with hk
    · cases ha; exact hk
    · obtain ⟨p, -, rfl⟩ := Option.map_eq_some_iff.mp ha
      simpa using hk
  · subst hp
    unfold Known.about at ha
    split_ifs at ha with hk
    · cases ha
    · obtain ⟨q, hq, e⟩ := Option.map_eq_some_iff.mp ha
      cases e
      exact h1.2.2.2 _ hq

/-! ## voxels -/

/-- The calls and assignments that name generator `g`, acting on a generator that shares nothing. -/
def alone (g : ℕ) (x : Gen K) : Op K → Gen K
  | .transform g' t => if g' = g then (x.transform t).1 else x
  | .origin g' o => if g' = g then x.setOrigin o else x
  | .structure_ g' s => if g' = g then (x.setStructure s).1 else x
  | _ => x

/-- No other generator has the voxel of `g`. -/
def Apart (P : Pool K) (g : ℕ) : Prop := ∀ g' ≠ g, ∀ v, (P.gen g).voxel = some v → (P.gen g').voxel ≠ some v

/-- The voxels of all generators are below the next free address. -/
def InUse (P : Pool K) : Prop := ∀ g v, (P.gen g).voxel = some v → v < P.next

/-- The generator without its strain field: the cell, structure and post transform. -/
def crystalOf (x : Gen K) : Gen K := { x with strain := none }

theorem crystalOf_transform (x : Gen K) (t : Tr K) : crystalOf (x.transform t).1 = ((crystalOf x).transform t).1 := by
  obtain ⟨xs, xv, xt, xp⟩ := x
  unfold Gen.transform crystalOf
  cases xv with
  | none => rfl
  | some v =>
    simp only
    cases Voxel.basesSet (t.bases v.bases) <;> rfl

theorem write_gen (P : Pool K) (g : ℕ) (w : Gen K) : (P.write g w).gen = P.gen ∧ (P.write g w).next = P.next := ⟨rfl, rfl⟩

theorem write_same_voxel {P : Pool K} {g : ℕ} {w : Gen K} (h : w.voxel = (P.val g).voxel) : (P.write g w).voxel = P.voxel := by
  unfold write
  simp only [h, val]
  cases (P.gen g).voxel with
  | none => rfl
  | some r => simp only [Option.map_some, put, Function.update_eq_self]

theorem transform_voxel_isSome (x : Gen K) (t : Tr K) : (x.transform t).1.voxel.isSome = x.voxel.isSome := by
  unfold Gen.transform
  cases h : x.voxel with
  | none => simp [h]
  | some v =>
    simp only
    cases Voxel.basesSet (t.bases v.bases) <;> simp [h]

theorem write_voxel_self {P : Pool K} {g : ℕ} {w : Gen K} (h : w.voxel.isSome = (P.val g).voxel.isSome) :
    ((P.gen g).voxel.map (P.write g w).voxel) = w.voxel := by
  unfold write
  simp only [val] at h
  cases hg : (P.gen g).voxel with
  | none =>
    rw [hg] at h
    cases hw : w.voxel with
    | none => rfl
    | some _ => rw [hw] at h; cases h
  | some r =>
    rw [hg] at h
    cases hw : w.voxel with
    | none => rw [hw] at h; cases h
    | some v => simp [put]

theorem write_voxel_other {P : Pool K} {g g' : ℕ} {w : Gen K} (h : ∀ v, (P.gen g').voxel = some v → (P.gen g).voxel ≠ some v) :
    ((P.gen g').voxel.map (P.write g w).voxel) = (P.gen g').voxel.map P.voxel := by
  unfold write
  cases hg : (P.gen g').voxel with
  | none => rfl
  | some r =>
    have := h r hg
    cases hv : (P.gen g).voxel with
    | none => cases w.voxel <;> rfl
    | some q =>
      cases w.voxel with
      | none => rfl
      | some v => simp only [Option.map_some, put]; rw [Function.update_of_ne]; rintro rfl; exact this hv

theorem crystal_ext {x y : Gen K} (h1 : x.struct = y.struct) (h2 : x.voxel = y.voxel) (h3 : x.post = y.post) : crystalOf x = crystalOf y := by
  unfold crystalOf; rw [h1, h2, h3]

theorem setStructure_crystal (P : Pool K) (g : ℕ) (c : Struct K) : ((crystalOf (P.val g)).setStructure c).1 =
    match Voxel.make c.latticeMatrix (.scalar 1) (P.kept g) with
    | .ok v => { crystalOf (P.val g) with struct := some c, voxel := some v }
    | .error _ => { crystalOf (P.val g) with struct := some c } := by
  unfold Gen.setStructure kept crystalOf val
  cases (P.gen g).voxel with
  | none =>
    simp only [Option.map_none, Option.getD_none]
    cases Voxel.make c.latticeMatrix (.scalar 1) (0 : V3 K) <;> rfl
  | some v =>
    simp only [Option.map_some, Option.getD_some]
    cases Voxel.make c.latticeMatrix (.scalar 1) (P.voxel v).origin <;> rfl

theorem step_alone {P : Pool K} {g : ℕ} (ha : P.Apart g) (hu : P.InUse) (op : Op K) (hn : ∀ g' v, op ≠ .voxel g' v) :
    (P.step op).Apart g ∧ (P.step op).InUse ∧ crystalOf ((P.step op).val g) = alone g (crystalOf (P.val g)) op := by
  cases op with
  | supply g' rng b =>
    have h1 := write_same_voxel (supply_effect (P.val g') rng b).1.1
    refine ⟨ha, hu, crystal_ext rfl ?_ rfl⟩
    show (P.gen g).voxel.map (P.write g' _).voxel = _
    rw [h1]; rfl
  | transform g' t =>
    refine ⟨ha, hu, ?_⟩
    unfold alone
    simp only
    split_ifs with hg
    · subst hg
      rw [← crystalOf_transform]
      exact crystal_ext (transform_strain (P.val g') t).2.1.symm (write_voxel_self (transform_voxel_isSome (P.val g') t))
        (transform_strain (P.val g') t).2.2.symm
    · exact crystal_ext rfl (write_voxel_other fun v hv => ha g' hg v hv) rfl
  | origin g' o =>
    unfold step alone
    simp only
    cases hv : (P.gen g').voxel with
    | none =>
      simp only
      refine ⟨fun k hk v => ?_, fun k v => ?_, ?_⟩
      · simp only [fresh]
        by_cases h1 : g = g'
        · subst h1
          rw [Function.update_self, Function.update_of_ne hk]
          rintro ⟨rfl⟩ e; exact lt_irrefl _ (hu _ _ e)
        · rw [Function.update_of_ne h1]
          by_cases h2 : k = g'
          · subst h2
            rw [Function.update_self]
            rintro e ⟨rfl⟩; exact lt_irrefl _ (hu _ _ e)
          · rw [Function.update_of_ne h2]; exact ha k hk v
      · simp only [fresh]
        by_cases h1 : k = g'
        · subst h1; rw [Function.update_self]; rintro ⟨rfl⟩; exact Nat.lt_succ_self _
        · rw [Function.update_of_ne h1]; intro e; exact Nat.lt_succ_of_lt (hu _ _ e)
      · split_ifs with hg
        · subst hg
          simp [crystalOf, val, fresh, Gen.setOrigin, hv]
        · refine crystal_ext ?_ ?_ ?_ <;> simp only [val, fresh] <;> rw [Function.update_of_ne (Ne.symm hg)]
          cases h1 : (P.gen g).voxel with
          | none => rfl
          | some r => simp only [Option.map_some]; rw [Function.update_of_ne (hu _ _ h1).ne]
    | some r =>
      simp only
      refine ⟨ha, hu, ?_⟩
      split_ifs with hg
      · subst hg
        simp [crystalOf, val, Gen.setOrigin, hv]
      · refine crystal_ext rfl ?_ rfl
        simp only [val]
        cases h1 : (P.gen g).voxel with
        | none => rfl
        | some q =>
          simp only [Option.map_some]
          rw [Function.update_of_ne]; rintro rfl; exact ha g' hg q h1 hv
  | structure_ g' c =>
    have hset := setStructure_crystal P g' c
    unfold step alone
    simp only
    cases hv : Voxel.make c.latticeMatrix (.scalar 1) (P.kept g') with
    | error e =>
      simp only
      refine ⟨fun k hk v => ?_, fun k v => ?_, ?_⟩
      · have e1 : ∀ j, (Function.update P.gen g' { P.gen g' with struct := some c } j).voxel = (P.gen j).voxel := fun j => by
          by_cases h1 : j = g'
          · subst h1; rw [Function.update_self]
          · rw [Function.update_of_ne h1]
        simp only [e1]; exact ha k hk v
      · have e1 : ∀ j, (Function.update P.gen g' { P.gen g' with struct := some c } j).voxel = (P.gen j).voxel := fun j => by
          by_cases h1 : j = g'
          · subst h1; rw [Function.update_self]
          · rw [Function.update_of_ne h1]
        simp only [e1]; exact hu k v
      · split_ifs with hg
        · subst hg
          rw [hset, hv]
          simp [crystalOf, val]
        · refine crystal_ext ?_ ?_ ?_ <;> simp only [val] <;> rw [Function.update_of_ne (Ne.symm hg)]
    | ok w =>
      simp only
      refine ⟨fun k hk v => ?_, fun k v => ?_, ?_⟩
      · simp only [fresh]
        by_cases h1 : g = g'
        · subst h1
          rw [Function.update_self, Function.update_of_ne hk, Function.update_of_ne hk]
          rintro ⟨rfl⟩ e; exact lt_irrefl _ (hu _ _ e)
        · rw [Function.update_of_ne h1, Function.update_of_ne h1]
          by_cases h2 : k = g'
          · subst h2
            rw [Function.update_self]
            rintro e ⟨rfl⟩; exact lt_irrefl _ (hu _ _ e)
          · rw [Function.update_of_ne h2, Function.update_of_ne h2]; exact ha k hk v
      · simp only [fresh]
        by_cases h1 : k = g'
        · subst h1; rw [Function.update_self]; rintro ⟨rfl⟩; exact Nat.lt_succ_self _
        · rw [Function.update_of_ne h1, Function.update_of_ne h1]; intro e; exact Nat.lt_succ_of_lt (hu _ _ e)
      · split_ifs with hg
        · subst hg
          rw [hset, hv]
          simp [crystalOf, val, fresh]
        · refine crystal_ext ?_ ?_ ?_ <;> simp only [val, fresh] <;> rw [Function.update_of_ne (Ne.symm hg), Function.update_of_ne (Ne.symm hg)]
          cases h1 : (P.gen g).voxel with
          | none => rfl
          | some r => simp only [Option.map_some]; rw [Function.update_of_ne (hu _ _ h1).ne]
  | voxel g' v => exact absurd rfl (hn g' v)
  | field g' s =>
    have e1 : ∀ j, ((P.step (.field g' s)).gen j).voxel = (P.gen j).voxel := fun j => by
      unfold step; simp only
      by_cases h1 : j = g'
      · subst h1; rw [Function.update_self]
      · rw [Function.update_of_ne h1]
    refine ⟨fun k hk v => by rw [e1, e1]; exact ha k hk v, fun k v => by rw [e1]; exact hu k v, ?_⟩
    unfold alone step
    by_cases h1 : g = g'
    · subst h1; simp [crystalOf, val]
    · refine crystal_ext ?_ ?_ ?_ <;> simp only [val] <;> rw [Function.update_of_ne h1]
  | matrix s a =>
    unfold step; simp only
    cases HStrain.matrixSet a <;> exact ⟨ha, hu, crystal_ext rfl rfl rfl⟩
  | mode s m =>
    unfold step; simp only
    cases HStrain.modeSet m <;> exact ⟨ha, hu, crystal_ext rfl rfl rfl⟩
  | place s o => exact ⟨ha, hu, crystal_ext rfl rfl rfl⟩
  | originType s v => exact ⟨ha, hu, crystal_ext rfl rfl rfl⟩

/-- **C119.** A generator whose voxel is not the voxel of another generator, in a program that assigns no voxels: its cell,
structure and post transform are what the calls on the generator itself make of them, whatever is done to other generators and
to strain fields.  (Not covered: programs that assign voxels, see `C119_voxel_assigned_refuted`.) -/
theorem C119_independent_partial (g : ℕ) (ops : List (Op K)) (hn : ∀ g' v, Op.voxel g' v ∉ ops) : ∀ P : Pool K, P.Apart g → P.InUse →
    crystalOf ((P.run ops).val g) = ops.foldl (alone g) (crystalOf (P.val g)) := by
  induction ops with
  | nil => intro P _ _; rfl
  | cons op ops ih =>
    intro P ha hu
    obtain ⟨h1, h2, h3⟩ := step_alone ha hu op fun g' v e => hn g' v (e ▸ List.mem_cons_self ..)
    show crystalOf (((P.step op).run ops).val g) = _
    rw [ih (fun g' v hv => hn g' v (List.mem_cons_of_mem _ hv)) _ h1 h2, h3, List.foldl_cons]

/-- **C119 (structure).** Assigning a structure with an accepted lattice gives the generator a voxel of its own. -/
theorem C119_structure (P : Pool K) (hu : P.InUse) (g : ℕ) (s : Struct K) (B : M3 K) (hs : Voxel.basesSet s.latticeMatrix = .ok B) :
    (P.step (.structure_ g s)).Apart g ∧ (P.step (.structure_ g s)).InUse := by
  have hm : ∀ o : V3 K, ∃ v, Voxel.make s.latticeMatrix (.scalar 1) o = .ok v := fun o => ⟨_, by unfold Voxel.make; rw [hs]; rfl⟩
  obtain ⟨w, hw⟩ := hm (P.kept g)
  unfold step
  simp only [hw]
  refine ⟨fun k hk v => ?_, fun k v => ?_⟩
  · simp only [fresh]
    rw [Function.update_self, Function.update_of_ne hk, Function.update_of_ne hk]
    rintro ⟨rfl⟩ e; exact lt_irrefl _ (hu _ _ e)
  · simp only [fresh]
    by_cases h1 : k = g
    · subst h1; rw [Function.update_self]; rintro ⟨rfl⟩; exact Nat.lt_succ_self _
    · rw [Function.update_of_ne h1, Function.update_of_ne h1]; intro e; exact Nat.lt_succ_of_lt (hu _ _ e)

end

/-! ## what fails -/

/-- Two generators with cubic cells, origins (0,0,0) and (1,0,0), one carbon atom at the corner of each cell, both with strain field 0, which
stretches by 2 about the origin of the generator. -/
def demo : Pool ℚ where
  gen := fun g => ⟨some ⟨1, [(⟨0, 0, 0⟩, 6)]⟩, if g < 2 then some g else none, some 0, none⟩
  voxel := fun v => ⟨1, .scalar 1, ⟨v, 0, 0⟩⟩
  strain := fun _ => ⟨⟨2, 0, 0, 0, 2, 0, 0, 0, 2⟩, "crystal", 0, true, none⟩
  next := 2

theorem demo_inUse : demo.InUse := by
  intro g v h
  simp only [demo] at h ⊢
  split_ifs at h with hg
  cases h; exact hg

theorem demo_apart (g : ℕ) : demo.Apart g := by
  intro g' hg v h h'
  simp only [demo] at h h'
  split_ifs at h h'
  cases h; cases h'; exact hg rfl

/-- **C118 (refuted for assignments to `origin_type`).** A field of the generator kind is switched to the global kind.  What the generators supply
then depends on which generator was asked for atoms last. -/
theorem C118_origin_type_refuted : ¬ ∀ (P : Pool ℚ) (s g g' : ℕ) (rng : ℕ → ℕ → ℕ → ℚ) (b b' : List (V3 ℚ)),
    HStrain.make (some (.square (P.strain s).matrix)) none (P.strain s).mode = .ok (P.strain s) → (P.gen g).strain = some s →
    (P.gen g').strain = some s →
    (((P.run [.supply g' rng b', .originType s "global"]).val g).supply rng b).2 =
      (((P.run [.originType s "global"]).val g).supply rng b).2 := by
  intro h
  have := h demo 0 0 1 (fun _ _ _ => 0) [⟨0, 0, 0⟩] [⟨1, 0, 0⟩] rfl rfl rfl
  revert this
  decide +kernel

/-- **C118 (refuted: an assigned origin is used).** For a field of the generator kind an assigned origin is ignored by `supply_atoms`. -/
theorem C118_origin_refuted : ¬ ∀ (P : Pool ℚ) (s g : ℕ) (o : V3 ℚ) (rng : ℕ → ℕ → ℕ → ℚ) (b : List (V3 ℚ)) (own : HStrain ℚ),
    HStrain.make (some (.square (P.strain s).matrix)) none (P.strain s).mode = .ok (P.strain s) → (P.gen g).strain = some s →
    HStrain.make (some (.square (P.strain s).matrix)) (some o) (P.strain s).mode = .ok own →
    (((P.run [.place s o]).val g).supply rng b).2 = (({ P.val g with strain := some own } : Gen ℚ).supply rng b).2 := by
  intro h
  have := h demo 0 0 ⟨1, 0, 0⟩ (fun _ _ _ => 0) [⟨0, 0, 0⟩] _ rfl rfl rfl
  revert this
  decide +kernel

/-- **C119 (refuted for assigned voxels).** `g.voxel = g'.voxel` makes both generators share the object: moving `g'` afterwards moves the crystal
of `g`. -/
theorem C119_voxel_assigned_refuted : ¬ ∀ (P : Pool ℚ) (g g' v : ℕ) (t : Tr ℚ) (rng : ℕ → ℕ → ℕ → ℚ) (b : List (V3 ℚ)), g ≠ g' →
    P.InUse → (P.gen g').voxel = some v →
    (((P.run [.voxel g v, .transform g' t]).val g).supply rng b).2 = (((P.run [.voxel g v]).val g).supply rng b).2 := by
  intro h
  have := h demo 1 0 0 (.translation ⟨1/2, 0, 0⟩ true false) (fun _ _ _ => 0) [⟨0, 0, 0⟩] (by decide) demo_inUse rfl
  revert this
  decide +kernel

/-- Concrete case: both generators of `demo` use the field; the first is asked for atoms, the matrix is changed, the second is moved.  Each supplies
its crystal stretched about its own origin. -/
example : HStrain.make (some (.square ⟨2, 0, 0, 0, 2, 0, 0, 0, 2⟩)) none "crystal" = .ok (demo.strain 0) ∧ demo.Apart 1 ∧ demo.InUse ∧
    (((demo.run [.supply 0 (fun _ _ _ => 0) [⟨0, 0, 0⟩], .matrix 0 (.three ⟨3, 1, 1⟩), .transform 1 (.translation ⟨0, 1, 0⟩ true false)]).val
      1).supply (fun _ _ _ => 0) [⟨1, 1, 0⟩, ⟨2, 1, 0⟩]).2 = .ok ([⟨1, 1, 0⟩, ⟨4, 1, 0⟩], [6, 6]) :=
  ⟨rfl, demo_apart 1, demo_inUse, by decide +kernel⟩

/-- Concrete case: the field of `demo` becomes one of the global kind after atoms have been asked for, then an origin is assigned; both generators are
stretched about it. -/
example : ((Known.mk (⟨2, 0, 0, 0, 2, 0, 0, 0, 2⟩ : M3 ℚ) "crystal" true (some 0)).after 0
      [.supply 0 (fun _ _ _ => 0) [⟨0, 0, 0⟩], .originType 0 "global", .place 0 ⟨1, 0, 0⟩]).about = some (some ⟨1, 0, 0⟩) ∧
    (((demo.run [.supply 0 (fun _ _ _ => 0) [⟨0, 0, 0⟩], .originType 0 "global", .place 0 ⟨1, 0, 0⟩]).val
      0).supply (fun _ _ _ => 0) [⟨0, 0, 0⟩, ⟨1, 0, 0⟩]).2 = .ok ([⟨-1, 0, 0⟩, ⟨1, 0, 0⟩], [6, 6]) := by decide +kernel

end Pool
end CZ
