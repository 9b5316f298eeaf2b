import Verif.Props.RoundedExact
import Verif.Props.RoundedScene

/-!
# Property C149: adsorbates in a scene with their volume, in rounded arithmetic
-/

namespace CZ
namespace Fl

open Spec

variable (A : Arith) (T : Trig) (S : RotVec)

/-- Bodies none of whose sites is inside another body that goes before contribute all their sites. -/
theorem contents_disjoint {P Q : Type} (bs : List (Body P Q)) (h : ∀ i j : Fin bs.length, j ≠ i → bs[j].priority ≤ bs[i].priority → ∀ q ∈ bs[i].sites, ¬ bs[j].inside q.1) :
    contents bs = bs.flatMap (·.sites) := by
  classical
  have e : ∀ i : Fin bs.length, contributed bs i = (bs.get i).sites := fun i => by
    unfold contributed
    refine List.filter_eq_self.mpr fun q hq => ?_
    simp only [decide_eq_true_eq]
    exact fun j hj hle => h i j hj hle q hq
  unfold contents
  rw [show contributed bs = fun i => (bs.get i).sites from funext e]
  conv_rhs => rw [← List.map_get_finRange bs, List.flatMap_map]

/-- `place` keeps the two arrays equally long. -/
theorem place_lengths {mol m : Mol ℝ} (hl : mol.atoms.length = mol.species.length) {idx : MolVal ℝ} {vec target n : V3 ℝ} {theta bond : ℝ}
    (h : place A T S mol idx vec theta bond target n = .ok m) : m.atoms.length = m.species.length := by
  have step {m m' : Mol ℝ} {o : V3 ℝ} (hl : m.atoms.length = m.species.length) (ho : m.origin = .ok o) {t : Move} (h : molMove A m t = (m', .ok ())) :
      m'.atoms.length = m'.species.length := by
    obtain ⟨m1, e1, e2, e3, -⟩ := molMove_ok A hl ho t
    rw [h] at e1
    injection e1 with e1
    rw [e1, e2, e3, List.length_map, hl]
  have origin {m' : Mol ℝ} (h : mol.setOriginByIdx idx = (m', .ok ())) : m'.atoms.length = m'.species.length := by
    cases idx with
    | none => injection h with h; rw [← h]; exact hl
    | _ =>
      simp only [Mol.setOriginByIdx, Mol.setOriginIdx] at h
      repeat' split at h
      all_goals injection h with h1 h2
      all_goals first | (cases h2; done) | (rw [← h1]; exact hl)
  unfold place at h
  simp only [Mol.fromMolecule] at h
  repeat' split at h
  all_goals first | (cases h; done) | skip
  injection h with h
  subst h
  have l1 := origin (by assumption)
  have l2 := step l1 (by assumption) (by assumption)
  have l3 := step l2 (by assumption) (by assumption)
  exact step l3 (by assumption) (by assumption)

/-- `m` was returned with success by `add_adsorbate` on the volume `g`, for some molecule (with as many species as
atoms) and some choice of the other arguments. -/
def Adsorbed (g : Grain) (m : Mol ℝ) : Prop :=
  ∃ mol idx vec theta bond target n, mol.atoms.length = mol.species.length ∧ placeOn A T S g.algs mol idx vec theta bond target n = .ok (m, true)

theorem Adsorbed.outside {g : Grain} {m : Mol ℝ} (h : Adsorbed A T S g m) {p : V3 ℝ} (hp : p ∈ m.atoms) : g.interior A p = false := by
  obtain ⟨mol, idx, vec, theta, bond, target, n, -, h⟩ := h
  have := List.all_eq_true.mp (placeOn_ok A T S h).symm p hp
  simpa only [Bool.not_eq_true', Grain.interior] using this

theorem placeOn_lengths {algs : List Alg} {mol m : Mol ℝ} {idx : MolVal ℝ} {vec target n : V3 ℝ} {theta bond : ℝ} {b : Bool}
    (hl : mol.atoms.length = mol.species.length) (h : placeOn A T S algs mol idx vec theta bond target n = .ok (m, b)) :
    m.atoms.length = m.species.length := by
  unfold placeOn at h
  split at h
  · cases h
  · rename_i m' hm'
    injection h with h
    injection h with h1 h2
    subst h1
    exact place_lengths A T S hl hm'

theorem Adsorbed.lengths {g : Grain} {m : Mol ℝ} (h : Adsorbed A T S g m) : m.atoms.length = m.species.length := by
  obtain ⟨mol, idx, vec, theta, bond, target, n, hl, h⟩ := h
  exact placeOn_lengths A T S hl h

theorem adsorbed_populatable (g : Grain) {ms : List (Mol ℝ)} (hl : ∀ m ∈ ms, m.atoms.length = m.species.length) :
    Scene.Populatable (g.obj A :: ms.map molObj) := by
  intro o ho
  rcases List.mem_cons.mp ho with rfl | ho
  · exact ⟨_, _, rfl, by simp⟩
  · obtain ⟨m, hm, rfl⟩ := List.mem_map.mp ho
    exact ⟨_, _, rfl, hl m hm⟩

/-- The contents, when no atom of a molecule at or behind the volume in priority is inside the volume. -/
theorem adsorbed_contents (b : V3 ℝ × V3 ℝ) (g : Grain) {ms : List (Mol ℝ)} (hl : ∀ m ∈ ms, m.atoms.length = m.species.length)
    (hm : ∀ m ∈ ms, g.priority ≤ m.priority → ∀ p ∈ m.atoms, g.interior A p = false) :
    ∃ sc as ss, Scene.populate (adsorbedScene A b g ms) = (sc, .ok ()) ∧ Scene.allAtoms sc = .ok as ∧ Scene.allSpecies sc = .ok ss ∧
      as.length = ss.length ∧
      (as.zip ss).Perm (fill A g.algs g.B g.o g.sites g.e g.es ++ ms.flatMap fun m => m.atoms.zip m.species) := by
  obtain ⟨sc, as, ss, h1, h2, h3, h4, h5⟩ := Scene.C01_scene_contents (adsorbedScene A b g ms) _ rfl (adsorbed_populatable A g hl)
  refine ⟨sc, as, ss, h1, h2, h3, h4, h5.trans (List.Perm.of_eq ?_)⟩
  rw [contents_disjoint]
  · simp only [List.map_cons, List.flatMap_cons, obj_sites, List.map_map, List.flatMap_map]
    rfl
  · rintro ⟨i, hi⟩ ⟨j, hj⟩ hne hle q hq
    cases j with
    | zero =>
      cases i with
      | zero => exact absurd rfl hne
      | succ i =>
        simp only [List.length_map, List.length_cons] at hi
        have hi' : i < ms.length := by omega
        simp only [Fin.getElem_fin, List.map_cons, List.getElem_cons_zero, List.getElem_cons_succ, List.getElem_map, Scene.given, molObj, Grain.obj] at hq hle
        have hp := (List.of_mem_zip (show (q.1, q.2) ∈ _ from hq)).1
        have := hm _ (List.getElem_mem hi') hle _ hp
        simp only [Fin.getElem_fin, List.map_cons, List.getElem_cons_zero, Scene.given, Grain.obj]
        rw [this]
        simp
    | succ j =>
      simp only [Fin.getElem_fin, List.map_cons, List.getElem_cons_succ, List.getElem_map, Scene.given, molObj]
      simp

/-- **C149.** A scene of a volume and of adsorbates that were placed on it with success holds all atoms: those of the volume and those of
every adsorbate, each with its species, and nothing else, whatever the priorities. -/
theorem C149_scene (b : V3 ℝ × V3 ℝ) (g : Grain) {ms : List (Mol ℝ)} (hm : ∀ m ∈ ms, Adsorbed A T S g m) :
    ∃ sc as ss, Scene.populate (adsorbedScene A b g ms) = (sc, .ok ()) ∧ Scene.allAtoms sc = .ok as ∧ Scene.allSpecies sc = .ok ss ∧
      as.length = ss.length ∧
      (as.zip ss).Perm (fill A g.algs g.B g.o g.sites g.e g.es ++ ms.flatMap fun m => m.atoms.zip m.species) :=
  adsorbed_contents A b g (fun m h => (hm m h).lengths A T S) fun m h _ _ hp => (hm m h).outside A T S hp

/-- **C149.** So does a scene in which the molecules go before the volume, placed with success or not: molecules displace nothing, so
atoms of the volume and of a molecule in it are both there. -/
theorem C149_before (b : V3 ℝ × V3 ℝ) (g : Grain) {ms : List (Mol ℝ)} (hl : ∀ m ∈ ms, m.atoms.length = m.species.length)
    (hm : ∀ m ∈ ms, m.priority < g.priority) :
    ∃ sc as ss, Scene.populate (adsorbedScene A b g ms) = (sc, .ok ()) ∧ Scene.allAtoms sc = .ok as ∧ Scene.allSpecies sc = .ok ss ∧
      as.length = ss.length ∧
      (as.zip ss).Perm (fill A g.algs g.B g.o g.sites g.e g.es ++ ms.flatMap fun m => m.atoms.zip m.species) :=
  adsorbed_contents A b g hl fun m h hle => absurd (hm m h) (not_lt.mpr hle)

/-- **C149.** With failure, and the volume not behind the molecule in priority, the scene loses an atom of the molecule. -/
theorem C149_lost (b : V3 ℝ × V3 ℝ) (g : Grain) {mol m : Mol ℝ} {idx : MolVal ℝ} {vec target n : V3 ℝ} {theta bond : ℝ}
    (h : placeOn A T S g.algs mol idx vec theta bond target n = .ok (m, false)) (hl : mol.atoms.length = mol.species.length)
    (hpr : g.priority ≤ m.priority) {i : ℕ} (hi : (Scene.sortObjects [g.obj A, molObj m])[i]? = some (molObj m))
    {rows : List (V3 ℝ)} (hrows : Scene.speciesFromObject (Scene.populate (adsorbedScene A b g [m])).1 i = .ok rows) :
    ∃ p ∈ m.atoms, p ∉ rows := by
  obtain ⟨p, hp, h1⟩ := List.all_eq_false.mp (placeOn_ok A T S h).symm
  refine ⟨p, hp, fun hr => ?_⟩
  have key := (Scene.C01_atom_survives_iff (adsorbedScene A b g [m]) _ rfl (adsorbed_populatable A g (by simpa using placeOn_lengths A T S hl h)) i (molObj m) hi rows hrows p).mp hr
  obtain ⟨j, hj, hje⟩ := List.mem_iff_getElem.mp (show g.obj A ∈ Scene.sortObjects [g.obj A, molObj m] from (stableSort_perm _ _).mem_iff.mpr (by simp))
  have hj' : (Scene.sortObjects [g.obj A, molObj m])[j]? = some (g.obj A) := by rw [List.getElem?_eq_getElem hj, hje]
  have hne : j ≠ i := by
    rintro rfl
    rw [hi] at hj'
    have e : (molObj m).interior p = (g.obj A).interior p := by rw [Option.some.inj hj']
    simp only [molObj, Grain.obj, Grain.interior] at e
    rw [← e] at h1
    simp at h1
  have := key.2 j (g.obj A) hj' hne hpr
  simp only [Grain.obj, Grain.interior] at this
  rw [this] at h1
  simp at h1

/-! ## Water over and under silicon below z = 5 -/

noncomputable def slab : Grain := ⟨0, [.plane ⟨⟨0, 0, 1⟩, ⟨0, 0, 5⟩, 1 / 10 ^ 5⟩], 1, 0, [(0, 14)], ⟨0, 0, 0⟩, [⟨8, 8, 8⟩]⟩

example (b : V3 ℝ × V3 ℝ) : ∃ m sc as ss, Adsorbed binary64 T exactRotVec slab m ∧ Scene.populate (adsorbedScene binary64 b slab [m]) = (sc, .ok ()) ∧
    Scene.allAtoms sc = .ok as ∧ Scene.allSpecies sc = .ok ss ∧
    (as.zip ss).Perm (fill binary64 slab.algs slab.B slab.o slab.sites slab.e slab.es ++ m.atoms.zip m.species) := by
  obtain ⟨m, hm⟩ := water_over T
  have ha : Adsorbed binary64 T exactRotVec slab m := ⟨_, _, _, _, _, _, _, rfl, hm⟩
  obtain ⟨sc, as, ss, h1, h2, h3, -, h5⟩ := C149_scene binary64 T exactRotVec b slab (ms := [m]) (by simpa using ha)
  exact ⟨m, sc, as, ss, ha, h1, h2, h3, by simpa using h5⟩

example (b : V3 ℝ × V3 ℝ) : ∃ m, placeOn binary64 T exactRotVec slab.algs
      ⟨[⟨0, 0, 0⟩, ⟨1, 0, 0⟩, ⟨0, 1, 0⟩], [8, 1, 1], 0, 1, false, none, some ⟨0, 0, 0⟩, true⟩ (.int 0) ⟨1, 0, 0⟩ 1 (-2) ⟨5, 5, 5⟩ ⟨0, 0, 1⟩ = .ok (m, false) ∧
    (0 ≤ m.priority → ∀ rows, Scene.speciesFromObject (Scene.populate (adsorbedScene binary64 b slab [m])).1 1 = .ok rows → ∃ p ∈ m.atoms, p ∉ rows) := by
  obtain ⟨m, hm⟩ := water_under T
  refine ⟨m, hm, fun hp rows hr => ?_⟩
  have hle : ¬ m.priority < 0 := not_lt.mpr hp
  refine C149_lost binary64 T exactRotVec b slab hm rfl hp (i := 1) ?_ hr
  simp [Scene.sortObjects, stableSort, insertByKey, molObj, Grain.obj, slab, hp, hle]

end Fl
end CZ
