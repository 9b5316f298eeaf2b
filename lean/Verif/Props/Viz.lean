import Verif.Viz
import Verif.Props.Scene
import Verif.UnitCell

/-!
# C103: the plotting functions show the scene
-/

namespace CZ
open Scene

/-- The four axes of a figure. -/
def Figure.panels (f : Figure) : List Panel := [f.axZ, f.axY, f.axX, f.axR]

/-- Direction from which a panel is seen (matplotlib: azimuth and elevation in degrees). -/
noncomputable def Panel.viewDir (p : Panel) : V3 ℝ :=
  ⟨Real.cos (p.elev * Real.pi / 180) * Real.cos (p.azim * Real.pi / 180),
   Real.cos (p.elev * Real.pi / 180) * Real.sin (p.azim * Real.pi / 180), Real.sin (p.elev * Real.pi / 180)⟩

theorem npUnique_pairwise (zs : List ℤ) : (npUnique zs).Pairwise (· < ·) := by
  have h1 : (npUnique zs).Pairwise (fun x y => id x ≤ id y) := stableSort_sorted id zs.dedup
  have h2 : (npUnique zs).Nodup := (stableSort_perm id zs.dedup).nodup_iff.mpr (List.nodup_dedup zs)
  exact (h1.and h2).imp fun h => lt_of_le_of_ne h.1 h.2

theorem mem_npUnique (zs : List ℤ) (z : ℤ) : z ∈ npUnique zs ↔ z ∈ zs := by
  rw [npUnique, (stableSort_perm id zs.dedup).mem_iff, List.mem_dedup]

/-- Grouping rows by a label loses and repeats nothing. -/
theorem groups_perm {α : Type} (l : List (α × ℤ)) (ss : List ℤ) (hn : ss.Nodup) (hs : ∀ x ∈ l, x.2 ∈ ss) :
    ((ss.map fun s => l.filter fun x => decide (x.2 = s)).flatten).Perm l := by
  induction ss generalizing l with
  | nil =>
    cases l with
    | nil => exact List.Perm.refl _
    | cons x l => exact absurd (hs x List.mem_cons_self) (by simp)
  | cons s ss ih =>
    rw [List.nodup_cons] at hn
    have hrest := ih (l.filter fun x => !decide (x.2 = s)) hn.2 fun x hx => by
      rw [List.mem_filter] at hx
      rcases List.mem_cons.mp (hs x hx.1) with h | h
      · simp [h] at hx
      · exact h
    have e : (ss.map fun t => (l.filter fun x => !decide (x.2 = s)).filter fun x => decide (x.2 = t)) =
        ss.map fun t => l.filter fun x => decide (x.2 = t) := by
      refine List.map_congr_left fun t ht => ?_
      rw [List.filter_filter]
      refine List.filter_congr fun x _ => ?_
      by_cases hx : x.2 = t
      · have : x.2 ≠ s := fun h => hn.1 (h ▸ hx ▸ ht)
        simp [hx, this]
        exact fun h => this (hx.trans h)
      · simp [hx]
    rw [e] at hrest
    rw [List.map_cons, List.flatten_cons]
    exact (List.Perm.append_left _ hrest).trans (List.filter_append_perm _ l)

theorem maskSel_species (data : List (V3 ℝ)) (species : List ℤ) (h : data.length = species.length) (s : ℤ) :
    maskSel (species.map fun z => decide (z = s)) data =
      ((data.zip species).filter fun x => decide (x.2 = s)).map Prod.fst := by
  rw [← maskSel_map, ← maskSel_map_right]
  congr 1
  · conv_lhs => rw [← List.map_snd_zip (l₁ := data) (l₂ := species) (by omega), List.map_map]
    rfl
  · rw [List.map_fst_zip (by omega)]

/-- **C103.** With positions and species of a scene at hand, the plot of the scene succeeds, and every one of its four axes
shows every atom of the scene exactly once, one scatter call per species present, in increasing order of species, and has
the bounds of the scene as limits. -/
theorem C103_scene_view (sc : Scene (V3 ℝ) ℤ) (data : List (V3 ℝ)) (species : List ℤ) (azim elev : ℝ)
    (hd : sc.allAtoms = .ok data) (hs : sc.allSpecies = .ok species) (hl : data.length = species.length) :
    ∃ fig, simpleSceneView (some sc) azim elev = .ok fig ∧ ∀ p ∈ fig.panels,
      p.groups.flatten.Perm data ∧
      (∃ ss : List ℤ, ss.Pairwise (· < ·) ∧ (∀ s, s ∈ ss ↔ s ∈ species) ∧
        List.Forall₂ (fun s g => ∀ q : V3 ℝ, q ∈ g ↔ (q, s) ∈ data.zip species) ss p.groups) ∧
      p.limits = some ((sc.bounds.1.x, sc.bounds.2.x), (sc.bounds.1.y, sc.bounds.2.y), (sc.bounds.1.z, sc.bounds.2.z)) := by
  have hg : scatterGroups data species = .ok ((npUnique species).map fun s =>
      ((data.zip species).filter fun x => decide (x.2 = s)).map Prod.fst) := by
    refine Precedence.mapM_ok _ _ _ fun s _ => ?_
    rw [npMask, if_pos (by rw [List.length_map, hl]), maskSel_species data species hl]
  refine ⟨_, by simp only [simpleSceneView, hd, hs, hg]; rfl, ?_⟩
  have hperm : (((npUnique species).map fun s =>
      ((data.zip species).filter fun x => decide (x.2 = s)).map Prod.fst).flatten).Perm data := by
    have := (groups_perm (data.zip species) (npUnique species) ((npUnique_pairwise species).imp fun h => h.ne)
      fun x hx => (mem_npUnique _ _).mpr (List.of_mem_zip hx).2).map Prod.fst
    rw [List.map_flatten, List.map_map, List.map_fst_zip (by omega)] at this
    exact this
  have hgroup : List.Forall₂ (fun s g => ∀ q : V3 ℝ, q ∈ g ↔ (q, s) ∈ data.zip species) (npUnique species)
      ((npUnique species).map fun s => ((data.zip species).filter fun x => decide (x.2 = s)).map Prod.fst) := by
    rw [List.forall₂_map_right_iff]
    refine List.forall₂_same.mpr fun s _ q => ?_
    simp only [List.mem_map, List.mem_filter, decide_eq_true_eq, Prod.exists, exists_and_right, exists_eq_right]
  intro p hp
  simp only [Figure.panels, List.mem_cons, List.not_mem_nil, or_false] at hp
  rcases hp with rfl | rfl | rfl | rfl <;>
    exact ⟨hperm, ⟨npUnique species, npUnique_pairwise species, mem_npUnique species, hgroup⟩, rfl⟩

/-- **C103 (after populate).** A populated scene can be plotted, and each axes shows its atoms. -/
theorem C103_after_populate (sc : Scene (V3 ℝ) ℤ) (os : List (SceneObj (V3 ℝ) ℤ)) (hos : sc.objects = some os)
    (h : Populatable os) (azim elev : ℝ) :
    ∃ as fig, Scene.allAtoms (Scene.populate sc).1 = .ok as ∧
      simpleSceneView (some (Scene.populate sc).1) azim elev = .ok fig ∧ ∀ p ∈ fig.panels, p.groups.flatten.Perm as := by
  obtain ⟨sc', as', ss', e1, e2, e3, e4, e5⟩ := C01_scene_contents sc os hos h
  obtain ⟨fig, hf, hp⟩ := C103_scene_view sc' as' ss' azim elev e2 e3 e4
  rw [e1]
  exact ⟨as', fig, e2, hf, fun p h => (hp p h).1⟩

/-- **C103 (errors).** What is not a scene is refused with TypeError, and a scene without atoms to show raises what
`all_atoms` raises. -/
theorem C103_errors (azim elev : ℝ) :
    simpleSceneView none azim elev = .error .type ∧
    ∀ (sc : Scene (V3 ℝ) ℤ) (e : PyErr), sc.allAtoms = .error e → simpleSceneView (some sc) azim elev = .error e := by
  refine ⟨rfl, fun sc e h => ?_⟩
  simp only [simpleSceneView, h]

/-- **C103 (projections).** In every figure the panels titled XY, XZ and YZ projection are seen along z, y and x, the fourth
at the angles asked for. -/
theorem C103_projections (arg : Option (Scene (V3 ℝ) ℤ)) (azim elev : ℝ) (fig : Figure)
    (h : simpleSceneView arg azim elev = .ok fig ∨ ∃ data, fig = simpleView data azim elev) :
    (fig.axZ.title = "XY projection" ∧ fig.axZ.viewDir = ⟨0, 0, 1⟩) ∧
    (fig.axY.title = "XZ projection" ∧ fig.axY.viewDir = ⟨0, -1, 0⟩) ∧
    (fig.axX.title = "YZ projection" ∧ fig.axX.viewDir = ⟨1, 0, 0⟩) ∧
    fig.axR.azim = azim ∧ fig.axR.elev = elev := by
  have key : ∃ g l, fig = figureOf g l azim elev := by
    rcases h with h | ⟨data, rfl⟩
    · unfold simpleSceneView at h
      repeat' split at h
      all_goals first | cases h; done | exact ⟨_, _, (Except.ok.inj h).symm⟩
    · exact ⟨_, _, rfl⟩
  obtain ⟨g, l, rfl⟩ := key
  have c90 : Real.cos (90 * Real.pi / 180) = 0 := by
    rw [show (90 : ℝ) * Real.pi / 180 = Real.pi / 2 by ring]; exact Real.cos_pi_div_two
  have s90 : Real.sin (90 * Real.pi / 180) = 1 := by
    rw [show (90 : ℝ) * Real.pi / 180 = Real.pi / 2 by ring]; exact Real.sin_pi_div_two
  have e : -(90 * Real.pi) / 180 = -(90 * Real.pi / 180) := by ring
  refine ⟨⟨rfl, ?_⟩, ⟨rfl, ?_⟩, ⟨rfl, ?_⟩, rfl, rfl⟩ <;> ext <;>
    simp [figureOf, Panel.viewDir, e, Real.cos_neg, Real.sin_neg, c90, s90]

/-- **C103 (plain data).** The plot of an array shows each of its rows once on every axes. -/
theorem C103_data_view (data : List (V3 ℝ)) (azim elev : ℝ) :
    ∀ p ∈ (simpleView data azim elev).panels, p.groups = [data] ∧ p.limits = none := by
  intro p hp
  simp only [Figure.panels, List.mem_cons, List.not_mem_nil, or_false] at hp
  rcases hp with rfl | rfl | rfl | rfl <;> exact ⟨rfl, rfl⟩

/-- **C103 (widgets).** The widgets draw these figures at the angles of the sliders, at the start azimuth -60 and elevation
30. -/
theorem C103_widgets (arg : Option (Scene (V3 ℝ) ℤ)) (data : List (V3 ℝ)) (azim elev : ℝ) :
    simpleSceneWidget arg none = simpleSceneView arg (-60) 30 ∧
    simpleSceneWidget arg (some (azim, elev)) = simpleSceneView arg azim elev ∧
    (simpleViewWidget data none).axR.azim = -60 ∧ (simpleViewWidget data none).axR.elev = 30 ∧
    simpleViewWidget data (some (azim, elev)) = simpleView data azim elev := ⟨rfl, rfl, rfl, rfl, rfl⟩

/-- Non-vacuity: two molecules, carbon and hydrogen, at different places. -/
example : ∃ sc : Scene (V3 ℝ) ℤ, ∃ os, sc.objects = some os ∧ Populatable os ∧ os.length = 2 := by
  refine ⟨⟨some [Scene.moleculeObj 0 [0, ⟨1, 0, 0⟩] [6, 1], Scene.moleculeObj 1 [⟨0, 2, 0⟩] [1]], none,
    (0, ⟨10, 10, 10⟩)⟩, _, rfl, ?_, rfl⟩
  intro o ho
  simp only [List.mem_cons, List.not_mem_nil, or_false] at ho
  rcases ho with rfl | rfl <;> exact ⟨_, _, rfl, rfl⟩

end CZ
