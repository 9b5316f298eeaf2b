import Verif.Props.Measure
import Mathlib.Data.Rat.Floor

/-!
# Property C59: radial distribution
-/

set_option linter.unusedSectionVars false

namespace CZ
open Spec
namespace Rdf
section
variable {K : Type} [Field K] [LinearOrder K] [IsStrictOrderedRing K] [FloorRing K]

theorem minV_spec (p : V3 K) (ps : List (V3 K)) :
    (∀ q ∈ p :: ps, (minV p ps).x ≤ q.x ∧ (minV p ps).y ≤ q.y ∧ (minV p ps).z ≤ q.z) ∧
      (∃ q ∈ p :: ps, (minV p ps).x = q.x) ∧ (∃ q ∈ p :: ps, (minV p ps).y = q.y) ∧ ∃ q ∈ p :: ps, (minV p ps).z = q.z := by
  induction ps using List.reverseRecOn with
  | nil => simp [minV]
  | append_singleton ps r ih =>
    obtain ⟨h, ⟨qx, hqx, ex⟩, ⟨qy, hqy, ey⟩, ⟨qz, hqz, ez⟩⟩ := ih
    have e : minV p (ps ++ [r]) = ⟨min (minV p ps).x r.x, min (minV p ps).y r.y, min (minV p ps).z r.z⟩ := by
      unfold minV; rw [List.foldl_append]; rfl
    rw [e]
    have sub : ∀ q ∈ p :: ps, q ∈ p :: (ps ++ [r]) := by
      intro q hq; rcases List.mem_cons.mp hq with rfl | hq
      · simp
      · simp [hq]
    refine ⟨?_, ?_, ?_, ?_⟩
    · intro q hq
      have : q ∈ p :: ps ∨ q = r := by
        simp only [List.mem_cons, List.mem_append, List.not_mem_nil, or_false] at hq ⊢
        tauto
      rcases this with hq | rfl
      · obtain ⟨a, b, c⟩ := h q hq
        exact ⟨(min_le_left _ _).trans a, (min_le_left _ _).trans b, (min_le_left _ _).trans c⟩
      · exact ⟨min_le_right _ _, min_le_right _ _, min_le_right _ _⟩
    · rcases le_total (minV p ps).x r.x with hl | hl
      · exact ⟨qx, sub _ hqx, (min_eq_left hl).trans ex⟩
      · exact ⟨r, by simp, by simp only [min_eq_right hl]⟩
    · rcases le_total (minV p ps).y r.y with hl | hl
      · exact ⟨qy, sub _ hqy, (min_eq_left hl).trans ey⟩
      · exact ⟨r, by simp, by simp only [min_eq_right hl]⟩
    · rcases le_total (minV p ps).z r.z with hl | hl
      · exact ⟨qz, sub _ hqz, (min_eq_left hl).trans ez⟩
      · exact ⟨r, by simp, by simp only [min_eq_right hl]⟩

theorem maxV_spec (p : V3 K) (ps : List (V3 K)) :
    (∀ q ∈ p :: ps, q.x ≤ (maxV p ps).x ∧ q.y ≤ (maxV p ps).y ∧ q.z ≤ (maxV p ps).z) ∧
      (∃ q ∈ p :: ps, (maxV p ps).x = q.x) ∧ (∃ q ∈ p :: ps, (maxV p ps).y = q.y) ∧ ∃ q ∈ p :: ps, (maxV p ps).z = q.z := by
  induction ps using List.reverseRecOn with
  | nil => simp [maxV]
  | append_singleton ps r ih =>
    obtain ⟨h, ⟨qx, hqx, ex⟩, ⟨qy, hqy, ey⟩, ⟨qz, hqz, ez⟩⟩ := ih
    have e : maxV p (ps ++ [r]) = ⟨max (maxV p ps).x r.x, max (maxV p ps).y r.y, max (maxV p ps).z r.z⟩ := by
      unfold maxV; rw [List.foldl_append]; rfl
    rw [e]
    have sub : ∀ q ∈ p :: ps, q ∈ p :: (ps ++ [r]) := by
      intro q hq; rcases List.mem_cons.mp hq with rfl | hq
      · simp
      · simp [hq]
    refine ⟨?_, ?_, ?_, ?_⟩
    · intro q hq
      have : q ∈ p :: ps ∨ q = r := by
        simp only [List.mem_cons, List.mem_append, List.not_mem_nil, or_false] at hq ⊢
        tauto
      rcases this with hq | rfl
      · obtain ⟨a, b, c⟩ := h q hq
        exact ⟨a.trans (le_max_left _ _), b.trans (le_max_left _ _), c.trans (le_max_left _ _)⟩
      · exact ⟨le_max_right _ _, le_max_right _ _, le_max_right _ _⟩
    · rcases le_total r.x (maxV p ps).x with hl | hl
      · exact ⟨qx, sub _ hqx, (max_eq_left hl).trans ex⟩
      · exact ⟨r, by simp, by simp only [max_eq_right hl]⟩
    · rcases le_total r.y (maxV p ps).y with hl | hl
      · exact ⟨qy, sub _ hqy, (max_eq_left hl).trans ey⟩
      · exact ⟨r, by simp, by simp only [max_eq_right hl]⟩
    · rcases le_total r.z (maxV p ps).z with hl | hl
      · exact ⟨qz, sub _ hqz, (max_eq_left hl).trans ez⟩
      · exact ⟨r, by simp, by simp only [max_eq_right hl]⟩

/-- **C59, finding (input).** Whatever the outcome, the coordinates the caller passed are shifted in place: afterwards the
smallest coordinate along each axis is 0.  So they are unchanged only if that was the case before. -/
theorem C59_input_shifted (c : K) (px py pz : Bool) (ps : List (V3 K)) (hne : ps ≠ []) :
    ∃ m : V3 K, (calcRdf c px py pz ps).1 = ps.map (fun p => (⟨p.x - m.x, p.y - m.y, p.z - m.z⟩ : V3 K)) ∧
      IsLeast {x | ∃ p ∈ ps, x = p.x} m.x ∧ IsLeast {x | ∃ p ∈ ps, x = p.y} m.y ∧ IsLeast {x | ∃ p ∈ ps, x = p.z} m.z := by
  cases ps with
  | nil => exact absurd rfl hne
  | cons p ps =>
    obtain ⟨h, hx, hy, hz⟩ := minV_spec p ps
    refine ⟨minV p ps, rfl, ⟨hx, ?_⟩, ⟨hy, ?_⟩, ⟨hz, ?_⟩⟩ <;> rintro _ ⟨q, hq, rfl⟩
    · exact (h q hq).1
    · exact (h q hq).2.1
    · exact (h q hq).2.2

theorem ceil_one {a c : K} (h0 : 0 < a) (h1 : a < c) : ⌈a / c⌉.toNat = 1 := by
  have : ⌈a / c⌉ = 1 := by
    rw [Int.ceil_eq_iff]
    have hc : 0 < c := h0.trans h1
    constructor
    · push_cast; rw [sub_self]; exact div_pos h0 hc
    · push_cast; exact ((div_lt_one hc).mpr h1).le
  rw [this]; rfl

theorem floor_zero {a c : K} (h0 : 0 ≤ a) (h1 : a < c) : ⌊a / c⌋ = 0 := by
  rw [Int.floor_eq_zero_iff]
  have hc : 0 < c := h0.trans_lt h1
  exact ⟨div_nonneg h0 hc.le, (div_lt_one hc).mpr h1⟩

theorem row_one (px py pz : Bool) (h : ¬ (px ∧ py ∧ pz)) : Grid.row 1 1 1 px py pz 0 = [0] := by
  cases px <;> cases py <;> cases pz <;> first | (exfalso; simp at h; done) | decide +kernel

/-- **C59 (partial).** If the points are not flat along any axis, extend less than the cutoff along each, and not all three axes
are periodic, then every ordered pair of atoms enters the histogram exactly once, at its minimum-image distance for the box
spanned by the points.  Larger boxes: `C59_voxels_partial`.  Missing: lists for which the wrong voxel is looked up (`C59_index_refuted`), fully periodic
boxes, where pairs are counted several times (`C59_periodic_refuted`), flat ones, where nothing is counted
(`C59_flat_refuted`). -/
theorem C59_single_voxel_partial (c : K) (px py pz : Bool) (hp : ¬ (px ∧ py ∧ pz)) (ps : List (V3 K)) (L : V3 K)
    (hL : IsExtent ps L) (hx : 0 < L.x ∧ L.x < c) (hy : 0 < L.y ∧ L.y < c) (hz : 0 < L.z ∧ L.z < c) :
    ∃ d : V3 K → V3 K → K, (∀ p ∈ ps, ∀ q ∈ ps, IsLeast (imageDistances L px py pz p q) (d p q)) ∧
      (calcRdf c px py pz ps).2 = .ok (ps.flatMap fun p => ps.map (d p)) := by
  cases ps with
  | nil => obtain ⟨⟨⟨p, hp, -⟩, -⟩, -⟩ := hL; cases hp
  | cons p ps =>
    obtain ⟨hm, mx, my, mz⟩ := minV_spec p ps
    set m := minV p ps with hmdef
    obtain ⟨⟨⟨p1, hp1, q1, hq1, e1⟩, g1⟩, ⟨⟨p2, hp2, q2, hq2, e2⟩, g2⟩, ⟨⟨p3, hp3, q3, hq3, e3⟩, g3⟩⟩ := hL
    obtain ⟨M, hMx, hMy, hMz⟩ := maxV_spec (p - m) (ps.map (· - m))
    have hqs : shifted (p :: ps) = (p - m) :: ps.map (· - m) := rfl
    have hmap : (p - m) :: ps.map (· - m) = (p :: ps).map (· - m) := rfl
    have hLe : maxV (p - m) (ps.map (· - m)) = L := by
      rw [hmap] at M hMx hMy hMz
      ext
      · obtain ⟨q, hq, e⟩ := hMx
        obtain ⟨r, hr, rfl⟩ := List.mem_map.mp hq
        obtain ⟨s, hs, es⟩ := mx
        apply le_antisymm
        · rw [e]; exact g1 ⟨r, hr, s, hs, by simp [es]⟩
        · have := (M _ (List.mem_map_of_mem hp1)).1
          refine le_trans ?_ this
          rw [e1]; have := (hm q1 hq1).1; simp; linarith
      · obtain ⟨q, hq, e⟩ := hMy
        obtain ⟨r, hr, rfl⟩ := List.mem_map.mp hq
        obtain ⟨s, hs, es⟩ := my
        apply le_antisymm
        · rw [e]; exact g2 ⟨r, hr, s, hs, by simp [es]⟩
        · have := (M _ (List.mem_map_of_mem hp2)).2.1
          refine le_trans ?_ this
          rw [e2]; have := (hm q2 hq2).2.1; simp; linarith
      · obtain ⟨q, hq, e⟩ := hMz
        obtain ⟨r, hr, rfl⟩ := List.mem_map.mp hq
        obtain ⟨s, hs, es⟩ := mz
        apply le_antisymm
        · rw [e]; exact g3 ⟨r, hr, s, hs, by simp [es]⟩
        · have := (M _ (List.mem_map_of_mem hp3)).2.2
          refine le_trans ?_ this
          rw [e3]; have := (hm q3 hq3).2.2; simp; linarith
    have hbox : ∀ q ∈ (p :: ps).map (· - m), 0 ≤ q.x ∧ q.x ≤ L.x ∧ 0 ≤ q.y ∧ q.y ≤ L.y ∧ 0 ≤ q.z ∧ q.z ≤ L.z := by
      intro q hq
      have h1 := M q (by rw [hmap]; exact hq)
      rw [hLe] at h1
      obtain ⟨r, hr, rfl⟩ := List.mem_map.mp hq
      have h2 := hm r hr
      simp only [V3.sub_x, V3.sub_y, V3.sub_z] at h1 ⊢
      exact ⟨by linarith, h1.1, by linarith, h1.2.1, by linarith, h1.2.2⟩
    have hb0 : ∀ q ∈ (p :: ps).map (· - m), boxIdx c 1 1 q = 0 := by
      intro q hq
      obtain ⟨a1, a2, b1, b2, c1, c2⟩ := hbox q hq
      unfold boxIdx
      rw [floor_zero a1 (by linarith), floor_zero b1 (by linarith), floor_zero c1 (by linarith)]
      simp
    have hparts : parts c 1 1 ((p :: ps).map (· - m)) 0 = (p :: ps).map (· - m) := by
      unfold parts
      rw [List.filter_eq_self]
      intro q hq
      simpa using hb0 q hq
    obtain ⟨f, hf, -⟩ := C58_box_partial L px py pz (p - m) (p - m) (hbox _ (by simp)) (hbox _ (by simp))
    refine ⟨fun a b => f (a - m) (b - m), ?_, ?_⟩
    · intro a ha b hb
      obtain ⟨f', hf', hl⟩ := C58_box_partial L px py pz (a - m) (b - m) (hbox _ (List.mem_map_of_mem ha)) (hbox _ (List.mem_map_of_mem hb))
      have : f' = f := Except.ok.inj (hf'.symm.trans hf)
      subst this
      have : imageDistances L px py pz (a - m) (b - m) = imageDistances L px py pz a b := by
        unfold imageDistances
        ext s
        simp only [Set.mem_ofPred_eq, V3.sub_x, V3.sub_y, V3.sub_z]
        refine exists_congr fun i => exists_congr fun j => exists_congr fun k => ?_
        rw [show a.x - m.x - (b.x - m.x + i * L.x) = a.x - (b.x + i * L.x) by ring,
          show a.y - m.y - (b.y - m.y + j * L.y) = a.y - (b.y + j * L.y) by ring,
          show a.z - m.z - (b.z - m.z + k * L.z) = a.z - (b.z + k * L.z) by ring]
      rwa [this] at hl
    · unfold calcRdf
      simp only [hqs]
      rw [hLe, hf]
      have hN : numVox c L = (1, 1, 1) := by
        unfold numVox
        rw [ceil_one hx.1 hx.2, ceil_one hy.1 hy.2, ceil_one hz.1 hz.2]
      rw [hN, hmap]
      simp only [bind, Except.bind, pairs, pure, Except.pure]
      have h1 : pyGet (((p :: ps).map (· - m)).map (boxIdx c 1 1)) 0 = .ok 0 := by
        unfold pyGet
        simp only [List.map_cons, List.getElem?_cons_zero]
        rw [hb0 (p - m) (by simp)]
      have h2 : pyGet (Grid.grid 1 1 1 px py pz) (0 : ℤ).toNat = .ok [0] := by
        unfold pyGet Grid.grid
        rw [show (0 : ℤ).toNat = 0 from rfl]
        simp only [Nat.mul_one, List.range_one, List.map_cons, List.map_nil, List.getElem?_cons_zero]
        rw [row_one px py pz hp]
      rw [h1]
      simp only
      rw [h2]
      simp only [Nat.cast_zero, hparts, List.append_nil, List.flatMap_cons, List.flatMap_nil]
      rw [List.flatMap_map]
      simp only [List.map_map]
      rfl

end

/-- **C59, finding (wrong voxel).** Two atoms in a long box: the loop over voxels looks up the voxel of the i-th atom and
raises IndexError when there are more voxels than atoms. -/
theorem C59_index_refuted : (calcRdf (2 : ℚ) false false false [⟨0, 0, 0⟩, ⟨5, 1, 1⟩]).2 = .error .index := by decide +kernel

/-- **C59, finding (several counts).** Three points in one fully periodic voxel: each of the nine ordered pairs is counted 27 times. -/
theorem C59_periodic_refuted :
    ((calcRdf (2 : ℚ) true true true [⟨0, 0, 0⟩, ⟨1, 0, 1⟩, ⟨0, 1, 1⟩]).2.map List.length) = .ok 243 := by decide +kernel

/-- **C59, finding (flat).** Points in a plane: nothing is counted. -/
theorem C59_flat_refuted : (calcRdf (2 : ℚ) false false false [⟨0, 0, 0⟩, ⟨1, 1, 0⟩]).2 = .ok [] := by decide +kernel

/-- **C59, finding (missed pairs).** Two pairs of atoms far apart, listed alternately: the pair of the second and the fourth atom,
at squared distance 1, is not counted; instead distances between the pairs are looked at twice. -/
theorem C59_missed_refuted :
    ∃ xs, (calcRdf (2 : ℚ) false false false [⟨0, 0, 0⟩, ⟨5, 0, 0⟩, ⟨0, 1, 1⟩, ⟨5, 1, 0⟩]).2 = .ok xs ∧ 1 ∉ xs :=
  ⟨[0, 2, 2, 0, 25, 27, 26, 26], by decide +kernel, by decide +kernel⟩

/-- **C59, finding (input, instance).** -/
theorem C59_input_refuted : (calcRdf (2 : ℚ) false false false [⟨1, 1, 1⟩]).1 = [⟨0, 0, 0⟩] := by decide +kernel

/-- Concrete case of the partial statement. -/
example : (calcRdf (2 : ℚ) false false false [⟨1, 1, 1⟩, ⟨2, 2, 2⟩]).2 = .ok [0, 3, 3, 0] := by decide +kernel

end Rdf
end CZ
