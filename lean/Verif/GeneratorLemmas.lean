import Verif.Generator
import Verif.Spec.Crystal

/-!
# Lemmas about voxels and generators
-/

set_option linter.unusedSectionVars false

namespace CZ
open Spec

section
variable {K : Type} [Field K]

theorem mulVec_cols (B : M3 K) (e : V3 K) : B.mulVec e = e.x • B.col0 + e.y • B.col1 + e.z • B.col2 := by
  ext <;> simp [M3.mulVec, M3.col0, M3.col1, M3.col2] <;> ring

theorem cart_eq (B : M3 K) (o e : V3 K) : cart B o e = B.mulVec e + o := by
  rw [cart, mulVec_cols, add_comm]

theorem siteAt_eq (B : M3 K) (o : V3 K) (n : V3 ℤ) (f : V3 K) :
    siteAt B o n f = B.mulVec (Gen.castV n) + B.mulVec f + o := by
  rw [siteAt, cart_eq, ← M3.mulVec_add]
  rfl

theorem det_zero_of_kernel {B : M3 K} {e : V3 K} (h : B.mulVec e = 0) (he : e ≠ 0) : B.det = 0 := by
  by_contra hd
  have := M3.adj_mulVec_mulVec B e
  rw [h, M3.mulVec_zero] at this
  apply he
  ext
  · have := congrArg V3.x this; simpa [hd] using this.symm
  · have := congrArg V3.y this; simpa [hd] using this.symm
  · have := congrArg V3.z this; simpa [hd] using this.symm

theorem mulVec_inj {B : M3 K} (hd : B.det ≠ 0) {e e' : V3 K} (h : B.mulVec e = B.mulVec e') : e = e' := by
  by_contra hne
  apply hd
  refine det_zero_of_kernel (e := e - e') ?_ (sub_ne_zero.mpr hne)
  rw [M3.mulVec_sub, h, sub_self]

end

theorem mapM_length {α β : Type} {f : α → Py β} : ∀ {l : List α} {l' : List β}, l.mapM f = .ok l' →
    List.Forall₂ (fun a b => f a = .ok b) l l' := by
  intro l
  induction l with
  | nil => intro l' h; cases h; exact List.Forall₂.nil
  | cons a l ih =>
    intro l' h
    rw [List.mapM_cons] at h
    cases ha : f a with
    | error e => rw [ha] at h; cases h
    | ok b =>
      rw [ha] at h
      cases hl : l.mapM f with
      | error e => rw [hl] at h; cases h
      | ok bs =>
        rw [hl] at h; cases h
        exact List.Forall₂.cons ha (ih hl)

theorem mapM_of_forall₂ {α β : Type} {f : α → Py β} {l : List α} {l' : List β}
    (h : List.Forall₂ (fun a b => f a = .ok b) l l') : l.mapM f = .ok l' := by
  induction h with
  | nil => rfl
  | cons h1 _ ih => rw [List.mapM_cons, h1, ih]; rfl

namespace Voxel
section
variable {K : Type} [Field K] [LinearOrder K]

theorem minL_le (l : List K) : ∀ a, minL a l ≤ a ∧ ∀ x ∈ l, minL a l ≤ x := by
  induction l with
  | nil => intro a; simp [minL]
  | cons b l ih =>
    intro a
    have := ih (min a b)
    simp only [minL, List.foldl_cons, List.mem_cons] at this ⊢
    refine ⟨this.1.trans (min_le_left _ _), ?_⟩
    rintro x (rfl | hx)
    · exact this.1.trans (min_le_right _ _)
    · exact this.2 x hx

theorem le_minL (l : List K) : ∀ a c, c ≤ a → (∀ x ∈ l, c ≤ x) → c ≤ minL a l := by
  induction l with
  | nil => intro a c h _; simpa [minL] using h
  | cons b l ih =>
    intro a c h h2
    simp only [minL, List.foldl_cons]
    exact ih _ _ (le_min h (h2 b List.mem_cons_self)) fun x hx => h2 x (List.mem_cons_of_mem _ hx)

theorem le_maxL (l : List K) : ∀ a, a ≤ maxL a l ∧ ∀ x ∈ l, x ≤ maxL a l := by
  induction l with
  | nil => intro a; simp [maxL]
  | cons b l ih =>
    intro a
    have := ih (max a b)
    simp only [maxL, List.foldl_cons, List.mem_cons] at this ⊢
    refine ⟨(le_max_left _ _).trans this.1, ?_⟩
    rintro x (rfl | hx)
    · exact (le_max_right _ _).trans this.1
    · exact this.2 x hx

theorem maxL_le (l : List K) : ∀ a c, a ≤ c → (∀ x ∈ l, x ≤ c) → maxL a l ≤ c := by
  induction l with
  | nil => intro a c h _; simpa [maxL] using h
  | cons b l ih =>
    intro a c h h2
    simp only [maxL, List.foldl_cons]
    exact ih _ _ (max_le h (h2 b List.mem_cons_self)) fun x hx => h2 x (List.mem_cons_of_mem _ hx)

variable [FloorRing K]

/-- Fractional coordinates of the box, one per vertex. -/
theorem fracBox_spec {v : Voxel K} {box es : List (V3 K)} (h : v.fracBox box = .ok es) :
    List.Forall₂ (fun p e => v.sbases.solve (p - v.origin) = .ok e) box es := by
  have := mapM_length h
  rw [List.forall₂_map_left_iff] at this
  exact this

theorem solve_det {A : M3 K} {b x : V3 K} (h : A.solve b = .ok x) : A.det ≠ 0 := by
  intro h0; simp [M3.solve, h0] at h

/-- What get_extents returns. -/
theorem getExtents_inv {v : Voxel K} {box : List (V3 K)} {lo hi : V3 ℤ} (h : v.getExtents box = .ok (lo, hi)) :
    ∃ e es, v.fracBox box = .ok (e :: es) ∧
      lo = ⟨⌊(minV e es).x⌋, ⌊(minV e es).y⌋, ⌊(minV e es).z⌋⟩ ∧
      hi = ⟨⌈(maxV e es).x⌉, ⌈(maxV e es).y⌉, ⌈(maxV e es).z⌉⟩ := by
  unfold getExtents at h
  cases hf : v.fracBox box with
  | error e => rw [hf] at h; cases h
  | ok l =>
    rw [hf] at h
    cases l with
    | nil => cases h
    | cons e es =>
      injection h with h
      injection h with h1 h2
      exact ⟨e, es, rfl, h1.symm, h2.symm⟩

theorem getExtents_det {v : Voxel K} {box : List (V3 K)} {r} (h : v.getExtents box = .ok r) :
    v.sbases.det ≠ 0 ∧ box ≠ [] := by
  obtain ⟨lo, hi⟩ := r
  obtain ⟨e, es, hf, -, -⟩ := getExtents_inv h
  have := fracBox_spec hf
  cases box with
  | nil => cases this
  | cons p box =>
    refine ⟨?_, by simp⟩
    cases this with
    | cons h1 _ => exact solve_det h1

theorem getExtents_ok {v : Voxel K} {box : List (V3 K)} (hd : v.sbases.det ≠ 0) (hb : box ≠ []) :
    ∃ r, v.getExtents box = .ok r := by
  have hf : v.fracBox box = .ok (box.map fun p => (v.sbases.det)⁻¹ • v.sbases.adj.mulVec (p - v.origin)) := by
    apply mapM_of_forall₂
    rw [List.forall₂_map_left_iff, List.forall₂_map_right_iff]
    exact List.forall₂_same.mpr fun p _ => M3.solve_ok _ _ hd
  cases box with
  | nil => exact absurd rfl hb
  | cons p box =>
    unfold getExtents
    rw [hf]
    exact ⟨_, rfl⟩

end
end Voxel

namespace Gen

theorem mem_irange {a b i : ℤ} : i ∈ irange a b ↔ a ≤ i ∧ i ≤ b := by
  unfold irange
  simp only [List.mem_map, List.mem_range]
  constructor
  · rintro ⟨k, hk, rfl⟩; omega
  · rintro ⟨h1, h2⟩; exact ⟨(i - a).toNat, by omega, by omega⟩

theorem nodup_irange (a b : ℤ) : (irange a b).Nodup := by
  unfold irange
  exact List.Nodup.map (fun x y h => by simpa using h) List.nodup_range

theorem mem_cells {lo hi n : V3 ℤ} : n ∈ cells lo hi ↔
    (lo.x ≤ n.x ∧ n.x ≤ hi.x) ∧ (lo.y ≤ n.y ∧ n.y ≤ hi.y) ∧ (lo.z ≤ n.z ∧ n.z ≤ hi.z) := by
  unfold cells
  simp only [List.mem_flatMap, List.mem_map, mem_irange]
  constructor
  · rintro ⟨i, hi, j, hj, k, hk, rfl⟩; exact ⟨hi, hj, hk⟩
  · rintro ⟨h1, h2, h3⟩; exact ⟨_, h1, _, h2, _, h3, rfl⟩

theorem nodup_cells (lo hi : V3 ℤ) : (cells lo hi).Nodup := by
  unfold cells
  rw [List.nodup_flatMap]
  refine ⟨fun i _ => ?_, ?_⟩
  · rw [List.nodup_flatMap]
    refine ⟨fun j _ => (nodup_irange _ _).map fun a b h => by simpa using h, ?_⟩
    refine (nodup_irange _ _).imp ?_
    intro a b hab
    simp only [Function.onFun, List.disjoint_left, List.mem_map, not_exists, not_and]
    rintro x ⟨k, _, rfl⟩ k' _ h
    exact hab (by simpa using (congrArg V3.y h).symm)
  · refine (nodup_irange _ _).imp ?_
    intro a b hab
    simp only [Function.onFun, List.disjoint_left, List.mem_flatMap, List.mem_map, not_exists, not_and]
    rintro x ⟨j, _, k, _, rfl⟩ j' _ k' _ h
    exact hab (by simpa using (congrArg V3.x h).symm)

section
variable {K : Type} [Field K] [LinearOrder K] [FloorRing K]

theorem rawAtoms_eq (v : Voxel K) (sites : List (V3 K × ℤ)) (bbox : List (V3 K)) (lo hi : V3 ℤ)
    (h : v.getExtents bbox = .ok (lo, hi)) :
    rawAtoms v sites bbox = .ok ((cells lo hi).flatMap fun n => sites.map fun f =>
      ⟨siteAt v.sbases v.origin n f.1, f.2⟩) := by
  unfold rawAtoms
  rw [h]
  simp only [siteAt_eq]
  rfl

theorem rawAtoms_error (v : Voxel K) (sites : List (V3 K × ℤ)) (bbox : List (V3 K)) (e : PyErr)
    (h : v.getExtents bbox = .error e) : rawAtoms v sites bbox = .error e := by
  unfold rawAtoms
  rw [h]; rfl

/-- A generator ready for use, without post transformation and strain. -/
def Plain (g : Gen K) (v : Voxel K) (sites : List (V3 K × ℤ)) : Prop :=
  g.voxel = some v ∧ (∃ L, g.struct = some ⟨L, sites⟩) ∧ g.strain = none ∧ g.post = none

theorem supply_plain {g : Gen K} {v : Voxel K} {sites : List (V3 K × ℤ)} (hg : Plain g v sites)
    (rng : ℕ → ℕ → ℕ → K) (bbox : List (V3 K)) :
    g.supply rng bbox = (g, (rawAtoms v sites bbox).map fun as => (as.map Atom.pos, as.map Atom.Z)) := by
  obtain ⟨h1, ⟨L, h2⟩, h3, h4⟩ := hg
  unfold supply
  rw [h1]
  simp only
  cases he : v.getExtents bbox with
  | error e => rw [rawAtoms_error _ _ _ _ he]; rfl
  | ok r =>
    obtain ⟨lo, hi⟩ := r
    rw [h2]
    simp only [rawAtoms_eq _ _ _ lo hi he, h3, h4]
    rfl

end
end Gen

end CZ
