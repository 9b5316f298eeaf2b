import Verif.GeneratorLemmas

/-!
# Properties C28-C33, C42 (generators): voxels and crystalline generators
-/

set_option linter.unusedSectionVars false

namespace CZ
open Spec

section
variable {K : Type} [Field K] [LinearOrder K] [IsStrictOrderedRing K] [FloorRing K]

/-! ## C28 -/

theorem frac_mem {v : Voxel K} {box : List (V3 K)} {e0 : V3 K} {es : List (V3 K)}
    (hf : v.fracBox box = .ok (e0 :: es)) {p : V3 K} (hp : p ∈ box) {e : V3 K}
    (he : p = cart v.sbases v.origin e) : e ∈ e0 :: es := by
  have hF := Voxel.fracBox_spec hf
  obtain ⟨e', he', hs⟩ : ∃ e' ∈ e0 :: es, v.sbases.solve (p - v.origin) = .ok e' := by
    clear hf
    generalize e0 :: es = l at hF ⊢
    induction hF with
    | nil => cases hp
    | cons h1 _ ih =>
      rcases List.mem_cons.mp hp with rfl | hp
      · exact ⟨_, List.mem_cons_self, h1⟩
      · obtain ⟨x, hx, h⟩ := ih hp
        exact ⟨x, List.mem_cons_of_mem _ hx, h⟩
  have hd := Voxel.solve_det hs
  rw [M3.solve_iff _ _ _ hd] at hs
  have : e = e' := by
    apply mulVec_inj hd
    rw [hs, he, cart_eq, add_sub_cancel_right]
  rwa [this]

theorem frac_exists {v : Voxel K} (hd : v.sbases.det ≠ 0) (p : V3 K) : ∃ e, p = cart v.sbases v.origin e := by
  refine ⟨(v.sbases.det)⁻¹ • v.sbases.adj.mulVec (p - v.origin), ?_⟩
  have := (M3.solve_iff v.sbases (p - v.origin) _ hd).mp (M3.solve_ok _ _ hd)
  rw [cart_eq, this, sub_add_cancel]

theorem frac_bounds {e0 : V3 K} {es : List (V3 K)} {e : V3 K} (h : e ∈ e0 :: es) :
    ((Voxel.minV e0 es).x ≤ e.x ∧ e.x ≤ (Voxel.maxV e0 es).x) ∧
    ((Voxel.minV e0 es).y ≤ e.y ∧ e.y ≤ (Voxel.maxV e0 es).y) ∧
    ((Voxel.minV e0 es).z ≤ e.z ∧ e.z ≤ (Voxel.maxV e0 es).z) := by
  have key : ∀ (f : V3 K → K), Voxel.minL (f e0) (es.map f) ≤ f e ∧ f e ≤ Voxel.maxL (f e0) (es.map f) := by
    intro f
    rcases List.mem_cons.mp h with rfl | h
    · exact ⟨(Voxel.minL_le _ _).1, (Voxel.le_maxL _ _).1⟩
    · exact ⟨(Voxel.minL_le _ _).2 _ (List.mem_map_of_mem h), (Voxel.le_maxL _ _).2 _ (List.mem_map_of_mem h)⟩
  exact ⟨key V3.x, key V3.y, key V3.z⟩

/-- A block of whole cells `lo..hi` contains the point with crystal coordinates `e`. -/
def InBlock (lo hi : V3 ℤ) (e : V3 K) : Prop :=
  ((lo.x : K) ≤ e.x ∧ e.x ≤ hi.x) ∧ ((lo.y : K) ≤ e.y ∧ e.y ≤ hi.y) ∧ ((lo.z : K) ≤ e.z ∧ e.z ≤ hi.z)

/-- **C28 (cover).** Every point of the convex hull of the box has crystal coordinates within the extents. -/
theorem C28_extents_cover (v : Voxel K) (box : List (V3 K)) (lo hi : V3 ℤ)
    (h : v.getExtents box = .ok (lo, hi)) (p : V3 K) (hp : p ∈ Region box) (e : V3 K)
    (he : p = cart v.sbases v.origin e) : InBlock lo hi e := by
  obtain ⟨hd, -⟩ := Voxel.getExtents_det h
  obtain ⟨e0, es, hf, rfl, rfl⟩ := Voxel.getExtents_inv h
  -- the set of points with coordinates in the block is convex
  let S : Set (V3 K) := {q | ∀ e, q = cart v.sbases v.origin e → InBlock
    (⟨⌊(Voxel.minV e0 es).x⌋, ⌊(Voxel.minV e0 es).y⌋, ⌊(Voxel.minV e0 es).z⌋⟩ : V3 ℤ)
    ⟨⌈(Voxel.maxV e0 es).x⌉, ⌈(Voxel.maxV e0 es).y⌉, ⌈(Voxel.maxV e0 es).z⌉⟩ e}
  have hconv : Convex K S := by
    intro p hp q hq a b ha hb hab e he
    obtain ⟨ep, hep⟩ := frac_exists hd p
    obtain ⟨eq, heq⟩ := frac_exists hd q
    have h1 := hp ep hep
    have h2 := hq eq heq
    have : e = a • ep + b • eq := by
      apply mulVec_inj hd
      rw [M3.mulVec_add, M3.mulVec_smul, M3.mulVec_smul]
      have e1 : v.sbases.mulVec e = a • p + b • q - v.origin := by rw [he, cart_eq, add_sub_cancel_right]
      have e2 : v.sbases.mulVec ep = p - v.origin := by rw [hep, cart_eq, add_sub_cancel_right]
      have e3 : v.sbases.mulVec eq = q - v.origin := by rw [heq, cart_eq, add_sub_cancel_right]
      rw [e1, e2, e3]
      obtain rfl : b = 1 - a := by linear_combination hab
      ext <;> simp <;> ring
    have comb : ∀ {l u x y : K}, l ≤ x → x ≤ u → l ≤ y → y ≤ u → l ≤ a * x + b * y ∧ a * x + b * y ≤ u := by
      intro l u x y h1 h2 h3 h4
      have hl : l = a * l + b * l := by rw [← add_mul, hab, one_mul]
      have hu : u = a * u + b * u := by rw [← add_mul, hab, one_mul]
      constructor
      · rw [hl]; exact add_le_add (mul_le_mul_of_nonneg_left h1 ha) (mul_le_mul_of_nonneg_left h3 hb)
      · rw [hu]; exact add_le_add (mul_le_mul_of_nonneg_left h2 ha) (mul_le_mul_of_nonneg_left h4 hb)
    subst this
    exact ⟨comb h1.1.1 h1.1.2 h2.1.1 h2.1.2, comb h1.2.1.1 h1.2.1.2 h2.2.1.1 h2.2.1.2,
      comb h1.2.2.1 h1.2.2.2 h2.2.2.1 h2.2.2.2⟩
  have hsub : {q | q ∈ box} ⊆ S := by
    intro q hq e he
    have hb := frac_bounds (frac_mem hf hq he)
    exact ⟨⟨(Int.floor_le _).trans hb.1.1, hb.1.2.trans (Int.le_ceil _)⟩,
      ⟨(Int.floor_le _).trans hb.2.1.1, hb.2.1.2.trans (Int.le_ceil _)⟩,
      ⟨(Int.floor_le _).trans hb.2.2.1, hb.2.2.2.trans (Int.le_ceil _)⟩⟩
  exact convexHull_min hsub hconv hp e he

/-- **C28 (minimality).** Every block of whole cells which covers the box vertices contains the returned block. -/
theorem C28_extents_minimal (v : Voxel K) (box : List (V3 K)) (lo hi lo' hi' : V3 ℤ)
    (h : v.getExtents box = .ok (lo, hi))
    (hc : ∀ p ∈ box, ∀ e, p = cart v.sbases v.origin e → InBlock lo' hi' e) :
    (lo'.x ≤ lo.x ∧ lo'.y ≤ lo.y ∧ lo'.z ≤ lo.z) ∧ (hi.x ≤ hi'.x ∧ hi.y ≤ hi'.y ∧ hi.z ≤ hi'.z) := by
  obtain ⟨e0, es, hf, rfl, rfl⟩ := Voxel.getExtents_inv h
  have hall : ∀ e ∈ e0 :: es, InBlock lo' hi' e := by
    intro e he
    have hF := Voxel.fracBox_spec hf
    obtain ⟨p, hp, hs⟩ : ∃ p ∈ box, v.sbases.solve (p - v.origin) = .ok e := by
      clear hf h
      generalize e0 :: es = l at hF he
      clear hc
      induction hF with
      | nil => cases he
      | cons h1 _ ih =>
        rcases List.mem_cons.mp he with rfl | he
        · exact ⟨_, List.mem_cons_self, h1⟩
        · obtain ⟨x, hx, h⟩ := ih he
          exact ⟨x, List.mem_cons_of_mem _ hx, h⟩
    apply hc p hp
    rw [cart_eq, (M3.solve_iff _ _ _ (Voxel.solve_det hs)).mp hs, sub_add_cancel]
  have h0 := hall e0 List.mem_cons_self
  have hr : ∀ e ∈ es, InBlock lo' hi' e := fun e he => hall e (List.mem_cons_of_mem _ he)
  have lower : ∀ (f : V3 K → K) (c : ℤ), (c : K) ≤ f e0 → (∀ e ∈ es, (c : K) ≤ f e) →
      c ≤ ⌊Voxel.minL (f e0) (es.map f)⌋ := by
    intro f c h1 h2
    rw [Int.le_floor]
    apply Voxel.le_minL _ _ _ h1
    intro x hx
    obtain ⟨e, he, rfl⟩ := List.mem_map.mp hx
    exact h2 e he
  have upper : ∀ (f : V3 K → K) (c : ℤ), f e0 ≤ (c : K) → (∀ e ∈ es, f e ≤ (c : K)) →
      ⌈Voxel.maxL (f e0) (es.map f)⌉ ≤ c := by
    intro f c h1 h2
    rw [Int.ceil_le]
    apply Voxel.maxL_le _ _ _ h1
    intro x hx
    obtain ⟨e, he, rfl⟩ := List.mem_map.mp hx
    exact h2 e he
  exact ⟨⟨lower V3.x _ h0.1.1 fun e he => (hr e he).1.1, lower V3.y _ h0.2.1.1 fun e he => (hr e he).2.1.1,
      lower V3.z _ h0.2.2.1 fun e he => (hr e he).2.2.1⟩,
    ⟨upper V3.x _ h0.1.2 fun e he => (hr e he).1.2, upper V3.y _ h0.2.1.2 fun e he => (hr e he).2.1.2,
      upper V3.z _ h0.2.2.2 fun e he => (hr e he).2.2.2⟩⟩

/-- **C28 (when).** Extents are returned exactly for an invertible scaled basis and a non-empty box. -/
theorem C28_extents_defined (v : Voxel K) (box : List (V3 K)) :
    (∃ r, v.getExtents box = .ok r) ↔ (v.sbases.det ≠ 0 ∧ box ≠ []) :=
  ⟨fun ⟨_, h⟩ => Voxel.getExtents_det h, fun ⟨h1, h2⟩ => Voxel.getExtents_ok h1 h2⟩

/-- Non-vacuity: a sheared cell. -/
example : (⟨⟨2, 1, 0, 0, 3, 0, 0, 0, 1⟩, .scalar 1, ⟨1, 0, 0⟩⟩ : Voxel ℚ).getExtents [⟨0, 0, 0⟩, ⟨5, 5, 5⟩]
    = .ok (⟨-1, 0, 0⟩, ⟨2, 2, 5⟩) := by decide +kernel

/-! ## C29 -/

theorem map_finRange_get {α β : Type} (l : List α) (f : α → β) :
    l.map f = (List.finRange l.length).map fun i => f (l.get i) := by
  conv_lhs => rw [← List.map_get_finRange l]
  rw [List.map_map]; rfl

/-- **C29.** `supply_atoms` returns one atom per cell of the extents and basis atom: the rows of the result are indexed,
without repetition, by all pairs (cell, basis atom). -/
theorem C29_enumerates_once (g : Gen K) (v : Voxel K) (sites : List (V3 K × ℤ)) (hg : Gen.Plain g v sites)
    (rng : ℕ → ℕ → ℕ → K) (bbox : List (V3 K)) (ps : List (V3 K)) (zs : List ℤ)
    (h : (g.supply rng bbox).2 = .ok (ps, zs)) :
    ∃ lo hi, v.getExtents bbox = .ok (lo, hi) ∧ ∃ idx : List (V3 ℤ × Fin sites.length),
      idx.Nodup ∧
      (∀ n i, (n, i) ∈ idx ↔ ((lo.x ≤ n.x ∧ n.x ≤ hi.x) ∧ (lo.y ≤ n.y ∧ n.y ≤ hi.y) ∧ (lo.z ≤ n.z ∧ n.z ≤ hi.z))) ∧
      ps = idx.map (fun x => siteAt v.sbases v.origin x.1 (sites.get x.2).1) ∧
      zs = idx.map (fun x => (sites.get x.2).2) := by
  rw [Gen.supply_plain hg] at h
  cases he : v.getExtents bbox with
  | error e => rw [Gen.rawAtoms_error _ _ _ _ he] at h; cases h
  | ok r =>
    obtain ⟨lo, hi⟩ := r
    rw [Gen.rawAtoms_eq _ _ _ _ _ he] at h
    simp only [Except.map] at h
    injection h with h
    injection h with h1 h2
    refine ⟨lo, hi, rfl, (Gen.cells lo hi).flatMap fun n => (List.finRange sites.length).map fun i => (n, i), ?_, ?_, ?_, ?_⟩
    · rw [List.nodup_flatMap]
      refine ⟨fun n _ => (List.nodup_finRange _).map fun a b hab => by simpa using hab, ?_⟩
      refine (Gen.nodup_cells lo hi).imp ?_
      intro a b hab
      simp only [Function.onFun, List.disjoint_left, List.mem_map, not_exists, not_and]
      rintro x ⟨i, _, rfl⟩ j _ hj
      exact hab (by simpa using (congrArg Prod.fst hj).symm)
    · intro n i
      simp only [List.mem_flatMap, List.mem_map, List.mem_finRange, true_and, Prod.mk.injEq]
      rw [← Gen.mem_cells]
      constructor
      · rintro ⟨m, hm, j, rfl, rfl⟩; exact hm
      · intro hn; exact ⟨n, hn, i, rfl, rfl⟩
    · rw [← h1]
      simp only [List.map_flatMap, List.map_map]
      congr 1; funext n
      exact map_finRange_get sites _
    · rw [← h2]
      simp only [List.map_flatMap, List.map_map]
      congr 1; funext n
      exact map_finRange_get sites _

/-- **C29 (scale).** What the scale does to the cell on which the crystal is built: a number multiplies the three basis
vectors, three numbers (shape (3,) or (1,3)) one basis vector each, shape (3,1) the three Cartesian components, shape
(3,3) every entry. -/
theorem C29_scaled_cell (B : M3 K) (o e : V3 K) :
    (∀ c, cart (⟨B, .scalar c, o⟩ : Voxel K).sbases o e = o + (e.x • c • B.col0 + e.y • c • B.col1 + e.z • c • B.col2)) ∧
    (∀ s : V3 K, cart (⟨B, .cols s, o⟩ : Voxel K).sbases o e =
      o + (e.x • s.x • B.col0 + e.y • s.y • B.col1 + e.z • s.z • B.col2)) ∧
    (∀ s : V3 K, cart (⟨B, .rows s, o⟩ : Voxel K).sbases o e =
      ⟨o.x + s.x * (e.x * B.m00 + e.y * B.m01 + e.z * B.m02), o.y + s.y * (e.x * B.m10 + e.y * B.m11 + e.z * B.m12),
       o.z + s.z * (e.x * B.m20 + e.y * B.m21 + e.z * B.m22)⟩) ∧
    (∀ S : M3 K, cart (⟨B, .full S, o⟩ : Voxel K).sbases o e =
      ⟨o.x + (e.x * (S.m00 * B.m00) + e.y * (S.m01 * B.m01) + e.z * (S.m02 * B.m02)),
       o.y + (e.x * (S.m10 * B.m10) + e.y * (S.m11 * B.m11) + e.z * (S.m12 * B.m12)),
       o.z + (e.x * (S.m20 * B.m20) + e.y * (S.m21 * B.m21) + e.z * (S.m22 * B.m22))⟩) := by
  refine ⟨fun c => ?_, fun s => ?_, fun s => ?_, fun S => ?_⟩ <;>
    ext <;> simp [cart, Voxel.sbases, M3.smul_def, M3.col0, M3.col1, M3.col2] <;> ring

/-- **C29 (success).** With invertible scaled bases and a non-empty box the call succeeds. -/
theorem C29_supply_succeeds (g : Gen K) (v : Voxel K) (sites : List (V3 K × ℤ)) (hg : Gen.Plain g v sites)
    (rng : ℕ → ℕ → ℕ → K) (bbox : List (V3 K)) (hd : v.sbases.det ≠ 0) (hb : bbox ≠ []) :
    ∃ out, g.supply rng bbox = (g, .ok out) := by
  rw [Gen.supply_plain hg]
  obtain ⟨⟨lo, hi⟩, he⟩ := Voxel.getExtents_ok hd hb
  rw [Gen.rawAtoms_eq _ _ _ _ _ he]
  exact ⟨_, rfl⟩

/-! ## C30 -/

/-- Every fractional coordinate of every basis atom lies strictly between -1 and 1. -/
def FracNearCell (sites : List (V3 K × ℤ)) : Prop :=
  ∀ f ∈ sites, (-1 < f.1.x ∧ f.1.x < 1) ∧ (-1 < f.1.y ∧ f.1.y < 1) ∧ (-1 < f.1.z ∧ f.1.z < 1)

/-- **C30 (partial).** If all fractional coordinates are strictly between -1 and 1, every site of the infinite crystal
that lies in the convex hull of the box is returned.  Missing from C30: basis atoms given outside that range, for which
the claim fails (`C30_fills_region_refuted`). -/
theorem C30_fills_region_partial (g : Gen K) (v : Voxel K) (sites : List (V3 K × ℤ)) (hg : Gen.Plain g v sites)
    (hs : FracNearCell sites) (rng : ℕ → ℕ → ℕ → K) (bbox : List (V3 K)) (ps : List (V3 K)) (zs : List ℤ)
    (h : (g.supply rng bbox).2 = .ok (ps, zs)) (a : V3 K × ℤ) (ha : a ∈ Crystal v.sbases v.origin sites)
    (hin : a.1 ∈ Region bbox) : a ∈ ps.zip zs := by
  obtain ⟨lo, hi, he, idx, -, hidx, rfl, rfl⟩ := C29_enumerates_once g v sites hg rng bbox ps zs h
  obtain ⟨n, f, hf, rfl⟩ := ha
  have hblk := C28_extents_cover v bbox lo hi he _ hin _ rfl
  have key : ∀ {l u m : ℤ} {x : K}, (l : K) ≤ (m : K) + x → (m : K) + x ≤ u → -1 < x → x < 1 → l ≤ m ∧ m ≤ u := by
    intro l u m x h1 h2 h3 h4
    constructor
    · have : (l : K) < ((m + 1 : ℤ) : K) := by push_cast; linarith
      have := Int.cast_lt.mp this; omega
    · have : (m : K) < ((u + 1 : ℤ) : K) := by push_cast; linarith
      have := Int.cast_lt.mp this; omega
  obtain ⟨h1, h2, h3⟩ := hs f hf
  obtain ⟨i, hi'⟩ := List.mem_iff_get.mp hf
  have hmem : (n, i) ∈ idx := by
    rw [hidx]
    exact ⟨key hblk.1.1 hblk.1.2 h1.1 h1.2, key hblk.2.1.1 hblk.2.1.2 h2.1 h2.2, key hblk.2.2.1 hblk.2.2.2 h3.1 h3.2⟩
  rw [List.zip_map']
  refine List.mem_map.mpr ⟨(n, i), hmem, ?_⟩
  rw [hi']

end

/-- A simple cubic generator with one basis atom given at fractional coordinate (1,0,0). -/
def shiftedCubic : Gen ℚ := ⟨some ⟨1, [(⟨1, 0, 0⟩, 6)]⟩, some ⟨1, .scalar 1, 0⟩, none, none⟩

/-- **C30, finding.** A basis atom with fractional coordinate 1: the site at (1,0,0) is in the requested box and is not
supplied. -/
theorem C30_fills_region_refuted :
    ¬ ∀ (g : Gen ℚ) (v : Voxel ℚ) (sites : List (V3 ℚ × ℤ)), Gen.Plain g v sites →
      ∀ (rng : ℕ → ℕ → ℕ → ℚ) (bbox ps : List (V3 ℚ)) (zs : List ℤ), (g.supply rng bbox).2 = .ok (ps, zs) →
      ∀ a ∈ Crystal v.sbases v.origin sites, a.1 ∈ Region bbox → a ∈ ps.zip zs := by
  intro h
  have h1 := h shiftedCubic ⟨1, .scalar 1, 0⟩ [(⟨1, 0, 0⟩, 6)] ⟨rfl, ⟨1, rfl⟩, rfl, rfl⟩ (fun _ _ _ => 0)
    [⟨1, 0, 0⟩] [⟨2, 0, 0⟩] [6] (by decide +kernel) (⟨1, 0, 0⟩, 6) ⟨0, _, List.mem_singleton.mpr rfl, by decide +kernel⟩
    (subset_convexHull _ _ (by simp))
  revert h1
  decide +kernel

/-- Non-vacuity of C29/C30: a two-atom basis in a sheared cell. -/
example : Gen.Plain (⟨some ⟨1, [(⟨0, 0, 0⟩, 11), (⟨1/2, 1/2, 1/2⟩, 17)]⟩, some ⟨⟨2, 1, 0, 0, 3, 0, 0, 0, 1⟩, .scalar 1, 0⟩,
      none, none⟩ : Gen ℚ) ⟨⟨2, 1, 0, 0, 3, 0, 0, 0, 1⟩, .scalar 1, 0⟩ [(⟨0, 0, 0⟩, 11), (⟨1/2, 1/2, 1/2⟩, 17)] ∧
    FracNearCell ([(⟨0, 0, 0⟩, 11), (⟨1/2, 1/2, 1/2⟩, 17)] : List (V3 ℚ × ℤ)) := by
  refine ⟨⟨rfl, ⟨1, rfl⟩, rfl, rfl⟩, ?_⟩
  intro f hf
  fin_cases hf <;> norm_num


/-! ## C31 -/

section
variable {K : Type} [Field K] [LinearOrder K] [IsStrictOrderedRing K]

/-- Transformations built from translations and matrix transformations with non-zero determinant. -/
inductive InvertibleTr : Tr K → Prop
  | translation (s l b) : InvertibleTr (.translation s l b)
  | matrix (k M o l b) (h : M.det ≠ 0) : InvertibleTr (.matrix k M o l b)
  | multi (ts) (h : ∀ t ∈ ts, InvertibleTr t) : InvertibleTr (.multi ts)

/-- `t` acts on points as an affine map with linear part `L` and on bases by multiplication with `L`. -/
def HasLinearPart (t : Tr K) (L : M3 K) : Prop :=
  (∀ B, t.bases B = L * B) ∧ ∀ p q, t.apply p - t.apply q = L.mulVec (p - q)

theorem InvertibleTr.linearPart {t : Tr K} (h : InvertibleTr t) : ∃ L, L.det ≠ 0 ∧ HasLinearPart t L := by
  induction h with
  | translation s l b =>
    refine ⟨1, by rw [M3.det_one]; exact one_ne_zero, fun B => ?_, fun p q => ?_⟩
    · simp [Tr.bases, M3.one_mul']
    · simp only [Tr.apply, M3.mulVec_one]; abel
  | matrix k M o l b h =>
    refine ⟨M, h, fun B => by simp [Tr.bases], fun p q => ?_⟩
    simp only [Tr.apply, Tr.matApply]
    cases o with
    | none => simp [M3.mulVec_sub]
    | some o => simp only [M3.mulVec_sub]; abel
  | multi ts h ih =>
    clear h
    have : ∃ L : M3 K, L.det ≠ 0 ∧ (∀ B, Tr.basesList ts B = L * B) ∧
        ∀ p q, Tr.applyList ts p - Tr.applyList ts q = L.mulVec (p - q) := by
      induction ts with
      | nil =>
        exact ⟨1, by rw [M3.det_one]; exact one_ne_zero, fun B => by simp [Tr.basesList, M3.one_mul'],
          fun p q => by simp [Tr.applyList, M3.mulVec_one]⟩
      | cons t ts iht =>
        obtain ⟨L1, d1, hb1, ha1⟩ := ih t List.mem_cons_self
        obtain ⟨L2, d2, hb2, ha2⟩ := iht fun x hx => ih x (List.mem_cons_of_mem _ hx)
        refine ⟨L2 * L1, by rw [M3.det_mul]; exact mul_ne_zero d2 d1, fun B => ?_, fun p q => ?_⟩
        · simp only [Tr.basesList]; rw [hb1, hb2, M3.mul_assoc']
        · simp only [Tr.applyList]; rw [ha2, ha1, M3.mulVec_mul]
    obtain ⟨L, d, h1, h2⟩ := this
    exact ⟨L, d, fun B => by simp only [Tr.bases]; exact h1 B, fun p q => by simp only [Tr.apply]; exact h2 p q⟩

theorem normSq_eq_zero' {v : V3 K} (h : v.normSq = 0) : v = 0 := by
  simp only [V3.normSq, V3.dot] at h
  have h1 := mul_self_nonneg v.x
  have h2 := mul_self_nonneg v.y
  have h3 := mul_self_nonneg v.z
  ext
  · exact mul_self_eq_zero.mp (by linarith)
  · exact mul_self_eq_zero.mp (by linarith)
  · exact mul_self_eq_zero.mp (by linarith)

theorem cross_zero_of_collinear {v w : V3 K} (h : Voxel.collinear v w = true) : v.cross w = 0 := by
  simp only [Voxel.collinear, decide_eq_true_eq] at h
  apply normSq_eq_zero'
  have : (v.cross w).normSq = v.normSq * w.normSq - (v.dot w) ^ 2 := by
    simp only [V3.normSq, V3.dot, V3.cross]; ring
  rw [this, h.2.2, sub_self]

theorem basesSet_of_det {B : M3 K} (h : B.det ≠ 0) : Voxel.basesSet B = .ok B := by
  have aux : ∀ {u v w : V3 K}, u.dot (v.cross w) ≠ 0 → Voxel.collinear v w = false := by
    intro u v w h
    by_contra hc
    rw [Bool.not_eq_false] at hc
    apply h; rw [cross_zero_of_collinear hc]; simp [V3.dot]
  have h01 : Voxel.collinear B.row0 B.row1 = false := aux (u := B.row2) (by
    intro h0; apply h; rw [← h0]; simp only [M3.det, V3.dot, V3.cross, M3.row0, M3.row1, M3.row2]; ring)
  have h02 : Voxel.collinear B.row0 B.row2 = false := aux (u := B.row1) (by
    intro h0; apply h; rw [← neg_eq_zero, ← h0]; simp only [M3.det, V3.dot, V3.cross, M3.row0, M3.row1, M3.row2]; ring)
  have h12 : Voxel.collinear B.row1 B.row2 = false := aux (u := B.row0) (by
    intro h0; apply h; rw [← h0]; simp only [M3.det, V3.dot, V3.cross, M3.row0, M3.row1, M3.row2]; ring)
  simp [Voxel.basesSet, h01, h02, h12]

/-- The scale does not act on the rows: a number, or one factor per basis vector (column). -/
def ColumnScale : Scale K → Prop
  | .scalar _ => True
  | .cols _ => True
  | _ => False

theorem sbases_mul {v : Voxel K} (hs : ColumnScale v.scale) (L : M3 K) (o : V3 K) :
    (⟨L * v.bases, v.scale, o⟩ : Voxel K).sbases = L * v.sbases := by
  obtain ⟨B, s, o'⟩ := v
  cases s with
  | scalar c => simp only [Voxel.sbases]; rw [M3.mul_smul']
  | cols s => ext <;> simp only [Voxel.sbases, M3.mul_def] <;> ring
  | rows s => cases hs
  | full s => cases hs

theorem bases_det_ne {v : Voxel K} (hs : ColumnScale v.scale) (h : v.sbases.det ≠ 0) : v.bases.det ≠ 0 := by
  intro h0
  apply h
  obtain ⟨B, s, o⟩ := v
  cases s with
  | scalar c =>
    have : (⟨B, .scalar c, o⟩ : Voxel K).sbases.det = c ^ 3 * B.det := by
      simp only [Voxel.sbases, M3.smul_def, M3.det]; ring
    rw [this, h0, mul_zero]
  | cols s =>
    have : (⟨B, .cols s, o⟩ : Voxel K).sbases.det = s.x * s.y * s.z * B.det := by
      simp only [Voxel.sbases, M3.det]; ring
    rw [this, h0, mul_zero]
  | rows s => cases hs
  | full s => cases hs

variable [FloorRing K]

theorem getExtents_covariant {v w : Voxel K} {f : V3 K → V3 K} {L : M3 K} (hL : L.det ≠ 0)
    (hw : w.sbases = L * v.sbases) (ho : w.origin = f v.origin) (hf : ∀ p q, f p - f q = L.mulVec (p - q))
    (box : List (V3 K)) : w.getExtents (box.map f) = v.getExtents box := by
  have hfrac : w.fracBox (box.map f) = v.fracBox box := by
    unfold Voxel.fracBox
    rw [List.map_map]
    have : (fun p => w.sbases.solve ((f p) - w.origin)) = fun p => v.sbases.solve (p - v.origin) := by
      funext p
      rw [ho, hf, hw]
      by_cases hd : v.sbases.det = 0
      · have : (L * v.sbases).det = 0 := by rw [M3.det_mul, hd, mul_zero]
        simp [M3.solve, hd, this]
      · have hd' : (L * v.sbases).det ≠ 0 := by rw [M3.det_mul]; exact mul_ne_zero hL hd
        rw [M3.solve_ok _ _ hd, M3.solve_iff _ _ _ hd', M3.mulVec_mul, M3.mulVec_smul, M3.mulVec_adj_mulVec]
        congr 1
        ext <;> simp [hd]
    rw [List.mapM_map, List.mapM_map]
    exact congrArg (fun g => List.mapM g box) this
  unfold Voxel.getExtents
  rw [hfrac]

/-- **C31 (partial).** Transforming an unstrained generator by any composition of translations and invertible matrix
transformations (none of them marked basis_only) succeeds, and supplying atoms for the transformed box gives exactly
the transformed atoms, in the same order with the same species.  Missing from C31: voxels whose scale has shape (3,1) or
(3,3), for which it fails (`C31_covariant_refuted`). -/
theorem C31_covariant_partial (g : Gen K) (v : Voxel K) (sites : List (V3 K × ℤ)) (hg : Gen.Plain g v sites)
    (hs : ColumnScale v.scale) (hd : v.sbases.det ≠ 0) (t : Tr K) (ht : InvertibleTr t) (hb : t.basisOnly = false) :
    ∃ g', g.transform t = (g', .ok ()) ∧ ∀ rng bbox,
      (g'.supply rng (bbox.map t.apply)).2 = (g.supply rng bbox).2.map fun out => (out.1.map t.apply, out.2) := by
  obtain ⟨L, hL, hLb, hLa⟩ := ht.linearPart
  have hset : Voxel.basesSet (t.bases v.bases) = .ok (L * v.bases) := by
    rw [hLb]; exact basesSet_of_det (by rw [M3.det_mul]; exact mul_ne_zero hL (bases_det_ne hs hd))
  obtain ⟨h1, ⟨Lm, h2⟩, h3, h4⟩ := hg
  let w : Voxel K := ⟨L * v.bases, v.scale, t.apply v.origin⟩
  refine ⟨{ g with voxel := some w }, ?_, ?_⟩
  · unfold Gen.transform
    rw [h1]; simp only [hset, hb]; rfl
  · intro rng bbox
    have hw : w.sbases = L * v.sbases := sbases_mul hs L _
    have hext := getExtents_covariant (v := v) (w := w) hL hw rfl hLa bbox
    rw [Gen.supply_plain (g := { g with voxel := some w }) (v := w) (sites := sites) ⟨rfl, ⟨Lm, h2⟩, h3, h4⟩,
      Gen.supply_plain (v := v) (sites := sites) ⟨h1, ⟨Lm, h2⟩, h3, h4⟩]
    cases he : v.getExtents bbox with
    | error e =>
      rw [Gen.rawAtoms_error _ _ _ _ he, Gen.rawAtoms_error _ _ _ _ (hext.trans he)]; rfl
    | ok r =>
      obtain ⟨lo, hi⟩ := r
      rw [Gen.rawAtoms_eq _ _ _ _ _ he, Gen.rawAtoms_eq _ _ _ _ _ (hext.trans he)]
      have hsite : ∀ n f, siteAt w.sbases w.origin n f = t.apply (siteAt v.sbases v.origin n f) := by
        intro n f
        have := hLa (siteAt v.sbases v.origin n f) v.origin
        rw [sub_eq_iff_eq_add] at this
        rw [this, siteAt_eq, siteAt_eq, hw, M3.mulVec_mul, M3.mulVec_mul, add_sub_cancel_right, M3.mulVec_add]
      simp only [Except.map, List.map_flatMap, List.map_map, Function.comp_def, hsite]

end

/-- **C31, finding.** With a scale of shape (3,1), e.g. [[2],[1],[1]], a quarter turn of the generator does not turn
the crystal. -/
theorem C31_covariant_refuted :
    ¬ ∀ (g : Gen ℚ) (v : Voxel ℚ) (sites : List (V3 ℚ × ℤ)), Gen.Plain g v sites → v.sbases.det ≠ 0 →
      ∀ t : Tr ℚ, InvertibleTr t → t.basisOnly = false →
      ∃ g', g.transform t = (g', .ok ()) ∧ ∀ rng bbox,
        (g'.supply rng (bbox.map t.apply)).2 = (g.supply rng bbox).2.map fun out => (out.1.map t.apply, out.2) := by
  intro h
  let v : Voxel ℚ := ⟨1, .rows ⟨2, 1, 1⟩, 0⟩
  let g : Gen ℚ := ⟨some ⟨1, [(⟨0, 0, 0⟩, 6)]⟩, some v, none, none⟩
  let t : Tr ℚ := .matrix .rotation ⟨0, -1, 0, 1, 0, 0, 0, 0, 1⟩ none true false
  obtain ⟨g', h1, h2⟩ := h g v [(⟨0, 0, 0⟩, 6)] ⟨rfl, ⟨1, rfl⟩, rfl, rfl⟩ (by decide +kernel) t
    (.matrix _ _ _ _ _ (by decide +kernel)) rfl
  have h3 : g.transform t =
      (⟨some ⟨1, [(⟨0, 0, 0⟩, 6)]⟩, some ⟨⟨0, -1, 0, 1, 0, 0, 0, 0, 1⟩, .rows ⟨2, 1, 1⟩, 0⟩, none, none⟩, .ok ()) := by
    simp only [g, v, t, Gen.transform, Tr.bases, Tr.basisOnly, Tr.apply]
    rw [show ((⟨0, -1, 0, 1, 0, 0, 0, 0, 1⟩ : M3 ℚ) * 1) = ⟨0, -1, 0, 1, 0, 0, 0, 0, 1⟩ from by decide +kernel,
      show Voxel.basesSet (⟨0, -1, 0, 1, 0, 0, 0, 0, 1⟩ : M3 ℚ) = .ok ⟨0, -1, 0, 1, 0, 0, 0, 0, 1⟩ from by decide +kernel]
    have : Tr.matApply (⟨0, -1, 0, 1, 0, 0, 0, 0, 1⟩ : M3 ℚ) none 0 = 0 := by decide +kernel
    simp [this]
  rw [h1] at h3
  obtain rfl := (Prod.ext_iff.mp h3).1
  have ha : t.apply = Tr.matApply (⟨0, -1, 0, 1, 0, 0, 0, 0, 1⟩ : M3 ℚ) none := by
    funext p; simp only [t, Tr.apply]
  have h4 := h2 (fun _ _ _ => 0) [⟨1/2, 0, 0⟩]
  rw [ha] at h4
  revert h4
  decide +kernel

/-- Non-vacuity of C31: a rotation about a point followed by a shift. -/
example : InvertibleTr (.multi [.matrix .rotation ⟨0, -1, 0, 1, 0, 0, 0, 0, 1⟩ (some ⟨1, 2, 3⟩) true false,
    .translation ⟨1, 1, 1⟩ true false] : Tr ℚ) := by
  refine .multi _ fun t ht => ?_
  fin_cases ht
  · exact .matrix _ _ _ _ _ (by decide +kernel)
  · exact .translation _ _ _

/-! ## C32 -/

section
variable {K : Type} [Field K] [LinearOrder K] [IsStrictOrderedRing K] [FloorRing K]

/-- Where pymatgen places the site with fractional coordinates `f` in cell `n`: a combination of the lattice vectors,
which are the rows of `lattice.matrix`. -/
def pymatgenSite (L : M3 K) (n : V3 ℤ) (f : V3 K) : V3 K :=
  ((n.x : K) + f.x) • L.row0 + ((n.y : K) + f.y) • L.row1 + ((n.z : K) + f.z) • L.row2

/-- The generator built from a structure has the lattice matrix as its bases. -/
theorem make_plain (s : Struct K) (g : Gen K) (h : Gen.make none (some s) none = .ok g) :
    Gen.Plain g ⟨s.latticeMatrix, .scalar 1, 0⟩ s.sites := by
  unfold Gen.make Gen.setStructure Voxel.make at h
  cases hb : Voxel.basesSet s.latticeMatrix with
  | error e => simp only [hb] at h; cases h
  | ok b =>
    have hbb : b = s.latticeMatrix := by
      unfold Voxel.basesSet at hb
      split_ifs at hb
      exact (Except.ok.inj hb).symm
    subst hbb
    simp only [hb] at h
    cases h
    exact ⟨rfl, ⟨_, rfl⟩, rfl, rfl⟩

/-- **C32 (partial).** A generator built from a structure whose lattice matrix is symmetric (for instance cubic,
tetragonal and orthorhombic cells) puts every supplied atom where pymatgen puts it.  Missing: all other lattices, for
which it fails (`C32_pymatgen_refuted`; `C32_agrees_iff_symmetric` is the exact condition). -/
theorem C32_pymatgen_partial (s : Struct K) (hsym : s.latticeMatrix.transpose = s.latticeMatrix) (g : Gen K)
    (hg : Gen.make none (some s) none = .ok g) (rng : ℕ → ℕ → ℕ → K) (bbox : List (V3 K)) (ps : List (V3 K))
    (zs : List ℤ) (h : (g.supply rng bbox).2 = .ok (ps, zs)) :
    ∀ a ∈ ps.zip zs, ∃ n : V3 ℤ, ∃ f ∈ s.sites, a = (pymatgenSite s.latticeMatrix n f.1, f.2) := by
  have hP := make_plain s g hg
  obtain ⟨lo, hi, -, idx, -, -, rfl, rfl⟩ := C29_enumerates_once g _ _ hP rng bbox ps zs h
  rw [List.zip_map']
  intro a ha
  obtain ⟨x, -, rfl⟩ := List.mem_map.mp ha
  refine ⟨x.1, _, List.get_mem _ x.2, ?_⟩
  have e1 := congrArg M3.m01 hsym
  have e2 := congrArg M3.m02 hsym
  have e3 := congrArg M3.m12 hsym
  simp only [M3.transpose] at e1 e2 e3
  ext1
  · ext <;> simp [siteAt, cart, Voxel.sbases, M3.smul_def, M3.col0, M3.col1, M3.col2, pymatgenSite, M3.row0, M3.row1,
      M3.row2, e1, e2, e3]
  · rfl

/-- **C32 (exact condition).** The crystal the generator spans agrees with pymatgen site by site iff the lattice matrix
is symmetric. -/
theorem C32_agrees_iff_symmetric (L : M3 K) :
    (∀ (n : V3 ℤ) (f : V3 K), siteAt (⟨L, .scalar 1, 0⟩ : Voxel K).sbases 0 n f = pymatgenSite L n f) ↔
      L.transpose = L := by
  constructor
  · intro h
    have hx := h 0 ⟨1, 0, 0⟩
    have hy := h 0 ⟨0, 1, 0⟩
    simp [siteAt, cart, Voxel.sbases, M3.smul_def, M3.col0, M3.col1, M3.col2, pymatgenSite, M3.row0, M3.row1,
      M3.row2] at hx hy
    obtain ⟨a1, a2⟩ := hx
    obtain ⟨-, a3⟩ := hy
    ext <;> simp only [M3.transpose] <;> first | assumption | (symm; assumption)
  · intro h n f
    have e1 := congrArg M3.m01 h
    have e2 := congrArg M3.m02 h
    have e3 := congrArg M3.m12 h
    simp only [M3.transpose] at e1 e2 e3
    ext <;> simp [siteAt, cart, Voxel.sbases, M3.smul_def, M3.col0, M3.col1, M3.col2, pymatgenSite, M3.row0, M3.row1,
      M3.row2, e1, e2, e3]

end

/-- A monoclinic structure: lattice vectors (3,0,0), (0,4,0), (-2,0,5), one atom at fractional (1/2,1/2,1/2). -/
def monoclinic : Struct ℚ := ⟨⟨3, 0, 0, 0, 4, 0, -2, 0, 5⟩, [(⟨1/2, 1/2, 1/2⟩, 14)]⟩

/-- **C32, finding.** For a monoclinic cell the generator supplies an atom which is nowhere in the pymatgen crystal. -/
theorem C32_pymatgen_refuted :
    ∃ g, Gen.make none (some monoclinic) none = .ok g ∧ ∃ bbox ps zs,
      (g.supply (fun _ _ _ => 0) bbox).2 = .ok (ps, zs) ∧ ∃ a ∈ ps.zip zs,
        ∀ (n : V3 ℤ), ∀ f ∈ monoclinic.sites, a ≠ (pymatgenSite monoclinic.latticeMatrix n f.1, f.2) := by
  refine ⟨⟨some monoclinic, some ⟨⟨3, 0, 0, 0, 4, 0, -2, 0, 5⟩, .scalar 1, 0⟩, none, none⟩, ?_,
    [0], [⟨3/2, 2, 3/2⟩], [14], by decide +kernel, (⟨3/2, 2, 3/2⟩, 14), by decide +kernel, ?_⟩
  · have : Voxel.basesSet (⟨3, 0, 0, 0, 4, 0, -2, 0, 5⟩ : M3 ℚ) = .ok ⟨3, 0, 0, 0, 4, 0, -2, 0, 5⟩ := by decide +kernel
    unfold Gen.make Gen.setStructure Voxel.make
    simp only [monoclinic, this]
    rfl
  intro n f hf h
  simp only [monoclinic, List.mem_singleton] at hf
  subst hf
  have hz := congrArg V3.z (congrArg Prod.fst h)
  simp [pymatgenSite, monoclinic, M3.row0, M3.row1, M3.row2] at hz
  -- 3/2 = 5 (n + 1/2) has no integer solution
  have : (5 * n.z + 1 : ℚ) = 0 := by linarith
  have : (5 * n.z + 1 : ℤ) = 0 := by exact_mod_cast this
  omega

/-! ## C33 -/

section
variable {K : Type} [Field K] [LinearOrder K] [IsStrictOrderedRing K]

theorem linIndep_iff_det (B : M3 K) : LinIndep B.row0 B.row1 B.row2 ↔ B.det ≠ 0 := by
  have key : ∀ a b c : K, a • B.row0 + b • B.row1 + c • B.row2 = B.transpose.mulVec ⟨a, b, c⟩ := by
    intro a b c; rw [mulVec_cols]; rfl
  constructor
  · intro h hd
    have hadj : ∀ e, B.transpose.mulVec (B.transpose.adj.mulVec e) = 0 := by
      intro e; rw [M3.mulVec_adj_mulVec, M3.det_transpose, hd, zero_smul]
    have z : ∀ e, B.transpose.adj.mulVec e = 0 := by
      intro e
      obtain ⟨h1, h2, h3⟩ := h _ _ _ ((key _ _ _).trans (hadj e))
      ext
      · exact h1
      · exact h2
      · exact h3
    have zx := z ⟨1, 0, 0⟩
    have zy := z ⟨0, 1, 0⟩
    have zz := z ⟨0, 0, 1⟩
    simp [M3.adj, M3.transpose, M3.mulVec, V3.ext_iff] at zx zy zz
    -- all 2x2 minors vanish, so every pair of rows is dependent
    have d01 := h B.m10 (-B.m00) 0
    have d01' := h B.m11 (-B.m01) 0
    have d01'' := h B.m12 (-B.m02) 0
    have e0 := d01 (by ext <;> simp [M3.row0, M3.row1, M3.row2] <;> linarith [zx.1, zx.2.1, zx.2.2, zy.1, zy.2.1, zy.2.2, zz.1, zz.2.1, zz.2.2])
    have e1 := d01' (by ext <;> simp [M3.row0, M3.row1, M3.row2] <;> linarith [zx.1, zx.2.1, zx.2.2, zy.1, zy.2.1, zy.2.2, zz.1, zz.2.1, zz.2.2])
    have e2 := d01'' (by ext <;> simp [M3.row0, M3.row1, M3.row2] <;> linarith [zx.1, zx.2.1, zx.2.2, zy.1, zy.2.1, zy.2.2, zz.1, zz.2.1, zz.2.2])
    have f0 := h 1 0 0 (by ext <;> simp [M3.row0] <;> [linarith [e0.2.1]; linarith [e1.2.1]; linarith [e2.2.1]])
    exact one_ne_zero f0.1
  · intro hd a b c h0
    rw [key] at h0
    by_contra hne
    apply hd
    rw [← M3.det_transpose]
    refine det_zero_of_kernel h0 ?_
    intro he
    exact hne ⟨congrArg V3.x he, congrArg V3.y he, congrArg V3.z he⟩

/-- **C33 (partial).** Linearly independent bases are always accepted and stored unchanged.  Missing: dependent bases are
not always rejected (`C33_rejects_dependent_refuted`). -/
theorem C33_accepts_independent_partial (B : M3 K) (h : LinIndep B.row0 B.row1 B.row2) :
    Voxel.basesSet B = .ok B := basesSet_of_det ((linIndep_iff_det B).mp h)

theorem collinear_iff (v w : V3 K) : Voxel.collinear v w = true ↔ v ≠ 0 ∧ w ≠ 0 ∧ ∃ c : K, w = c • v := by
  simp only [Voxel.collinear, decide_eq_true_eq]
  have hz : ∀ u : V3 K, u.normSq = 0 ↔ u = 0 := fun u =>
    ⟨normSq_eq_zero', fun h => by rw [h]; simp [V3.normSq, V3.dot]⟩
  constructor
  · rintro ⟨h1, h2, h3⟩
    refine ⟨fun h => h1 ((hz v).mpr h), fun h => h2 ((hz w).mpr h), v.dot w / v.normSq, ?_⟩
    have hc : v.cross w = 0 := cross_zero_of_collinear (by simp only [Voxel.collinear, decide_eq_true_eq]; exact ⟨h1, h2, h3⟩)
    have hx := congrArg V3.x hc
    have hy := congrArg V3.y hc
    have hz' := congrArg V3.z hc
    simp only [V3.cross, V3.zero_x, V3.zero_y, V3.zero_z] at hx hy hz'
    have e : v.normSq • w = v.dot w • v := by
      simp only [V3.normSq, V3.dot]
      ext <;> simp only [V3.smul_x, V3.smul_y, V3.smul_z]
      · linear_combination v.z * hy - v.y * hz'
      · linear_combination v.x * hz' - v.z * hx
      · linear_combination v.y * hx - v.x * hy
    have hx' := congrArg V3.x e
    have hy' := congrArg V3.y e
    have hzz := congrArg V3.z e
    simp only [V3.smul_x, V3.smul_y, V3.smul_z] at hx' hy' hzz
    ext <;> simp only [V3.smul_x, V3.smul_y, V3.smul_z] <;> rw [div_mul_eq_mul_div, eq_div_iff h1] <;> linarith
  · rintro ⟨h1, h2, c, rfl⟩
    refine ⟨fun h => h1 ((hz v).mp h), fun h => h2 ((hz _).mp h), ?_⟩
    simp only [V3.normSq, V3.dot, V3.smul_x, V3.smul_y, V3.smul_z]; ring

/-- **C33 (what is checked).** The setter accepts a matrix exactly when no two non-zero rows are multiples of each
other. -/
theorem C33_acceptance (B : M3 K) :
    (∃ B', Voxel.basesSet B = .ok B') ↔
      ∀ p ∈ [(B.row0, B.row1), (B.row0, B.row2), (B.row1, B.row2)],
        p.1 ≠ 0 → p.2 ≠ 0 → ¬ ∃ c : K, p.2 = c • p.1 := by
  have hn : ∀ v w : V3 K, Voxel.collinear v w = false ↔ (v ≠ 0 → w ≠ 0 → ¬ ∃ c : K, w = c • v) := by
    intro v w
    rw [← Bool.not_eq_true, collinear_iff]
    tauto
  simp only [List.mem_cons, List.not_mem_nil, or_false, forall_eq_or_imp, forall_eq, ← hn]
  unfold Voxel.basesSet
  constructor
  · rintro ⟨B', h⟩
    split_ifs at h with h1 h2 h3
    exact ⟨by simpa using h1, by simpa using h2, by simpa using h3⟩
  · rintro ⟨h1, h2, h3⟩
    exact ⟨B, by simp [h1, h2, h3]⟩

end

/-- **C33, finding.** Three coplanar vectors are accepted, and so is a zero vector. -/
theorem C33_rejects_dependent_refuted :
    (∃ B : M3 ℚ, ¬ LinIndep B.row0 B.row1 B.row2 ∧ Voxel.basesSet B = .ok B ∧
      B.row0 ≠ 0 ∧ B.row1 ≠ 0 ∧ B.row2 ≠ 0) ∧
    (∃ B : M3 ℚ, B.row2 = 0 ∧ Voxel.basesSet B = .ok B) := by
  refine ⟨⟨⟨1, 0, 0, 0, 1, 0, 1, 1, 0⟩, ?_, by decide +kernel, by decide +kernel, by decide +kernel, by decide +kernel⟩,
    ⟨⟨1, 0, 0, 0, 1, 0, 0, 0, 0⟩, by decide +kernel, by decide +kernel⟩⟩
  rw [linIndep_iff_det]
  decide +kernel

/-! ## C80 -/

section
variable {K : Type} [Field K] [LinearOrder K]

/-- **C80.** Attaching a structure whose lattice is accepted gives the generator the lattice of the structure (unit scale)
and keeps its origin; for a generator that has no origin yet it is 0. -/
theorem C80_structure_keeps_origin (g : Gen K) (s : Struct K) (hs : Voxel.basesSet s.latticeMatrix = .ok s.latticeMatrix) :
    ∃ g', g.setStructure s = (g', .ok ()) ∧ g'.struct = some s ∧ g'.strain = g.strain ∧ g'.post = g.post ∧
      g'.voxel = some ⟨s.latticeMatrix, .scalar 1, (g.voxel.map Voxel.origin).getD 0⟩ := by
  unfold Gen.setStructure Voxel.make
  rw [hs]
  refine ⟨_, rfl, rfl, rfl, rfl, ?_⟩
  cases g.voxel <;> rfl

/-- **C80 (order).** The origin may be set before or after the structure. -/
theorem C80_order_irrelevant (g : Gen K) (s : Struct K) (o : V3 K) (hs : Voxel.basesSet s.latticeMatrix = .ok s.latticeMatrix) :
    ((g.setStructure s).1.setOrigin o) = ((g.setOrigin o).setStructure s).1 ∧
      (g.setStructure s).2 = .ok () ∧ ((g.setOrigin o).setStructure s).2 = .ok () := by
  obtain ⟨st, vx, sr, po⟩ := g
  cases vx <;> simp [Gen.setStructure, Gen.setOrigin, Voxel.make, hs, bind, Except.bind, pure, Except.pure]

/-- Concrete case: a sheared lattice and an origin. -/
example : Voxel.basesSet (⟨2, 0, 0, 1, 3, 0, 0, 0, 1⟩ : M3 ℚ) = .ok ⟨2, 0, 0, 1, 3, 0, 0, 0, 1⟩ := by decide +kernel

end

/-! ## C42 for generators -/

section
variable {K : Type} [Field K] [LinearOrder K] [IsStrictOrderedRing K]

theorem bases_det_list {ts : List (Tr K)} (h : ∀ t ∈ ts, InvertibleTr t) {B : M3 K} (hB : B.det ≠ 0) :
    (Tr.basesList ts B).det ≠ 0 := by
  induction ts generalizing B with
  | nil => simpa [Tr.basesList] using hB
  | cons t ts ih =>
    obtain ⟨L, hL, hb, -⟩ := (h t List.mem_cons_self).linearPart
    simp only [Tr.basesList]
    apply ih fun x hx => h x (List.mem_cons_of_mem _ hx)
    rw [hb, M3.det_mul]; exact mul_ne_zero hL hB

theorem basisOnly_all {ts : List (Tr K)} {b : Bool} (hne : ts ≠ []) (h : ∀ t ∈ ts, t.basisOnly = b) :
    Tr.basisOnlyList ts = b := by
  induction ts with
  | nil => exact absurd rfl hne
  | cons t ts ih =>
    simp only [Tr.basisOnlyList, h t List.mem_cons_self]
    cases ts with
    | nil => simp [Tr.basisOnlyList]
    | cons u us =>
      rw [ih (by simp) fun x hx => h x (List.mem_cons_of_mem _ hx)]; simp

/-- **C42 for generators (partial).** If all members have the same basis_only flag and are invertible (and the generator
has independent bases), `MultiTransform` has the same effect on a generator as its members in turn.  Missing: mixed flags
(`C42_generator_refuted`) and non-invertible members, where an intermediate basis may be refused. -/
theorem C42_generator_partial (g : Gen K) (v : Voxel K) (hv : g.voxel = some v) (hB : v.bases.det ≠ 0) (ts : List (Tr K))
    (b : Bool) (hflag : ∀ t ∈ ts, t.basisOnly = b) (hinv : ∀ t ∈ ts, InvertibleTr t) :
    ∃ g', g.transform (.multi ts) = (g', .ok ()) ∧ g.fromGenerator ts = .ok g' := by
  have main : ∀ (ts : List (Tr K)) (g : Gen K) (v : Voxel K), g.voxel = some v → v.bases.det ≠ 0 →
      (∀ t ∈ ts, t.basisOnly = b) → (∀ t ∈ ts, InvertibleTr t) →
      g.fromGenerator ts = .ok { g with voxel := (some ⟨Tr.basesList ts v.bases, v.scale,
        if b then v.origin else Tr.applyList ts v.origin⟩ : Option (Voxel K)) } := by
    intro ts
    induction ts with
    | nil =>
      intro g v hv _ _ _
      obtain ⟨s, vx, st, po⟩ := g
      subst hv
      simp [Gen.fromGenerator, Tr.basesList, Tr.applyList]
    | cons t ts ih =>
      intro g v hv hB hf hi
      obtain ⟨L, hL, hb, -⟩ := (hi t List.mem_cons_self).linearPart
      have hd : (t.bases v.bases).det ≠ 0 := by rw [hb, M3.det_mul]; exact mul_ne_zero hL hB
      have ht : g.transform t = ({ g with voxel := (some ⟨t.bases v.bases, v.scale,
          if b then v.origin else t.apply v.origin⟩ : Option (Voxel K)) }, .ok ()) := by
        unfold Gen.transform
        rw [hv]; simp only [basesSet_of_det hd, hf t List.mem_cons_self]
        cases b <;> rfl
      simp only [Gen.fromGenerator, ht]
      rw [ih _ ⟨t.bases v.bases, v.scale, if b then v.origin else t.apply v.origin⟩ rfl hd
        (fun x hx => hf x (List.mem_cons_of_mem _ hx)) fun x hx => hi x (List.mem_cons_of_mem _ hx)]
      simp only [Tr.basesList, Tr.applyList]
      cases b <;> rfl
  refine ⟨_, ?_, main ts g v hv hB hflag hinv⟩
  unfold Gen.transform
  have hd := bases_det_list hinv hB
  rw [hv]; simp only [Tr.bases, basesSet_of_det hd, Tr.basisOnly]
  cases ts with
  | nil => cases b <;> simp [Tr.basisOnlyList, Tr.basesList, Tr.apply, Tr.applyList]
  | cons t ts =>
    have hb : Tr.basisOnlyList (t :: ts) = b := basisOnly_all (by simp) hflag
    simp only [hb]
    cases b <;> simp [Tr.apply]

end

/-- **C42, finding (generators).** A translation together with a basis-only rotation: the MultiTransform does not move the
origin at all, the members in turn do. -/
theorem C42_generator_refuted :
    ∃ (g : Gen ℚ) (ts : List (Tr ℚ)) (g1 g2 : Gen ℚ), g.transform (.multi ts) = (g1, .ok ()) ∧
      g.fromGenerator ts = .ok g2 ∧ g1.voxel.map Voxel.origin = some 0 ∧ g2.voxel.map Voxel.origin = some ⟨1, 0, 0⟩ := by
  refine ⟨⟨none, some ⟨1, .scalar 1, 0⟩, none, none⟩,
    [.translation ⟨1, 0, 0⟩ true false, .matrix .rotation ⟨0, -1, 0, 1, 0, 0, 0, 0, 1⟩ none true true],
    ⟨none, some ⟨⟨0, -1, 0, 1, 0, 0, 0, 0, 1⟩, .scalar 1, 0⟩, none, none⟩,
    ⟨none, some ⟨⟨0, -1, 0, 1, 0, 0, 0, 0, 1⟩, .scalar 1, ⟨1, 0, 0⟩⟩, none, none⟩, ?_, ?_, rfl, rfl⟩
  · simp [Gen.transform, Tr.bases, Tr.basesList, Tr.basisOnly, Tr.basisOnlyList]
    rw [show ((⟨0, -1, 0, 1, 0, 0, 0, 0, 1⟩ : M3 ℚ) * 1) = ⟨0, -1, 0, 1, 0, 0, 0, 0, 1⟩ from by decide +kernel,
      show Voxel.basesSet (⟨0, -1, 0, 1, 0, 0, 0, 0, 1⟩ : M3 ℚ) = .ok ⟨0, -1, 0, 1, 0, 0, 0, 0, 1⟩ from by decide +kernel]
  · simp [Gen.fromGenerator, Gen.transform, Tr.bases, Tr.basisOnly, Tr.apply]
    rw [show Voxel.basesSet (1 : M3 ℚ) = .ok 1 from by decide +kernel]
    simp
    rw [show ((⟨0, -1, 0, 1, 0, 0, 0, 0, 1⟩ : M3 ℚ) * 1) = ⟨0, -1, 0, 1, 0, 0, 0, 0, 1⟩ from by decide +kernel,
      show Voxel.basesSet (⟨0, -1, 0, 1, 0, 0, 0, 0, 1⟩ : M3 ℚ) = .ok ⟨0, -1, 0, 1, 0, 0, 0, 0, 1⟩ from by decide +kernel]

end CZ
