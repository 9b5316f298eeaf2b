import Verif.Props.RdfHist
import Mathlib.Data.Multiset.Bind
import Mathlib.Data.Multiset.Filter

/-!
# Property C59: radial distribution of boxes with many voxels
-/

set_option linter.unusedSectionVars false

namespace CZ
open Spec

namespace Spec
/-- `p` lies in the voxel `v` of the grid with `nx`, `ny` voxels of edge `c` along x and y (x runs fastest) whose lower corner is `m`. -/
def InVoxel {K : Type} [Field K] [LinearOrder K] (c : K) (nx ny : ℕ) (m p : V3 K) (v : ℕ) : Prop :=
  ((v % nx : ℕ) * c ≤ p.x - m.x ∧ p.x - m.x < ((v % nx : ℕ) + 1) * c) ∧
    ((v / nx % ny : ℕ) * c ≤ p.y - m.y ∧ p.y - m.y < ((v / nx % ny : ℕ) + 1) * c) ∧
    ((v / (nx * ny) : ℕ) * c ≤ p.z - m.z ∧ p.z - m.z < ((v / (nx * ny) : ℕ) + 1) * c)

/-- `m` is the lower corner of the box spanned by the points. -/
def IsLower {K : Type} [LinearOrder K] (ps : List (V3 K)) (m : V3 K) : Prop :=
  IsLeast {x | ∃ p ∈ ps, x = p.x} m.x ∧ IsLeast {x | ∃ p ∈ ps, x = p.y} m.y ∧ IsLeast {x | ∃ p ∈ ps, x = p.z} m.z
end Spec

namespace Rdf
section
variable {K : Type} [Field K] [LinearOrder K] [IsStrictOrderedRing K] [FloorRing K]

/-! ## Lists grouped by keys -/

theorem keys_perm {α : Type} (is : List ℤ) (hn : is.Nodup) (key : α → ℤ) (ps : List α) :
    ((is.flatMap fun n => ps.filter fun q => decide (key q = n) : List α) : Multiset α) =
      (ps.filter fun q => decide (key q ∈ is) : List α) := by
  induction is with
  | nil => simp
  | cons n is ih =>
    obtain ⟨h1, h2⟩ := List.nodup_cons.mp hn
    rw [List.flatMap_cons, ← Multiset.coe_add, ih h2]
    simp only [← Multiset.filter_coe, decide_eq_true_eq]
    rw [Multiset.filter_add_filter]
    have : Multiset.filter (fun a => key a = n ∧ key a ∈ is) (ps : Multiset α) = 0 := by
      rw [Multiset.filter_eq_nil]
      rintro a - ⟨rfl, h⟩
      exact h1 h
    rw [this, add_zero]
    refine Multiset.filter_congr fun a _ => ?_
    rw [List.mem_cons]

theorem flatMap_comm {α β γ : Type} (l : List α) (m : List β) (g : α → β → List γ) :
    ((l.flatMap fun a => m.flatMap fun b => g a b : List γ) : Multiset γ) = (m.flatMap fun b => l.flatMap fun a => g a b : List γ) := by
  have := Multiset.bind_bind (l : Multiset α) (m : Multiset β) (f := fun a b => (g a b : Multiset γ))
  simpa only [Multiset.coe_bind] using this

/-- The pairs that a loop over voxels and their neighbours finds, if all close ones are in neighbouring voxels. -/
theorem loop_perm {α : Type} (ps : List α) (key : α → ℤ) (vs : List ℤ) (hvs : vs.Nodup) (hk : ∀ p ∈ ps, key p ∈ vs) (row : ℤ → List ℤ)
    (hrow : ∀ v ∈ vs, (∃ p ∈ ps, key p = v) → (row v).Nodup) (f : α → α → K) (s : K)
    (hnear : ∀ p ∈ ps, ∀ q ∈ ps, f p q ≤ s → key q ∈ row (key p)) :
    (((vs.flatMap fun v => (row v).flatMap fun n => (ps.filter fun q => decide (key q = v)).flatMap fun p =>
        (ps.filter fun q => decide (key q = n)).map (f p)).filter fun x => decide (x ≤ s) : List K) : Multiset K) =
      ((ps.flatMap fun p => ps.map (f p)).filter fun x => decide (x ≤ s) : List K) := by
  have inner : ∀ p ∈ ps, (row (key p)).Nodup →
      ((((row (key p)).flatMap fun n => (ps.filter fun q => decide (key q = n)).map (f p)).filter fun x => decide (x ≤ s) : List K) : Multiset K) =
        ((ps.map (f p)).filter fun x => decide (x ≤ s) : List K) := by
    intro p hp hnd
    rw [← List.map_flatMap, ← Multiset.filter_coe, ← Multiset.map_coe, keys_perm _ hnd, Multiset.map_coe, Multiset.filter_coe,
      List.filter_map, List.filter_map, List.filter_filter]
    congr 2
    refine List.filter_congr fun q hq => ?_
    simp only [Function.comp]
    by_cases hle : f p q ≤ s
    · simp [hle, hnear p hp q hq hle]
    · simp [hle]
  -- by the voxel of the first atom
  have step : ∀ v ∈ vs, (((row v).flatMap fun n => (ps.filter fun q => decide (key q = v)).flatMap fun p =>
        (ps.filter fun q => decide (key q = n)).map (f p)).filter (fun x => decide (x ≤ s)) : Multiset K) =
      (((ps.filter fun q => decide (key q = v)).flatMap fun p => (ps.map (f p)).filter fun x => decide (x ≤ s) : List K) : Multiset K) := by
    intro v hv
    rw [← Multiset.filter_coe, flatMap_comm, Multiset.filter_coe, List.filter_flatMap, ← Multiset.coe_bind, ← Multiset.coe_bind]
    refine Multiset.bind_congr fun p hp => ?_
    rw [Multiset.mem_coe, List.mem_filter, decide_eq_true_eq] at hp
    obtain ⟨hp, rfl⟩ := hp
    exact inner p hp (hrow _ hv ⟨p, hp, rfl⟩)
  rw [List.filter_flatMap, ← Multiset.coe_bind, Multiset.bind_congr (g := fun v =>
    (((ps.filter fun q => decide (key q = v)).flatMap fun p => (ps.map (f p)).filter fun x => decide (x ≤ s) : List K) : Multiset K))
    (fun v hv => step v hv), Multiset.coe_bind, ← List.flatMap_assoc, ← Multiset.coe_bind, keys_perm _ hvs, List.filter_eq_self.mpr
    (by intro p hp; simpa using hk p hp), Multiset.coe_bind, List.filter_flatMap]

/-! ## Voxels of points -/

theorem axis_floor {u c : K} {N : ℕ} (hc : 0 < c) (h0 : 0 ≤ u) (h1 : u < N * c) :
    ∃ a : ℕ, ⌊u / c⌋ = a ∧ a < N ∧ a * c ≤ u ∧ u < (a + 1) * c := by
  have hf : 0 ≤ ⌊u / c⌋ := Int.floor_nonneg.mpr (div_nonneg h0 hc.le)
  obtain ⟨a, ha⟩ := Int.eq_ofNat_of_zero_le hf
  have e := Int.floor_eq_iff.mp ha
  rw [le_div_iff₀ hc, div_lt_iff₀ hc] at e
  simp only [Int.cast_natCast] at e
  refine ⟨a, ha, ?_, e.1, e.2⟩
  have : (a : K) < N := lt_of_mul_lt_mul_right (e.1.trans_lt h1) hc.le
  exact_mod_cast this

theorem floor_of {u c : K} {a : ℕ} (hc : 0 < c) (h0 : a * c ≤ u) (h1 : u < (a + 1) * c) : ⌊u / c⌋ = a := by
  rw [Int.floor_eq_iff, le_div_iff₀ hc, div_lt_iff₀ hc]
  simpa using ⟨h0, h1⟩

theorem ceil_of {L c : K} {N : ℕ} (h0 : 0 ≤ L) (h : ((N : K) - 1) * c < L ∧ L < N * c) : 0 < c ∧ ⌈L / c⌉.toNat = N := by
  have hc : 0 < c := by linarith
  refine ⟨hc, ?_⟩
  have : ⌈L / c⌉ = (N : ℤ) := by
    rw [Int.ceil_eq_iff, lt_div_iff₀ hc, div_le_iff₀ hc]
    simpa using ⟨h.1, h.2.le⟩
  rw [this]; simp

theorem axis_close {u w c L : K} {N a b : ℕ} {per : Bool} (ha : a < N) (hb : b < N) (hu : a * c ≤ u ∧ u < (a + 1) * c)
    (hw : b * c ≤ w ∧ w < (b + 1) * c) (hc : 0 < c) (hN : per = true → N ≤ 3) (h : sdistAxis per L (u - w) * sdistAxis per L (u - w) ≤ c ^ 2) :
    AxisNear N per a b := by
  unfold AxisNear
  cases per with
  | true =>
    have := hN rfl
    simp only [if_true]
    interval_cases N <;> interval_cases a <;> interval_cases b <;>
      first | exact ⟨0, by decide, by decide⟩ | exact ⟨1, by decide, by decide⟩ | exact ⟨-1, by decide, by decide⟩
  | false =>
    simp only [sdistAxis, Bool.false_eq_true, if_false] at h ⊢
    rw [abs_mul_abs_self, ← sq] at h
    replace h := abs_le.mp (abs_le_of_sq_le_sq h hc.le)
    have h1 : (a : K) < b + 2 := lt_of_mul_lt_mul_right (by nlinarith [h.2]) hc.le
    have h2 : (b : K) < a + 2 := lt_of_mul_lt_mul_right (by nlinarith [h.1]) hc.le
    have h1 : a < b + 2 := by exact_mod_cast h1
    have h2 : b < a + 2 := by exact_mod_cast h2
    exact ⟨(b : ℤ) - a, by omega, by omega⟩

theorem calcRdf_eq (c : K) (px py pz : Bool) (ps : List (V3 K)) (L m : V3 K) (hL : IsExtent ps L) (hm : IsLower ps m) :
    (calcRdf c px py pz ps).2 = (do
      let f ← getSdistFun (some L) px py pz
      let N := numVox c L
      pairs c N (ps.map (· - m)) px py pz f (N.1 * N.2.1 * N.2.2) 0) ∧
    ∀ q ∈ ps.map (· - m), 0 ≤ q.x ∧ q.x ≤ L.x ∧ 0 ≤ q.y ∧ q.y ≤ L.y ∧ 0 ≤ q.z ∧ q.z ≤ L.z := by
  cases ps with
  | nil => obtain ⟨⟨⟨p, hp, -⟩, -⟩, -⟩ := hL; cases hp
  | cons p ps =>
    have hme : m = minV p ps := by
      obtain ⟨h, hx, hy, hz⟩ := minV_spec p ps
      refine V3.ext ?_ ?_ ?_
      · exact hm.1.unique ⟨hx, by rintro _ ⟨q, hq, rfl⟩; exact (h q hq).1⟩
      · exact hm.2.1.unique ⟨hy, by rintro _ ⟨q, hq, rfl⟩; exact (h q hq).2.1⟩
      · exact hm.2.2.unique ⟨hz, by rintro _ ⟨q, hq, rfl⟩; exact (h q hq).2.2⟩
    have hbox : ∀ q ∈ (p :: ps).map (· - m), 0 ≤ q.x ∧ q.x ≤ L.x ∧ 0 ≤ q.y ∧ q.y ≤ L.y ∧ 0 ≤ q.z ∧ q.z ≤ L.z := by
      intro q hq
      obtain ⟨r, hr, rfl⟩ := List.mem_map.mp hq
      obtain ⟨⟨sx, hsx, ex⟩, lx⟩ := hm.1
      obtain ⟨⟨sy, hsy, ey⟩, ly⟩ := hm.2.1
      obtain ⟨⟨sz, hsz, ez⟩, lz⟩ := hm.2.2
      simp only [V3.sub_x, V3.sub_y, V3.sub_z]
      refine ⟨sub_nonneg.mpr (lx ⟨r, hr, rfl⟩), hL.1.2 ⟨r, hr, sx, hsx, by rw [ex]⟩, sub_nonneg.mpr (ly ⟨r, hr, rfl⟩),
        hL.2.1.2 ⟨r, hr, sy, hsy, by rw [ey]⟩, sub_nonneg.mpr (lz ⟨r, hr, rfl⟩), hL.2.2.2 ⟨r, hr, sz, hsz, by rw [ez]⟩⟩
    refine ⟨?_, hbox⟩
    have hLe : maxV (p - m) (ps.map (· - m)) = L := by
      obtain ⟨M, ⟨qx, hqx, ex⟩, ⟨qy, hqy, ey⟩, ⟨qz, hqz, ez⟩⟩ := maxV_spec (p - m) (ps.map (· - m))
      have hmap : (p - m) :: ps.map (· - m) = (p :: ps).map (· - m) := rfl
      rw [hmap] at M hqx hqy hqz
      obtain ⟨⟨⟨p1, hp1, q1, hq1, e1⟩, -⟩, ⟨⟨p2, hp2, q2, hq2, e2⟩, -⟩, ⟨⟨p3, hp3, q3, hq3, e3⟩, -⟩⟩ := hL
      refine V3.ext ?_ ?_ ?_
      · refine le_antisymm (ex ▸ (hbox _ hqx).2.1) (le_trans ?_ (M _ (List.mem_map_of_mem hp1)).1)
        have := hm.1.2 ⟨q1, hq1, rfl⟩
        rw [e1]; simp only [V3.sub_x]; linarith
      · refine le_antisymm (ey ▸ (hbox _ hqy).2.2.2.1) (le_trans ?_ (M _ (List.mem_map_of_mem hp2)).2.1)
        have := hm.2.1.2 ⟨q2, hq2, rfl⟩
        rw [e2]; simp only [V3.sub_y]; linarith
      · refine le_antisymm (ez ▸ (hbox _ hqz).2.2.2.2.2) (le_trans ?_ (M _ (List.mem_map_of_mem hp3)).2.2)
        have := hm.2.2.2 ⟨q3, hq3, rfl⟩
        rw [e3]; simp only [V3.sub_z]; linarith
    have hqs : shifted (p :: ps) = (p - m) :: ps.map (· - m) := by rw [hme]; rfl
    unfold calcRdf
    simp only [hqs]
    rw [hLe]
    rfl

theorem pairs_eq (c : K) (nx ny nz : ℕ) (qs : List (V3 K)) (px py pz : Bool) (f : V3 K → V3 K → K)
    (hr : ∀ q ∈ qs, ∃ v : ℕ, v < nx * ny * nz ∧ boxIdx c nx ny q = v)
    (hi : ∀ i < nx * ny * nz, ∃ p, qs[i]? = some p ∧ ((∃ q ∈ qs, boxIdx c nx ny q = i) → boxIdx c nx ny p = i)) :
    ∀ k i, i + k ≤ nx * ny * nz → pairs c (nx, ny, nz) qs px py pz f k i = .ok ((List.range' i k).flatMap fun v =>
      (Grid.row nx ny nz px py pz v).flatMap fun n => (parts c nx ny qs v).flatMap fun p => (parts c nx ny qs n).map (f p)) := by
  intro k
  induction k with
  | zero => intro i _; rfl
  | succ k ih =>
    intro i hik
    obtain ⟨p, hp, hpi⟩ := hi i (by omega)
    obtain ⟨v, hv, hpv⟩ := hr p (List.mem_of_getElem? hp)
    have h1 : pyGet (qs.map (boxIdx c nx ny)) i = .ok (v : ℤ) := by
      unfold pyGet
      rw [List.getElem?_map, hp, Option.map_some, hpv]
    have h2 : pyGet (Grid.grid nx ny nz px py pz) (v : ℤ).toNat = .ok (Grid.row nx ny nz px py pz v) := by
      unfold pyGet
      rw [Int.toNat_natCast, ((Grid.C57_shape nx ny nz px py pz).2 v hv).1]
    simp only [pairs, bind, Except.bind, pure, Except.pure]
    rw [h1]
    simp only
    rw [h2, ih (i + 1) (by omega)]
    simp only [List.range'_succ, List.flatMap_cons]
    congr 2
    by_cases hex : ∃ q ∈ qs, boxIdx c nx ny q = i
    · have : v = i := by have := hpi hex; rw [hpv] at this; exact_mod_cast this
      rw [this]
    · have : parts c nx ny qs i = [] := by
        unfold parts
        rw [List.filter_eq_nil_iff]
        intro q hq hd
        exact hex ⟨q, hq, by simpa using hd⟩
      rw [this]
      have e : ∀ l : List ℤ, (l.flatMap fun n => ([] : List (V3 K)).flatMap fun p => (parts c nx ny qs n).map (f p)) = [] := by
        intro l; simp
      rw [e, e]

/-- **C59 (partial).** Boxes of several voxels.  Let the box of the points be not flat and no multiple of the cutoff along any axis,
with `nx`, `ny`, `nz` voxels; at most three along periodic axes, and exactly three along each when all are periodic.  Suppose
that for each voxel that holds an atom, the atom with the number of that voxel lies in it, and that there are at least as many
atoms as voxels.  Then every ordered pair of atoms whose minimum-image distance is at most the cutoff enters the histogram exactly
once, at that distance.  Missing: lists in another order (`C59_index_refuted`, `C59_missed_refuted`), more than three voxels along
a periodic axis (`C59_wrap_refuted`), boxes that are a multiple of the cutoff (`C59_multiple_refuted`). -/
theorem C59_voxels_partial (c : K) (px py pz : Bool) (ps : List (V3 K)) (L m : V3 K) (nx ny nz : ℕ) (hL : IsExtent ps L) (hm : IsLower ps m)
    (hx : ((nx : K) - 1) * c < L.x ∧ L.x < nx * c) (hy : ((ny : K) - 1) * c < L.y ∧ L.y < ny * c)
    (hz : ((nz : K) - 1) * c < L.z ∧ L.z < nz * c)
    (hp : (px = true → nx ≤ 3) ∧ (py = true → ny ≤ 3) ∧ (pz = true → nz ≤ 3)) (h3 : px ∧ py ∧ pz → nx = 3 ∧ ny = 3 ∧ nz = 3)
    (hi : ∀ i < nx * ny * nz, ∃ p, ps[i]? = some p ∧ ((∃ q ∈ ps, InVoxel c nx ny m q i) → InVoxel c nx ny m p i)) :
    ∃ (xs : List K) (d : V3 K → V3 K → K), (∀ p ∈ ps, ∀ q ∈ ps, IsLeast (imageDistances L px py pz p q) (d p q)) ∧
      (calcRdf c px py pz ps).2 = .ok xs ∧
      (xs.filter fun x => decide (x ≤ c ^ 2)).Perm ((ps.flatMap fun p => ps.map (d p)).filter fun x => decide (x ≤ c ^ 2)) := by
  obtain ⟨heq, hbox⟩ := calcRdf_eq c px py pz ps L m hL hm
  have hne : ∃ p, p ∈ ps := by obtain ⟨⟨⟨p, hp, -⟩, -⟩, -⟩ := hL; exact ⟨p, hp⟩
  obtain ⟨p0, hp0⟩ := hne
  have hb0 := hbox _ (List.mem_map_of_mem (f := (· - m)) hp0)
  obtain ⟨hc, ex⟩ := ceil_of (hb0.1.trans hb0.2.1) hx
  obtain ⟨-, ey⟩ := ceil_of (hb0.2.2.1.trans hb0.2.2.2.1) hy
  obtain ⟨-, ez⟩ := ceil_of (hb0.2.2.2.2.1.trans hb0.2.2.2.2.2) hz
  have hN : numVox c L = (nx, ny, nz) := by unfold numVox; rw [ex, ey, ez]
  rw [hN] at heq
  -- voxels of points
  have vox : ∀ q ∈ ps.map (· - m), ∃ a b e : ℕ, a < nx ∧ b < ny ∧ e < nz ∧ boxIdx c nx ny q = ((a + nx * b + nx * ny * e : ℕ) : ℤ) ∧
      (a * c ≤ q.x ∧ q.x < (a + 1) * c) ∧ (b * c ≤ q.y ∧ q.y < (b + 1) * c) ∧ (e * c ≤ q.z ∧ q.z < (e + 1) * c) := by
    intro q hq
    obtain ⟨x0, x1, y0, y1, z0, z1⟩ := hbox q hq
    obtain ⟨a, fa, ha, a1, a2⟩ := axis_floor hc x0 (x1.trans_lt hx.2)
    obtain ⟨b, fb, hb, b1, b2⟩ := axis_floor hc y0 (y1.trans_lt hy.2)
    obtain ⟨e, fe, he, e1, e2⟩ := axis_floor hc z0 (z1.trans_lt hz.2)
    refine ⟨a, b, e, ha, hb, he, ?_, ⟨a1, a2⟩, ⟨b1, b2⟩, e1, e2⟩
    unfold boxIdx
    rw [fa, fb, fe]; push_cast; ring
  have inv : ∀ p ∈ ps, ∀ i < nx * ny * nz, (InVoxel c nx ny m p i ↔ boxIdx c nx ny (p - m) = i) := by
    intro p hp i hlt
    obtain ⟨d1, d2, d3, d4⟩ := Grid.decode hlt
    constructor
    · rintro ⟨⟨a1, a2⟩, ⟨b1, b2⟩, e1, e2⟩
      unfold boxIdx
      simp only [V3.sub_x, V3.sub_y, V3.sub_z]
      rw [floor_of hc a1 a2, floor_of hc b1 b2, floor_of hc e1 e2]
      conv_rhs => rw [d4]
      push_cast; ring
    · intro h
      obtain ⟨a, b, e, ha, hb, he, hk, hq⟩ := vox (p - m) (List.mem_map_of_mem hp)
      rw [h] at hk
      have hk : i = a + nx * b + nx * ny * e := by exact_mod_cast hk
      obtain ⟨-, g1, g2, g3⟩ := Grid.encode ha hb he
      rw [← hk] at g1 g2 g3
      unfold InVoxel
      rw [g1, g2, g3]
      exact hq
  have hpairs := fun f => pairs_eq c nx ny nz (ps.map (· - m)) px py pz f
    (by
      intro q hq
      obtain ⟨a, b, e, ha, hb, he, hk, -⟩ := vox q hq
      exact ⟨_, (Grid.encode ha hb he).1, hk⟩)
    (by
      intro i hlt
      obtain ⟨p, hp, hpi⟩ := hi i hlt
      refine ⟨p - m, by rw [List.getElem?_map, hp]; rfl, ?_⟩
      rintro ⟨q, hq, hk⟩
      obtain ⟨r, hr, rfl⟩ := List.mem_map.mp hq
      exact (inv p (List.mem_of_getElem? hp) i hlt).mp (hpi ⟨r, hr, (inv r hr i hlt).mpr hk⟩))
    (nx * ny * nz) 0 (by omega)
  obtain ⟨f, hf, -⟩ := C58_box_partial L px py pz (p0 - m) (p0 - m) hb0 hb0
  rw [hf] at heq
  refine ⟨_, fun a b => f (a - m) (b - m), ?_, heq.trans (hpairs f), ?_⟩
  · intro a ha b hb
    obtain ⟨f', hf', hl⟩ := C58_box_partial L px py pz (a - m) (b - m) (hbox _ (List.mem_map_of_mem ha)) (hbox _ (List.mem_map_of_mem hb))
    have : f' = f := Except.ok.inj (hf'.symm.trans hf)
    subst this
    have : imageDistances L px py pz (a - m) (b - m) = imageDistances L px py pz a b := by
      unfold imageDistances
      ext s
      simp only [Set.mem_ofPred_eq, V3.sub_x, V3.sub_y, V3.sub_z]
      refine exists_congr fun i => exists_congr fun j => exists_congr fun k => ?_
      rw [show a.x - m.x - (b.x - m.x + i * L.x) = a.x - (b.x + i * L.x) by ring,
        show a.y - m.y - (b.y - m.y + j * L.y) = a.y - (b.y + j * L.y) by ring,
        show a.z - m.z - (b.z - m.z + k * L.z) = a.z - (b.z + k * L.z) by ring]
    rwa [this] at hl
  · have hfd : f = fun a b => sdistAxis px L.x (a.x - b.x) * sdistAxis px L.x (a.x - b.x) +
        sdistAxis py L.y (a.y - b.y) * sdistAxis py L.y (a.y - b.y) + sdistAxis pz L.z (a.z - b.z) * sdistAxis pz L.z (a.z - b.z) :=
      (Except.ok.inj hf).symm
    have hrow := loop_perm (ps.map (· - m)) (boxIdx c nx ny) ((List.range' 0 (nx * ny * nz)).map Nat.cast)
      ((List.nodup_range').map Nat.cast_injective)
      (by
        intro q hq
        obtain ⟨a, b, e, ha, hb, he, hk, -⟩ := vox q hq
        rw [hk]
        refine List.mem_map_of_mem ?_
        rw [List.mem_range'_1]
        exact ⟨Nat.zero_le _, by have := (Grid.encode ha hb he).1; omega⟩)
      (fun v => Grid.row nx ny nz px py pz v.toNat)
      (by
        intro v hv _
        obtain ⟨u, hu, rfl⟩ := List.mem_map.mp hv
        rw [List.mem_range'_1] at hu
        simp only [Int.toNat_natCast]
        refine (Grid.C57_once nx ny nz px py pz u (by omega)).mpr fun h => ?_
        obtain ⟨h1, h2, h3⟩ := h3 h
        omega)
      f (c ^ 2)
      (by
        intro p hp' q hq hle
        obtain ⟨a, b, e, ha, hb, he, hk, hpx, hpy, hpz⟩ := vox p hp'
        obtain ⟨a', b', e', ha', hb', he', hk', hqx, hqy, hqz⟩ := vox q hq
        obtain ⟨v1, v2, v3, v4⟩ := Grid.encode ha hb he
        obtain ⟨w1, w2, w3, w4⟩ := Grid.encode ha' hb' he'
        rw [hk, hk', Int.toNat_natCast, Grid.C57_neighbours _ _ _ _ _ _ _ v1]
        refine ⟨_, rfl, w1, ?_⟩
        unfold VoxelNear
        rw [v2, v3, v4, w2, w3, w4]
        rw [hfd] at hle
        simp only at hle
        have n1 := mul_self_nonneg (sdistAxis px L.x (p.x - q.x))
        have n2 := mul_self_nonneg (sdistAxis py L.y (p.y - q.y))
        have n3 := mul_self_nonneg (sdistAxis pz L.z (p.z - q.z))
        exact ⟨axis_close ha ha' hpx hqx hc hp.1 (by linarith), axis_close hb hb' hpy hqy hc hp.2.1 (by linarith),
          axis_close he he' hpz hqz hc hp.2.2 (by linarith)⟩)
    rw [← Multiset.coe_eq_coe]
    rw [List.flatMap_map] at hrow
    simp only [Int.toNat_natCast] at hrow
    refine Eq.trans hrow ?_
    rw [List.flatMap_map]
    simp only [List.map_map]
    rfl

/-! ## When calc_rdf returns -/

theorem pairs_returns (c : K) (nx ny nz : ℕ) (qs : List (V3 K)) (px py pz : Bool) (f : V3 K → V3 K → K)
    (hr : ∀ q ∈ qs, ∃ v : ℕ, v < nx * ny * nz ∧ boxIdx c nx ny q = v) :
    ∀ k i, (i + k ≤ qs.length → ∃ xs, pairs c (nx, ny, nz) qs px py pz f k i = .ok xs) ∧
      (i ≤ qs.length → qs.length < i + k → pairs c (nx, ny, nz) qs px py pz f k i = .error .index) := by
  intro k
  induction k with
  | zero => intro i; exact ⟨fun _ => ⟨_, rfl⟩, fun h1 h2 => by omega⟩
  | succ k ih =>
    intro i
    simp only [pairs, bind, Except.bind, pure, Except.pure]
    by_cases hlt : i < qs.length
    · obtain ⟨v, hv, hpv⟩ := hr qs[i] (List.getElem_mem hlt)
      have h1 : pyGet (qs.map (boxIdx c nx ny)) i = .ok (v : ℤ) := by
        unfold pyGet
        rw [List.getElem?_map, List.getElem?_eq_getElem hlt, Option.map_some, hpv]
      have h2 : pyGet (Grid.grid nx ny nz px py pz) (v : ℤ).toNat = .ok (Grid.row nx ny nz px py pz v) := by
        unfold pyGet
        rw [Int.toNat_natCast, ((Grid.C57_shape nx ny nz px py pz).2 v hv).1]
      rw [h1]
      simp only
      rw [h2]
      simp only
      constructor
      · intro h
        obtain ⟨xs, hxs⟩ := (ih (i + 1)).1 (by omega)
        rw [hxs]
        exact ⟨_, rfl⟩
      · intro _ h
        rw [(ih (i + 1)).2 (by omega) (by omega)]
    · constructor
      · intro h; omega
      · intro _ _
        have h1 : pyGet (qs.map (boxIdx c nx ny)) i = .error .index := by
          unfold pyGet
          rw [List.getElem?_eq_none (by rw [List.length_map]; omega)]
        rw [h1]

theorem boxIdx_range (c : K) (ps : List (V3 K)) (L m : V3 K) (nx ny nz : ℕ) (hL : IsExtent ps L) (hm : IsLower ps m)
    (hx : ((nx : K) - 1) * c < L.x ∧ L.x < nx * c) (hy : ((ny : K) - 1) * c < L.y ∧ L.y < ny * c)
    (hz : ((nz : K) - 1) * c < L.z ∧ L.z < nz * c) :
    numVox c L = (nx, ny, nz) ∧ ∀ q ∈ ps.map (· - m), ∃ v : ℕ, v < nx * ny * nz ∧ boxIdx c nx ny q = v := by
  obtain ⟨-, hbox⟩ := calcRdf_eq c false false false ps L m hL hm
  have hne : ∃ p, p ∈ ps := by obtain ⟨⟨⟨p, hp, -⟩, -⟩, -⟩ := hL; exact ⟨p, hp⟩
  obtain ⟨p0, hp0⟩ := hne
  have hb0 := hbox _ (List.mem_map_of_mem (f := (· - m)) hp0)
  obtain ⟨hc, ex⟩ := ceil_of (hb0.1.trans hb0.2.1) hx
  obtain ⟨-, ey⟩ := ceil_of (hb0.2.2.1.trans hb0.2.2.2.1) hy
  obtain ⟨-, ez⟩ := ceil_of (hb0.2.2.2.2.1.trans hb0.2.2.2.2.2) hz
  refine ⟨by unfold numVox; rw [ex, ey, ez], fun q hq => ?_⟩
  obtain ⟨x0, x1, y0, y1, z0, z1⟩ := hbox q hq
  obtain ⟨a, fa, ha, -⟩ := axis_floor hc x0 (x1.trans_lt hx.2)
  obtain ⟨b, fb, hb, -⟩ := axis_floor hc y0 (y1.trans_lt hy.2)
  obtain ⟨e, fe, he, -⟩ := axis_floor hc z0 (z1.trans_lt hz.2)
  refine ⟨_, (Grid.encode ha hb he).1, ?_⟩
  unfold boxIdx
  rw [fa, fb, fe]; push_cast; ring

/-- **C59 (returns).** In a box of `nx` × `ny` × `nz` voxels, not flat and no multiple of the cutoff along any axis, `calc_rdf` returns exactly
if there are at least as many atoms as voxels; otherwise it raises IndexError. -/
theorem C59_returns_iff (c : K) (px py pz : Bool) (ps : List (V3 K)) (L : V3 K) (nx ny nz : ℕ) (hL : IsExtent ps L)
    (hx : ((nx : K) - 1) * c < L.x ∧ L.x < nx * c) (hy : ((ny : K) - 1) * c < L.y ∧ L.y < ny * c)
    (hz : ((nz : K) - 1) * c < L.z ∧ L.z < nz * c) :
    ((∃ xs, (calcRdf c px py pz ps).2 = .ok xs) ↔ nx * ny * nz ≤ ps.length) ∧
      (ps.length < nx * ny * nz → (calcRdf c px py pz ps).2 = .error .index) := by
  obtain ⟨m, -, hm⟩ := C59_input_shifted c px py pz ps (by rintro rfl; obtain ⟨⟨⟨p, hp, -⟩, -⟩, -⟩ := hL; cases hp)
  have hm : IsLower ps m := hm
  obtain ⟨heq, -⟩ := calcRdf_eq c px py pz ps L m hL hm
  obtain ⟨hN, hr⟩ := boxIdx_range c ps L m nx ny nz hL hm hx hy hz
  rw [hN] at heq
  have hlen : (ps.map (· - m)).length = ps.length := List.length_map ..
  have key := pairs_returns c nx ny nz (ps.map (· - m)) px py pz
    (fun a b => sdistAxis px L.x (a.x - b.x) * sdistAxis px L.x (a.x - b.x) +
        sdistAxis py L.y (a.y - b.y) * sdistAxis py L.y (a.y - b.y) + sdistAxis pz L.z (a.z - b.z) * sdistAxis pz L.z (a.z - b.z))
    hr (nx * ny * nz) 0
  rw [hlen] at key
  have hfail : ps.length < nx * ny * nz → (calcRdf c px py pz ps).2 = .error .index :=
    fun h => heq.trans (key.2 (Nat.zero_le _) (by omega))
  refine ⟨⟨?_, ?_⟩, hfail⟩
  · rintro ⟨xs, hxs⟩
    by_contra h
    rw [hfail (by omega)] at hxs
    cases hxs
  · intro h
    obtain ⟨xs, hxs⟩ := key.1 (by omega)
    exact ⟨xs, heq.trans hxs⟩

/-- **C59 (exceptions).** The empty list raises ValueError; with atoms, nothing but IndexError is ever raised. -/
theorem C59_exceptions (c : K) (px py pz : Bool) (ps : List (V3 K)) (e : PyErr) (h : (calcRdf c px py pz ps).2 = .error e) :
    e = if ps = [] then .value else .index := by
  cases ps with
  | nil => cases h; rfl
  | cons p ps =>
    rw [if_neg (by simp)]
    have key : ∀ (N : ℕ × ℕ × ℕ) (qs : List (V3 K)) (f : V3 K → V3 K → K) (k i : ℕ) (e : PyErr),
        pairs c N qs px py pz f k i = .error e → e = .index := by
      intro N qs f k
      induction k with
      | zero => intro i e h; cases h
      | succ k ih =>
        intro i e h
        have hget : ∀ {α : Type} (l : List α) (i : ℕ) (e : PyErr), pyGet l i = .error e → e = .index := by
          intro α l i e h
          unfold pyGet at h
          split at h
          · cases h
          · cases h; rfl
        simp only [pairs, bind, Except.bind, pure, Except.pure] at h
        split at h
        · rename_i e' he'
          cases h; exact hget _ _ _ he'
        split at h
        · rename_i e' he'
          cases h; exact hget _ _ _ he'
        split at h
        · rename_i e' he'
          cases h; exact ih _ _ he'
        · cases h
    unfold calcRdf at h
    simp only [getSdistFun, bind, Except.bind] at h
    exact key _ _ _ _ _ _ h

/-- Three atoms in a box of two voxels. -/
example : ∃ (xs : List ℚ) (d : V3 ℚ → V3 ℚ → ℚ), (∀ p ∈ [(⟨0, 0, 0⟩ : V3 ℚ), ⟨3, 1, 1⟩, ⟨1, 1, 0⟩], ∀ q ∈ [(⟨0, 0, 0⟩ : V3 ℚ), ⟨3, 1, 1⟩, ⟨1, 1, 0⟩],
      IsLeast (imageDistances ⟨3, 1, 1⟩ false false false p q) (d p q)) ∧
    (calcRdf 2 false false false [(⟨0, 0, 0⟩ : V3 ℚ), ⟨3, 1, 1⟩, ⟨1, 1, 0⟩]).2 = .ok xs ∧
    (xs.filter fun x => decide (x ≤ 2 ^ 2)).Perm (([(⟨0, 0, 0⟩ : V3 ℚ), ⟨3, 1, 1⟩, ⟨1, 1, 0⟩].flatMap fun p =>
      [(⟨0, 0, 0⟩ : V3 ℚ), ⟨3, 1, 1⟩, ⟨1, 1, 0⟩].map (d p)).filter fun x => decide (x ≤ 2 ^ 2)) := C59_voxels_partial (K := ℚ) 2 false false false [⟨0, 0, 0⟩, ⟨3, 1, 1⟩, ⟨1, 1, 0⟩] ⟨3, 1, 1⟩ ⟨0, 0, 0⟩ 2 1 1
    (by
      refine ⟨⟨⟨⟨3, 1, 1⟩, by simp, ⟨0, 0, 0⟩, by simp, by norm_num⟩, ?_⟩, ⟨⟨⟨3, 1, 1⟩, by simp, ⟨0, 0, 0⟩, by simp, by norm_num⟩, ?_⟩,
        ⟨⟨⟨3, 1, 1⟩, by simp, ⟨0, 0, 0⟩, by simp, by norm_num⟩, ?_⟩⟩ <;>
      · rintro _ ⟨p, hp, q, hq, rfl⟩
        simp only [List.mem_cons, List.not_mem_nil, or_false] at hp hq
        rcases hp with rfl | rfl | rfl <;> rcases hq with rfl | rfl | rfl <;> norm_num)
    (by
      refine ⟨⟨⟨⟨0, 0, 0⟩, by simp, rfl⟩, ?_⟩, ⟨⟨⟨0, 0, 0⟩, by simp, rfl⟩, ?_⟩, ⟨⟨⟨0, 0, 0⟩, by simp, rfl⟩, ?_⟩⟩ <;>
      · rintro _ ⟨p, hp, rfl⟩
        simp only [List.mem_cons, List.not_mem_nil, or_false] at hp
        rcases hp with rfl | rfl | rfl <;> norm_num)
    (by norm_num) (by norm_num) (by norm_num) (by simp) (by simp)
    (by
      intro i hi
      have : i = 0 ∨ i = 1 := by omega
      rcases this with rfl | rfl
      · exact ⟨_, rfl, fun _ => by norm_num [InVoxel]⟩
      · exact ⟨_, rfl, fun _ => by norm_num [InVoxel]⟩)

end

/-- **C59, finding (periodic boxes).** Four voxels along a periodic axis, one atom in each, in order: the third atom is 1 away from the
first around the box, but the last voxel is narrow, so their voxels are no neighbours, and the pair is not counted. -/
theorem C59_wrap_refuted :
    ∃ xs, (calcRdf (2 : ℚ) true false false [⟨0, 0, 0⟩, ⟨3, 0, 1⟩, ⟨11 / 2, 0, 0⟩, ⟨13 / 2, 1, 1⟩]).2 = .ok xs ∧ 1 ∉ xs :=
  ⟨[2, 0, 10, 10, 0, 29 / 4, 29 / 4, 0, 3, 3, 0, 2], by decide +kernel, by decide +kernel⟩

/-- **C59, finding (multiples of the cutoff).** A box twice as long as the cutoff: the atoms at its upper end belong to no voxel and are not
counted, not even with the atom at squared distance 1. -/
theorem C59_multiple_refuted : ∃ xs, (calcRdf (2 : ℚ) false false false [⟨0, 1, 0⟩, ⟨3, 0, 1⟩, ⟨4, 0, 1⟩]).2 = .ok xs ∧ 1 ∉ xs :=
  ⟨[0, 11, 11, 0], by decide +kernel, by decide +kernel⟩

noncomputable section
open Classical

/-- **C112 (bins, partial).** The same for boxes of several voxels as in `C59_voxels_partial`: the first entry of the array is zero and entry
`i` is the number of ordered pairs of points whose minimum-image distance lies in bin `i` (the last bin includes the cutoff). -/
theorem C112_voxels_partial (c : ℝ) (hc : 1 / 10 ≤ c) (px py pz : Bool) (ps : List (V3 ℝ)) (L m : V3 ℝ) (nx ny nz : ℕ) (hL : IsExtent ps L)
    (hm : IsLower ps m) (hx : ((nx : ℝ) - 1) * c < L.x ∧ L.x < nx * c) (hy : ((ny : ℝ) - 1) * c < L.y ∧ L.y < ny * c)
    (hz : ((nz : ℝ) - 1) * c < L.z ∧ L.z < nz * c)
    (hp : (px = true → nx ≤ 3) ∧ (py = true → ny ≤ 3) ∧ (pz = true → nz ≤ 3)) (h3 : px ∧ py ∧ pz → nx = 3 ∧ ny = 3 ∧ nz = 3)
    (hi : ∀ i < nx * ny * nz, ∃ p, ps[i]? = some p ∧ ((∃ q ∈ ps, InVoxel c nx ny m q i) → InVoxel c nx ny m p i)) :
    ∃ (n : ℕ) (cs : List ℕ) (s : V3 ℝ → V3 ℝ → ℝ), 0 < n ∧ calcRdfCounts c px py pz ps = .ok cs ∧ cs.length = n ∧
      (∀ p ∈ ps, ∀ q ∈ ps, 0 ≤ s p q ∧ IsLeast (imageDistances L px py pz p q) (s p q ^ 2)) ∧
      ∀ i, i < n → cs[i]? = some (if i = 0 then 0 else pairCount ps fun p q =>
        i * (c / n) ≤ s p q ∧ (s p q < (i + 1) * (c / n) ∨ (s p q = c ∧ i + 1 = n))) := by
  obtain ⟨xs, d, hd, hr, hperm⟩ := C59_voxels_partial c px py pz ps L m nx ny nz hL hm hx hy hz hp h3 hi
  have hn := numBins_pos hc
  have hc0 : 0 < c := by linarith
  have hnn : ∀ p ∈ ps, ∀ q ∈ ps, 0 ≤ d p q := by
    intro p hp q hq
    obtain ⟨i, j, k, -, -, -, e⟩ := (hd p hp q hq).1
    rw [e]; positivity
  refine ⟨numBins c, histogram c (numBins c) xs, fun p q => Real.sqrt (d p q), hn, ?_, ?_, ?_, ?_⟩
  · unfold calcRdfCounts
    rw [hr]
    simp [hn.ne']
  · simp [histogram]
  · intro p hp q hq
    refine ⟨Real.sqrt_nonneg _, ?_⟩
    rw [Real.sq_sqrt (hnn p hp q hq)]
    exact hd p hp q hq
  · intro i hi
    unfold histogram
    rw [List.getElem?_map, List.getElem?_range hi, Option.map_some]
    by_cases h0 : i = 0
    · simp [h0]
    rw [if_neg h0, if_neg h0, Option.some.injEq]
    -- only distances up to the cutoff are binned
    have hcut : ∀ l : List ℝ, l.countP (fun s => decide (binOf c (numBins c) (Real.sqrt s) = some i)) =
        (l.filter fun x => decide (x ≤ c ^ 2)).countP fun s => decide (binOf c (numBins c) (Real.sqrt s) = some i) := by
      intro l
      rw [List.countP_filter]
      refine List.countP_congr fun s _ => ?_
      rw [Bool.and_eq_true, decide_eq_true_eq, decide_eq_true_eq]
      refine ⟨fun h => ⟨h, ?_⟩, fun h => h.1⟩
      have hb : Real.sqrt s ≤ c := by
        unfold binOf at h
        split at h
        · rename_i h'; exact h'.2.le
        · split at h
          · rename_i h'; exact h'.le
          · cases h
      exact (Real.sqrt_le_left hc0.le).mp hb
    rw [hcut, hperm.countP_eq, ← hcut]
    unfold pairCount
    rw [List.countP_flatMap]
    congr 1
    refine List.map_congr_left fun p hp => ?_
    rw [Function.comp_apply, List.countP_map]
    refine List.countP_congr fun q hq => ?_
    rw [Function.comp_apply, decide_eq_true_eq, decide_eq_true_eq, binOf_iff hc0 hn (Real.sqrt_nonneg _)]
    constructor
    · rintro ⟨-, h⟩; exact h
    · intro h; exact ⟨hi, h⟩

end

end Rdf
end CZ
