import Verif.Measure
import Verif.Spec.Measure
import Mathlib.Tactic.Ring
import Mathlib.Tactic.Linarith
import Mathlib.Tactic.LinearCombination
import Mathlib.Tactic.FieldSimp
import Mathlib.Tactic.IntervalCases
import Mathlib.Order.Bounds.Basic

/-!
# Properties C57-C59: voxel grid, periodic distance, radial distribution
-/

set_option linter.unusedSectionVars false

namespace CZ
open Spec

namespace Grid

/-! ## C57 -/

theorem decode {nx ny nz v : ℕ} (h : v < nx * ny * nz) :
    v % nx < nx ∧ v / nx % ny < ny ∧ v / (nx * ny) < nz ∧ v = v % nx + nx * (v / nx % ny) + nx * ny * (v / (nx * ny)) := by
  have hx : 0 < nx := Nat.pos_of_ne_zero (by rintro rfl; simp at h)
  have hy : 0 < ny := Nat.pos_of_ne_zero (by rintro rfl; simp at h)
  refine ⟨Nat.mod_lt _ hx, Nat.mod_lt _ hy, Nat.div_lt_of_lt_mul h, ?_⟩
  have h1 := Nat.mod_add_div v nx
  have h2 := Nat.mod_add_div (v / nx) ny
  rw [Nat.div_div_eq_div_mul] at h2
  calc v = v % nx + nx * (v / nx) := h1.symm
    _ = v % nx + nx * (v / nx % ny + ny * (v / (nx * ny))) := by rw [h2]
    _ = _ := by ring

theorem encode {nx ny nz a b c : ℕ} (ha : a < nx) (hb : b < ny) (hc : c < nz) :
    a + nx * b + nx * ny * c < nx * ny * nz ∧ (a + nx * b + nx * ny * c) % nx = a ∧ (a + nx * b + nx * ny * c) / nx % ny = b ∧
      (a + nx * b + nx * ny * c) / (nx * ny) = c := by
  have e : a + nx * b + nx * ny * c = a + nx * (b + ny * c) := by ring
  have hx : 0 < nx := by omega
  have h1 : (a + nx * b + nx * ny * c) / nx = b + ny * c := by
    rw [e, Nat.add_mul_div_left _ _ hx, Nat.div_eq_of_lt ha, zero_add]
  refine ⟨?_, ?_, ?_, ?_⟩
  · have h2 : nx * ny * (c + 1) ≤ nx * ny * nz := Nat.mul_le_mul_left _ hc
    have h3 : nx * (b + 1) ≤ nx * ny := Nat.mul_le_mul_left _ hb
    nlinarith
  · rw [e, Nat.add_mul_mod_self_left, Nat.mod_eq_of_lt ha]
  · rw [h1, Nat.add_mul_mod_self_left, Nat.mod_eq_of_lt hb]
  · rw [← Nat.div_div_eq_div_mul, h1, Nat.add_mul_div_left _ _ (by omega : 0 < ny), Nat.div_eq_of_lt hb, zero_add]

theorem emod_mul {r P t m : ℤ} (hr : 0 ≤ r) (hP : r < P) (hm : 0 < m) : (r + P * t) % (P * m) = r + P * (t % m) := by
  have h1 := Int.emod_add_mul_ediv t m
  have h2 := Int.emod_nonneg t hm.ne'
  have h3 := Int.emod_lt_of_pos t hm
  rw [show r + P * t = r + P * (t % m) + P * m * (t / m) by linear_combination P * (-1 : ℤ) * h1, Int.add_mul_emod_self_left,
    Int.emod_eq_of_lt]
  · have : 0 ≤ P * (t % m) := mul_nonneg (by omega) h2
    omega
  · have : P * (t % m) ≤ P * (m - 1) := mul_le_mul_of_nonneg_left (by omega) (by omega)
    nlinarith

/-- Wrapping a coordinate that is off by one. -/
theorem wrap {n a : ℕ} {d : ℤ} (ha : a < n) (hd : d = -1 ∨ d = 0 ∨ d = 1) :
    ((a : ℤ) + d) % n = a + d + (if a = 0 ∧ d = -1 then (n : ℤ) else 0) - (if (a : ℤ) = n - 1 ∧ d = 1 then (n : ℤ) else 0) := by
  rcases hd with rfl | rfl | rfl
  · by_cases h0 : a = 0
    · subst h0
      rw [if_pos ⟨rfl, rfl⟩, if_neg (by simp), ← Int.add_emod_right, Int.emod_eq_of_lt (by omega) (by omega)]
      ring
    · rw [if_neg (by simp [h0]), if_neg (by simp), Int.emod_eq_of_lt (by omega) (by omega)]
      ring
  · rw [if_neg (by simp), if_neg (by simp), Int.emod_eq_of_lt (by omega) (by omega)]
    ring
  · by_cases h0 : (a : ℤ) = n - 1
    · rw [if_neg (by simp), if_pos ⟨h0, rfl⟩, h0]
      have : ((n : ℤ) - 1 + 1) = n := by ring
      rw [this, Int.emod_self]
      ring
    · rw [if_neg (by simp), if_neg (by simp [h0]), Int.emod_eq_of_lt (by omega) (by omega)]
      ring

theorem nn_cases {j : ℕ} (h : j < 27) : (nnx j = -1 ∨ nnx j = 0 ∨ nnx j = 1) ∧ (nny j = -1 ∨ nny j = 0 ∨ nny j = 1) ∧
    (nnz j = -1 ∨ nnz j = 0 ∨ nnz j = 1) := by
  unfold nnx nny nnz; omega

theorem nn_surj {dx dy dz : ℤ} (hx : dx = -1 ∨ dx = 0 ∨ dx = 1) (hy : dy = -1 ∨ dy = 0 ∨ dy = 1)
    (hz : dz = -1 ∨ dz = 0 ∨ dz = 1) : ∃ j < 27, nnx j = dx ∧ nny j = dy ∧ nnz j = dz := by
  refine ⟨((dx + 1) + 3 * (dy + 1) + 9 * (dz + 1)).toNat, ?_, ?_, ?_, ?_⟩
  · omega
  · unfold nnx; omega
  · unfold nny; omega
  · unfold nnz; omega

theorem entry_eq {nx ny nz a b c j : ℕ} (ha : a < nx) (hb : b < ny) (hc : c < nz) (hj : j < 27) :
    entry nx ny nz (a + nx * b + nx * ny * c) j =
      ((a : ℤ) + nnx j) % nx + nx * (((b : ℤ) + nny j) % ny) + nx * ny * (((c : ℤ) + nnz j) % nz) := by
  obtain ⟨-, e1, e2, e3⟩ := encode ha hb hc
  obtain ⟨hx, hy, hz⟩ := nn_cases hj
  have wx := wrap ha hx
  have wy := wrap hb hy
  have px0 := Int.emod_nonneg ((a : ℤ) + nnx j) (show (nx : ℤ) ≠ 0 by omega)
  have px1 := Int.emod_lt_of_pos ((a : ℤ) + nnx j) (show (0 : ℤ) < nx by omega)
  have py0 := Int.emod_nonneg ((b : ℤ) + nny j) (show (ny : ℤ) ≠ 0 by omega)
  have py1 := Int.emod_lt_of_pos ((b : ℤ) + nny j) (show (0 : ℤ) < ny by omega)
  rw [← emod_mul (r := ((a : ℤ) + nnx j) % nx + nx * (((b : ℤ) + nny j) % ny))]
  · unfold entry
    rw [e1, e2]
    have c1 : (a = 0 ∧ j % 3 = 0) ↔ (a = 0 ∧ nnx j = -1) := by unfold nnx; omega
    have c2 : ((a : ℤ) = nx - 1 ∧ j % 3 = 2) ↔ ((a : ℤ) = nx - 1 ∧ nnx j = 1) := by unfold nnx; omega
    simp only [c1, c2]
    push_cast
    congr 1
    rw [wx, wy]
    split_ifs <;> ring
  · exact add_nonneg px0 (mul_nonneg (by omega) py0)
  · have : (nx : ℤ) * (((b : ℤ) + nny j) % ny) ≤ nx * (ny - 1) := mul_le_mul_of_nonneg_left (by omega) (by omega)
    nlinarith
  · omega

/-- A face is crossed exactly when the shifted coordinate leaves the range. -/
def crosses (n a : ℕ) (d : ℤ) : Prop := (a : ℤ) + d < 0 ∨ (n : ℤ) ≤ a + d

theorem isNan_iff {nx ny nz a b c j : ℕ} {px py pz : Bool} (ha : a < nx) (hb : b < ny) (hc : c < nz) (hj : j < 27) :
    isNan nx ny nz px py pz (a + nx * b + nx * ny * c) j = true ↔
      (px = false ∧ crosses nx a (nnx j)) ∨ (py = false ∧ crosses ny b (nny j)) ∨ (pz = false ∧ crosses nz c (nnz j)) := by
  obtain ⟨-, e1, e2, e3⟩ := encode ha hb hc
  have hX : ((facesX nx (a + nx * b + nx * ny * c) j).any fun c => c.1 && c.2) = true ↔ crosses nx a (nnx j) := by
    unfold facesX crosses nnx
    rw [e1]
    simp only [List.any_cons, List.any_nil, Bool.or_false, Bool.or_eq_true, Bool.and_eq_true, decide_eq_true_eq]
    omega
  have hY : ((facesY nx ny (a + nx * b + nx * ny * c) j).any fun c => c.1 && c.2) = true ↔ crosses ny b (nny j) := by
    unfold facesY crosses nny
    rw [e2]
    simp only [List.any_cons, List.any_nil, Bool.or_false, Bool.or_eq_true, Bool.and_eq_true, decide_eq_true_eq]
    omega
  have hZ : ((facesZ nx ny nz (a + nx * b + nx * ny * c) j).any fun c => c.1 && c.2) = true ↔ crosses nz c (nnz j) := by
    unfold facesZ crosses nnz
    rw [e3]
    simp only [List.any_cons, List.any_nil, Bool.or_false, Bool.or_eq_true, Bool.and_eq_true, decide_eq_true_eq]
    omega
  unfold isNan
  generalize facesX nx (a + nx * b + nx * ny * c) j = X at hX
  generalize facesY nx ny (a + nx * b + nx * ny * c) j = Y at hY
  generalize facesZ nx ny nz (a + nx * b + nx * ny * c) j = Z at hZ
  rw [← hX, ← hY, ← hZ]
  simp only [Bool.or_eq_true, Bool.and_eq_true, List.any_eq_true, Bool.not_eq_true']
  constructor
  · rintro ((((((⟨h, x⟩ | ⟨h, x⟩) | ⟨h, x⟩) | ⟨⟨h, -⟩, x, hx, y, hy, h1, h2⟩) | ⟨⟨h, -⟩, x, hx, y, hy, h1, h2⟩) |
      ⟨⟨h, -⟩, x, hx, y, hy, h1, h2⟩) | ⟨⟨⟨h, -⟩, -⟩, x, hx, y, hy, z, hz, h1, h2⟩)
    · exact .inl ⟨h, x⟩
    · exact .inr (.inl ⟨h, x⟩)
    · exact .inr (.inr ⟨h, x⟩)
    · exact .inl ⟨h, x, hx, h1.1, h2.1⟩
    · exact .inl ⟨h, x, hx, h1.1, h2.1⟩
    · exact .inr (.inl ⟨h, x, hx, h1.1, h2.1⟩)
    · exact .inl ⟨h, x, hx, h1.2, h2.2⟩
  · rintro (h | h | h)
    · exact .inl (.inl (.inl (.inl (.inl (.inl h)))))
    · exact .inl (.inl (.inl (.inl (.inl (.inr h)))))
    · exact .inl (.inl (.inl (.inl (.inr h))))

theorem mem_row {nx ny nz v : ℕ} {px py pz : Bool} {w : ℤ} : w ∈ row nx ny nz px py pz v ↔
    ∃ j < 27, ¬ isNan nx ny nz px py pz v j = true ∧ entry nx ny nz v j = w := by
  unfold row
  split_ifs with h
  · obtain ⟨rfl, rfl, rfl⟩ := h
    rw [List.mem_map]
    simp only [List.mem_range]
    refine exists_congr fun j => and_congr_right fun _ => ?_
    simp [isNan]
  · rw [List.mem_dedup, List.mem_map]
    simp only [List.mem_filter, List.mem_range, and_assoc, Bool.not_eq_true', Bool.not_eq_true]

theorem axis_to {n a : ℕ} {per : Bool} {d : ℤ} (ha : a < n) (hd : d = -1 ∨ d = 0 ∨ d = 1) (h : ¬ (per = false ∧ crosses n a d)) :
    ∃ b : ℕ, b < n ∧ ((a : ℤ) + d) % n = b ∧ AxisNear n per a b := by
  have p0 := Int.emod_nonneg ((a : ℤ) + d) (show (n : ℤ) ≠ 0 by omega)
  have p1 := Int.emod_lt_of_pos ((a : ℤ) + d) (show (0 : ℤ) < n by omega)
  refine ⟨(((a : ℤ) + d) % n).toNat, by omega, by omega, d, hd, ?_⟩
  rw [Int.toNat_of_nonneg p0]
  cases per with
  | true =>
    simp only [if_true]
    have := Int.emod_add_mul_ediv ((a : ℤ) + d) n
    exact ⟨-(((a : ℤ) + d) / n), by linear_combination this⟩
  | false =>
    simp only [Bool.false_eq_true, if_false]
    have : ¬ crosses n a d := fun hc => h ⟨rfl, hc⟩
    unfold crosses at this
    exact Int.emod_eq_of_lt (by omega) (by omega)

theorem axis_from {n a b : ℕ} {per : Bool} (hb : b < n) (h : AxisNear n per a b) :
    ∃ d : ℤ, (d = -1 ∨ d = 0 ∨ d = 1) ∧ ¬ (per = false ∧ crosses n a d) ∧ ((a : ℤ) + d) % n = b := by
  obtain ⟨d, hd, hn⟩ := h
  refine ⟨d, hd, ?_, ?_⟩
  · rintro ⟨rfl, hc⟩
    simp only [Bool.false_eq_true, if_false] at hn
    unfold crosses at hc
    omega
  · cases per with
    | true =>
      simp only [if_true] at hn
      obtain ⟨k, hk⟩ := hn
      rw [show (a : ℤ) + d = b + n * (-k) by linear_combination -hk, Int.add_mul_emod_self_left, Int.emod_eq_of_lt (by omega) (by omega)]
    | false =>
      simp only [Bool.false_eq_true, if_false] at hn
      rw [← hn, Int.emod_eq_of_lt (by omega) (by omega)]

/-- **C57.** The entry of voxel `v` in `get_voxel_grid((nx, ny, nz), px, py, pz)` holds exactly the voxels whose coordinates
differ by at most one along each axis, counted around along periodic axes only. -/
theorem C57_neighbours (nx ny nz : ℕ) (px py pz : Bool) (v : ℕ) (hv : v < nx * ny * nz) (w : ℤ) :
    w ∈ row nx ny nz px py pz v ↔ ∃ u : ℕ, w = u ∧ u < nx * ny * nz ∧ VoxelNear nx ny nz px py pz v u := by
  obtain ⟨ha, hb, hc, hv'⟩ := decode hv
  rw [mem_row]
  unfold VoxelNear
  generalize v % nx = a at *
  generalize v / nx % ny = b at *
  generalize v / (nx * ny) = c at *
  subst hv'
  constructor
  · rintro ⟨j, hj, hn, rfl⟩
    rw [isNan_iff ha hb hc hj] at hn
    push Not at hn
    obtain ⟨hx, hy, hz⟩ := nn_cases hj
    obtain ⟨a', ha', ea, na⟩ := axis_to (per := px) ha hx fun h => hn.1 h.1 h.2
    obtain ⟨b', hb', eb, nb⟩ := axis_to (per := py) hb hy fun h => hn.2.1 h.1 h.2
    obtain ⟨c', hc', ec, nc⟩ := axis_to (per := pz) hc hz fun h => hn.2.2 h.1 h.2
    obtain ⟨hlt, e1, e2, e3⟩ := encode ha' hb' hc'
    refine ⟨a' + nx * b' + nx * ny * c', ?_, hlt, ?_⟩
    · rw [entry_eq ha hb hc hj, ea, eb, ec]; push_cast; ring
    · rw [e1, e2, e3]; exact ⟨na, nb, nc⟩
  · rintro ⟨u, rfl, hu, na, nb, nc⟩
    obtain ⟨ha', hb', hc', hu'⟩ := decode hu
    obtain ⟨dx, hx, cx, ex⟩ := axis_from ha' na
    obtain ⟨dy, hy, cy, ey⟩ := axis_from hb' nb
    obtain ⟨dz, hz, cz, ez⟩ := axis_from hc' nc
    obtain ⟨j, hj, rfl, rfl, rfl⟩ := nn_surj hx hy hz
    refine ⟨j, hj, ?_, ?_⟩
    · rw [isNan_iff ha hb hc hj]
      rintro (h | h | h)
      · exact cx h
      · exact cy h
      · exact cz h
    · rw [entry_eq ha hb hc hj, ex, ey, ez]
      conv_rhs => rw [hu']
      push_cast
      ring

theorem AxisNear.symm {n a b : ℕ} {per : Bool} (h : AxisNear n per a b) : AxisNear n per b a := by
  obtain ⟨d, hd, h⟩ := h
  refine ⟨-d, by omega, ?_⟩
  cases per with
  | true =>
    simp only [if_true] at h ⊢
    obtain ⟨k, hk⟩ := h
    exact ⟨-k, by linear_combination -hk⟩
  | false => simp only [Bool.false_eq_true, if_false] at h ⊢; omega

/-- **C57 (reflexive, symmetric).** Every voxel is its own neighbour, and neighbourhood is mutual. -/
theorem C57_symmetric (nx ny nz : ℕ) (px py pz : Bool) (v w : ℕ) (hv : v < nx * ny * nz) (hw : w < nx * ny * nz) :
    (v : ℤ) ∈ row nx ny nz px py pz v ∧ ((w : ℤ) ∈ row nx ny nz px py pz v ↔ (v : ℤ) ∈ row nx ny nz px py pz w) := by
  have key : ∀ a b, a < nx * ny * nz → b < nx * ny * nz → (b : ℤ) ∈ row nx ny nz px py pz a → (a : ℤ) ∈ row nx ny nz px py pz b := by
    intro a b ha hb h
    rw [C57_neighbours _ _ _ _ _ _ _ ha] at h
    obtain ⟨u, hu, -, h1, h2, h3⟩ := h
    obtain rfl : b = u := by exact_mod_cast hu
    rw [C57_neighbours _ _ _ _ _ _ _ hb]
    exact ⟨a, rfl, ha, AxisNear.symm h1, AxisNear.symm h2, AxisNear.symm h3⟩
  refine ⟨?_, key v w hv hw, key w v hw hv⟩
  rw [C57_neighbours _ _ _ _ _ _ _ hv]
  have hr : ∀ (n : ℕ) (p : Bool) (a : ℕ), AxisNear n p a a := fun n p a => ⟨0, by simp, by simp⟩
  exact ⟨v, rfl, hv, hr _ _ _, hr _ _ _, hr _ _ _⟩

/-- **C57 (shape).** One entry per voxel; fully periodic rows have 27 entries, others list no voxel twice. -/
theorem C57_shape (nx ny nz : ℕ) (px py pz : Bool) :
    (grid nx ny nz px py pz).length = nx * ny * nz ∧
      ∀ v (hv : v < nx * ny * nz), (grid nx ny nz px py pz)[v]? = some (row nx ny nz px py pz v) ∧
        (if px ∧ py ∧ pz then (row nx ny nz px py pz v).length = 27 else (row nx ny nz px py pz v).Nodup) := by
  refine ⟨by simp [grid], fun v hv => ⟨by simp [grid, hv], ?_⟩⟩
  split_ifs with h
  · simp [row, h]
  · simp only [row, if_neg h]; exact List.nodup_dedup _

theorem axis_inj {n a : ℕ} {d e : ℤ} (hn : 3 ≤ n) (ha : a < n) (hd : d = -1 ∨ d = 0 ∨ d = 1) (he : e = -1 ∨ e = 0 ∨ e = 1)
    (h : ((a : ℤ) + d) % n = ((a : ℤ) + e) % n) : d = e := by
  rw [wrap ha hd, wrap ha he] at h
  split_ifs at h <;> omega

theorem axis_dup {n : ℕ} (hn : n < 3) (h0 : 0 < n) (a : ℤ) : (a + -1) % (n : ℤ) = (a + 1) % n := by
  have : n = 1 ∨ n = 2 := by omega
  rcases this with rfl | rfl <;> omega

/-- **C57 (multiplicity).** No row lists a voxel twice, unless all axes are periodic and one of them has fewer than three voxels; then every
row does. -/
theorem C57_once (nx ny nz : ℕ) (px py pz : Bool) (v : ℕ) (hv : v < nx * ny * nz) :
    (row nx ny nz px py pz v).Nodup ↔ (px ∧ py ∧ pz → 3 ≤ nx ∧ 3 ≤ ny ∧ 3 ≤ nz) := by
  obtain ⟨ha, hb, hc, hv'⟩ := decode hv
  generalize v % nx = a at *
  generalize v / nx % ny = b at *
  generalize v / (nx * ny) = c at *
  subst hv'
  by_cases h : (px ∧ py ∧ pz)
  · unfold row
    rw [if_pos h, List.nodup_map_iff_inj_on (List.nodup_range)]
    simp only [List.mem_range, h, and_self, true_imp_iff]
    constructor
    · intro hi
      have d : ∀ j, j < 27 → j ≠ 0 → ((a : ℤ) + nnx 0) % nx = ((a : ℤ) + nnx j) % nx → ((b : ℤ) + nny 0) % ny = ((b : ℤ) + nny j) % ny →
          ((c : ℤ) + nnz 0) % nz = ((c : ℤ) + nnz j) % nz → False := by
        intro j hj h0 e1 e2 e3
        apply h0
        refine (hi 0 (by norm_num) j hj ?_).symm
        rw [entry_eq ha hb hc (by norm_num), entry_eq ha hb hc hj, e1, e2, e3]
      refine ⟨?_, ?_, ?_⟩ <;> by_contra hlt
      · exact d 2 (by norm_num) (by norm_num) (axis_dup (by omega) (by omega) _) rfl rfl
      · exact d 6 (by norm_num) (by norm_num) rfl (axis_dup (by omega) (by omega) _) rfl
      · exact d 18 (by norm_num) (by norm_num) rfl rfl (axis_dup (by omega) (by omega) _)
    · rintro ⟨nx3, ny3, nz3⟩ i hi j hj e
      rw [entry_eq ha hb hc hi, entry_eq ha hb hc hj] at e
      obtain ⟨ix, iy, iz⟩ := nn_cases hi
      obtain ⟨jx, jy, jz⟩ := nn_cases hj
      obtain ⟨x1, l1, f1, -⟩ := axis_to (per := true) ha ix (by simp)
      obtain ⟨x2, l2, f2, -⟩ := axis_to (per := true) ha jx (by simp)
      obtain ⟨y1, l3, f3, -⟩ := axis_to (per := true) hb iy (by simp)
      obtain ⟨y2, l4, f4, -⟩ := axis_to (per := true) hb jy (by simp)
      obtain ⟨z1, l5, f5, -⟩ := axis_to (per := true) hc iz (by simp)
      obtain ⟨z2, l6, f6, -⟩ := axis_to (per := true) hc jz (by simp)
      rw [f1, f2, f3, f4, f5, f6] at e
      obtain ⟨-, g1, g2, g3⟩ := encode l1 l3 l5
      obtain ⟨-, k1, k2, k3⟩ := encode l2 l4 l6
      have e' : x1 + nx * y1 + nx * ny * z1 = x2 + nx * y2 + nx * ny * z2 := by exact_mod_cast e
      rw [e'] at g1 g2 g3
      have q1 := axis_inj nx3 ha ix jx (by rw [f1, f2]; omega)
      have q2 := axis_inj ny3 hb iy jy (by rw [f3, f4]; omega)
      have q3 := axis_inj nz3 hc iz jz (by rw [f5, f6]; omega)
      unfold nnx at q1
      unfold nny at q2
      unfold nnz at q3
      omega
  · simp only [h, false_imp_iff, iff_true]
    unfold row
    rw [if_neg h]
    exact List.nodup_dedup _

/-- Concrete case: a corner voxel of a 3×3×2 grid that is periodic in x and y only. -/
example : row 3 3 2 true true false 0 = [8, 6, 7, 2, 0, 1, 5, 3, 4, 17, 15, 16, 11, 9, 10, 14, 12, 13] := by decide +kernel

end Grid

/-! ## C58 -/
section
variable {K : Type} [Field K] [LinearOrder K] [IsStrictOrderedRing K]

theorem sdistAxis_image (per : Bool) (L d : K) (h : per = true → 2 * |d| ≤ 3 * L) :
    (∃ i : ℤ, (per = false → i = 0) ∧ sdistAxis per L d * sdistAxis per L d = (d - i * L) ^ 2) ∧
      ∀ i : ℤ, (per = false → i = 0) → sdistAxis per L d * sdistAxis per L d ≤ (d - i * L) ^ 2 := by
  cases per with
  | false =>
    simp only [sdistAxis, Bool.false_eq_true, if_false, abs_mul_abs_self]
    refine ⟨⟨0, by simp, by simp; ring⟩, fun i hi => ?_⟩
    rw [hi trivial]; simp; rw [sq]
  | true =>
    have h := h rfl
    simp only [sdistAxis, if_true]
    have h0 := abs_nonneg d
    have hL : 0 ≤ L := by linarith
    constructor
    · rcases le_total |d| (L - |d|) with hm | hm
      · rw [min_eq_left hm]
        exact ⟨0, by simp, by rw [abs_mul_abs_self]; simp; ring⟩
      · rw [min_eq_right hm]
        rcases le_total 0 d with hd | hd
        · rw [abs_of_nonneg hd]
          exact ⟨1, by simp, by push_cast; ring⟩
        · rw [abs_of_nonpos hd]
          exact ⟨-1, by simp, by push_cast; ring⟩
    · intro i _
      rw [← abs_mul_abs_self (min _ _), ← sq_abs (d - i * L), sq]
      have hmin : |min |d| (L - |d|)| ≤ |d - i * L| := by
        have hA : |min |d| (L - |d|)| ≤ |d| ∧ |min |d| (L - |d|)| ≤ abs (L - |d|) := by
          rcases le_total |d| (L - |d|) with hm | hm
          · rw [min_eq_left hm, abs_abs]
            exact ⟨le_rfl, hm.trans (le_abs_self _)⟩
          · rw [min_eq_right hm]
            refine ⟨?_, le_rfl⟩
            rw [abs_le]; constructor <;> linarith
        rcases le_total 0 d with hd | hd
        · rw [abs_of_nonneg hd] at *
          rcases lt_trichotomy i 0 with hi | rfl | hi
          · have : (i : K) ≤ -1 := by exact_mod_cast (show i ≤ -1 by omega)
            have : (i : K) * L ≤ -L := by nlinarith
            refine hA.1.trans ?_
            rw [abs_of_nonneg (by linarith)]; linarith
          · simpa [abs_of_nonneg hd] using hA.1
          · rcases eq_or_ne i 1 with rfl | h1
            · refine hA.2.trans (le_of_eq ?_)
              rw [abs_sub_comm]; simp
            · have : (2 : K) ≤ i := by exact_mod_cast (show 2 ≤ i by omega)
              have : 2 * L ≤ i * L := by nlinarith
              refine hA.2.trans ?_
              rw [abs_sub_comm d, abs_of_nonneg (show 0 ≤ i * L - d by linarith), abs_le]
              constructor <;> linarith
        · rw [abs_of_nonpos hd] at *
          rcases lt_trichotomy i 0 with hi | rfl | hi
          · rcases eq_or_ne i (-1) with rfl | h1
            · refine hA.2.trans (le_of_eq ?_)
              congr 1; push_cast; ring
            · have : (i : K) ≤ -2 := by exact_mod_cast (show i ≤ -2 by omega)
              have : i * L ≤ -2 * L := by nlinarith
              refine hA.2.trans ?_
              rw [abs_of_nonneg (show 0 ≤ d - i * L by linarith), abs_le]
              constructor <;> linarith
          · simpa [abs_of_nonpos hd] using hA.1
          · have : (1 : K) ≤ i := by exact_mod_cast (show 1 ≤ i by omega)
            have : L ≤ i * L := by nlinarith
            refine hA.1.trans ?_
            rw [abs_sub_comm, abs_of_nonneg (by linarith)]; linarith
      exact mul_le_mul hmin hmin (abs_nonneg _) (abs_nonneg _)

/-- **C58.** For a given box, and two points whose difference along each periodic axis is at most one and a half box lengths
(in particular for points of the box), the function returned gives the minimum of the squared distances to the periodic
images.  Missing for the full statement: the call without box (`C58_no_dims_refuted`). -/
theorem C58_minimum_image_partial (L : V3 K) (px py pz : Bool) (a b : V3 K) (hx : px = true → 2 * |a.x - b.x| ≤ 3 * L.x)
    (hy : py = true → 2 * |a.y - b.y| ≤ 3 * L.y) (hz : pz = true → 2 * |a.z - b.z| ≤ 3 * L.z) :
    ∃ f, getSdistFun (some L) px py pz = .ok f ∧ IsLeast (imageDistances L px py pz a b) (f a b) := by
  refine ⟨_, rfl, ?_⟩
  obtain ⟨⟨i, hi, ei⟩, li⟩ := sdistAxis_image px L.x (a.x - b.x) hx
  obtain ⟨⟨j, hj, ej⟩, lj⟩ := sdistAxis_image py L.y (a.y - b.y) hy
  obtain ⟨⟨k, hk, ek⟩, lk⟩ := sdistAxis_image pz L.z (a.z - b.z) hz
  constructor
  · refine ⟨i, j, k, hi, hj, hk, ?_⟩
    simp only [ei, ej, ek, sub_add_eq_sub_sub]
  · rintro s ⟨i', j', k', hi', hj', hk', rfl⟩
    simp only [sub_add_eq_sub_sub]
    exact add_le_add (add_le_add (li i' hi') (lj j' hj')) (lk k' hk')

/-- **C58 (points of the box).** -/
theorem C58_box_partial (L : V3 K) (px py pz : Bool) (a b : V3 K) (ha : 0 ≤ a.x ∧ a.x ≤ L.x ∧ 0 ≤ a.y ∧ a.y ≤ L.y ∧ 0 ≤ a.z ∧ a.z ≤ L.z)
    (hb : 0 ≤ b.x ∧ b.x ≤ L.x ∧ 0 ≤ b.y ∧ b.y ≤ L.y ∧ 0 ≤ b.z ∧ b.z ≤ L.z) :
    ∃ f, getSdistFun (some L) px py pz = .ok f ∧ IsLeast (imageDistances L px py pz a b) (f a b) := by
  have key : ∀ u v M : K, 0 ≤ u → u ≤ M → 0 ≤ v → v ≤ M → 2 * |u - v| ≤ 3 * M := by
    intro u v M h1 h2 h3 h4
    have : |u - v| ≤ M := by rw [abs_le]; constructor <;> linarith
    linarith
  exact C58_minimum_image_partial L px py pz a b (fun _ => key _ _ _ ha.1 ha.2.1 hb.1 hb.2.1)
    (fun _ => key _ _ _ ha.2.2.1 ha.2.2.2.1 hb.2.2.1 hb.2.2.2.1)
    (fun _ => key _ _ _ ha.2.2.2.2.1 ha.2.2.2.2.2 hb.2.2.2.2.1 hb.2.2.2.2.2)

/-- **C58, finding.** Without periodic axes and without `dims` the call raises IndexError: the function defined for this
case is never returned. -/
theorem C58_no_dims_refuted : (∃ e, getSdistFun (none : Option (V3 K)) false false false = .error e) := ⟨_, rfl⟩

end

/-- Concrete case: in a box of length 10, periodic in x, the points at 1 and 9 are 2 apart. -/
example : (getSdistFun (some (⟨10, 10, 10⟩ : V3 ℚ)) true false false).map (fun f => f ⟨1, 1, 0⟩ ⟨9, 9, 0⟩) = .ok 68 := by
  decide +kernel

end CZ
