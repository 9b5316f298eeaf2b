import Verif.Props.PrefabFccAny
import Verif.Props.PrefabRest
import Verif.Props.Volume

/-!
# Property C129: no two atoms of the fcc prefabs are nearer than in the crystal
-/

namespace CZ
open Spec

noncomputable section
open Classical

namespace Prefab

/-! ## distances in stacks of triangular layers -/

theorem cubic_normSq {a : ℝ} {B : M3 ℝ} (hB : CubicCell a B) (u : V3 ℝ) : (B.mulVec u).normSq = a ^ 2 * u.normSq := by
  have h := hB.2.2
  simp only [M3.mul_def, M3.transpose, M3.smul_def, M3.one_def, M3.mk.injEq] at h
  obtain ⟨h1, h2, h3, h4, h5, h6, h7, h8, h9⟩ := h
  simp only [V3.normSq, V3.dot, M3.mulVec]
  linear_combination u.x * u.x * h1 + u.x * u.y * h2 + u.x * u.z * h3 + u.y * u.x * h4 + u.y * u.y * h5 + u.y * u.z * h6 + u.z * u.x * h7 +
    u.z * u.y * h8 + u.z * u.z * h9

/-- Squares of distances within the layers, in units of a sixth of the square of the cell. -/
theorem fccLayer_normSq {a : ℝ} {B : M3 ℝ} (hB : CubicCell a B) {h : V3 ℤ} (H : Is111 h) {s t : ℤ} {u w : V3 ℝ} (hu : u ∈ fccLayer B h s)
    (hw : w ∈ fccLayer B h t) : ∃ m : ℤ, 6 * (u - w).normSq = a ^ 2 * m ∧ 0 ≤ m ∧ (¬ 3 ∣ s - t → m ≠ 0) ∧ (3 ∣ s - t → 3 ∣ m) := by
  obtain ⟨f, ⟨i, j, k, f1, f2, f3, -⟩, f5, rfl⟩ := hu
  obtain ⟨e, ⟨i', j', k', e1, e2, e3, -⟩, e5, rfl⟩ := hw
  rw [← M3.mulVec_sub, cubic_normSq hB]
  obtain ⟨q1, q2, q3⟩ := is111_sq H
  have hs : h.x * (i - i') + h.y * (j - j') + h.z * (k - k') = 2 * (s - t) := by
    have : (h.x * (i - i') + h.y * (j - j') + h.z * (k - k') : ℝ) = 2 * (s - t) := by
      rw [← f5, ← e5, ← f1, ← f2, ← f3, ← e1, ← e2, ← e3]; simp only [miller]; ring
    exact_mod_cast this
  obtain ⟨p, hp⟩ : ∃ p, p = h.x * (i - i') - h.y * (j - j') := ⟨_, rfl⟩
  obtain ⟨q, hq⟩ : ∃ q, q = h.y * (j - j') - h.z * (k - k') := ⟨_, rfl⟩
  refine ⟨p * p + p * q + q * q, ?_, by nlinarith [sq_nonneg (p + q), sq_nonneg p, sq_nonneg q], ?_, ?_⟩
  · have hfx : f.x = i / 2 := by linarith
    have hfy : f.y = j / 2 := by linarith
    have hfz : f.z = k / 2 := by linarith
    have hex : e.x = i' / 2 := by linarith
    have hey : e.y = j' / 2 := by linarith
    have hez : e.z = k' / 2 := by linarith
    have hpr : (p : ℝ) = h.x * (i - i') - h.y * (j - j') := by rw [hp]; push_cast; ring
    have hqr : (q : ℝ) = h.y * (j - j') - h.z * (k - k') := by rw [hq]; push_cast; ring
    have hsr : (s - t : ℝ) = (h.x * (i - i') + h.y * (j - j') + h.z * (k - k')) / 2 := by
      have : (h.x * (i - i') + h.y * (j - j') + h.z * (k - k') : ℝ) = 2 * (s - t) := by exact_mod_cast hs
      linarith
    have key : (f - ((s : ℝ) / 3) • millerV h - (e - ((t : ℝ) / 3) • millerV h)) =
        (⟨(i - i') / 2 - (s - t) / 3 * h.x, (j - j') / 2 - (s - t) / 3 * h.y, (k - k') / 2 - (s - t) / 3 * h.z⟩ : V3 ℝ) := by
      ext <;> simp only [V3.sub_x, V3.sub_y, V3.sub_z, V3.smul_x, V3.smul_y, V3.smul_z, millerV, hfx, hfy, hfz, hex, hey, hez] <;> ring
    rw [key]
    push_cast
    rw [hpr, hqr, hsr]
    simp only [V3.normSq, V3.dot]
    generalize (h.x : ℝ) = X at *
    generalize (h.y : ℝ) = Y at *
    generalize (h.z : ℝ) = Z at *
    generalize (i : ℝ) - i' = α
    generalize (j : ℝ) - j' = β
    generalize (k : ℝ) - k' = γ
    have e1 : 6 * ((α / 2 - (X * α + Y * β + Z * γ) / 2 / 3 * X) * (α / 2 - (X * α + Y * β + Z * γ) / 2 / 3 * X) +
        (β / 2 - (X * α + Y * β + Z * γ) / 2 / 3 * Y) * (β / 2 - (X * α + Y * β + Z * γ) / 2 / 3 * Y) +
        (γ / 2 - (X * α + Y * β + Z * γ) / 2 / 3 * Z) * (γ / 2 - (X * α + Y * β + Z * γ) / 2 / 3 * Z)) =
        (X * α - Y * β) * (X * α - Y * β) + (X * α - Y * β) * (Y * β - Z * γ) + (Y * β - Z * γ) * (Y * β - Z * γ) := by
      linear_combination ((X * α + Y * β + Z * γ) ^ 2 / 6 - 3 / 2 * α ^ 2) * q1 + ((X * α + Y * β + Z * γ) ^ 2 / 6 - 3 / 2 * β ^ 2) * q2 +
        ((X * α + Y * β + Z * γ) ^ 2 / 6 - 3 / 2 * γ ^ 2) * q3
    linear_combination a ^ 2 * e1
  · intro hn h0
    have hp0 : p = 0 := by nlinarith [sq_nonneg (p + q), sq_nonneg p, sq_nonneg q, sq_nonneg (p - q)]
    have hq0 : q = 0 := by nlinarith [sq_nonneg (p + q), sq_nonneg p, sq_nonneg q, sq_nonneg (p - q)]
    omega
  · intro h3
    have : 3 ∣ p - q := by omega
    obtain ⟨r, hr⟩ := this
    have : p = q + 3 * r := by omega
    subst this
    exact ⟨q * q + 3 * q * r + 3 * r * r, by ring⟩

theorem normSq_layers {n : V3 ℝ} (hn : norm3 n = 1) (p q : V3 ℝ) : (p - q).normSq =
    (p - height n p • n - (q - height n q • n)).normSq + (height n p - height n q) ^ 2 := by
  have h1 : n.x * n.x + n.y * n.y + n.z * n.z = 1 := norm3_eq_one.mp hn
  simp only [V3.normSq, V3.dot, V3.sub_x, V3.sub_y, V3.sub_z, V3.smul_x, V3.smul_y, V3.smul_z]
  unfold height
  linear_combination (-(n.x * (p.x - q.x) + n.y * (p.y - q.y) + n.z * (p.z - q.z)) ^ 2) * h1

/-- Two different atoms in layers `i ≤ j` of a stack whose adjacent layers are not on top of each other. -/
theorem stack_distance {a d : ℝ} {B : M3 ℝ} (hB : CubicCell a B) {h : V3 ℤ} (H : Is111 h) {n : V3 ℝ} (hn : norm3 n = 1) (hd : 3 * d ^ 2 = a ^ 2)
    {p q : V3 ℝ} {i j s t : ℤ} (hp : height n p = i * d) (hq : height n q = j * d) (hs : p - height n p • n ∈ fccLayer B h s)
    (ht : q - height n q • n ∈ fccLayer B h t) (h0 : i = j → 3 ∣ s - t) (h1 : j = i + 1 ∨ i = j + 1 → ¬ 3 ∣ s - t) (hne : p ≠ q) :
    a / √2 ≤ Spec.dist p q := by
  have ha := hB.1
  obtain ⟨m, m1, m2, m3, m4⟩ := fccLayer_normSq hB H hs ht
  have key : a ^ 2 ≤ 2 * (p - q).normSq := by
    have hl := normSq_layers hn p q
    rw [hp, hq] at hl m1
    have hsq : (i * d - j * d) ^ 2 = ((i - j : ℤ) : ℝ) ^ 2 * (a ^ 2 / 3) := by rw [← hd]; push_cast; ring
    rw [hsq] at hl
    have hpos : 0 < (p - q).normSq := by
      refine lt_of_le_of_ne (normSq_nonneg _) fun e => hne ?_
      have := (normSq_eq_zero _).mp e.symm
      ext
      · simpa [sub_eq_zero] using congrArg V3.x this
      · simpa [sub_eq_zero] using congrArg V3.y this
      · simpa [sub_eq_zero] using congrArg V3.z this
    have ha2 : 0 < a ^ 2 := by positivity
    have hm : (0 : ℝ) ≤ m := by exact_mod_cast m2
    rcases eq_or_ne i j with rfl | hij
    · obtain ⟨r, rfl⟩ := m4 (h0 rfl)
      rw [sub_self] at hl
      push_cast at hl m1
      have : 0 < r := by
        by_contra hr
        have : r = 0 := by omega
        subst this
        push_cast at m1
        nlinarith
      have : (1 : ℝ) ≤ r := by exact_mod_cast this
      nlinarith
    · by_cases hadj : j = i + 1 ∨ i = j + 1
      · have hm1 : (1 : ℝ) ≤ m := by
          have := m3 (h1 hadj)
          have : 1 ≤ m := by omega
          exact_mod_cast this
        have hone : ((i - j : ℤ) : ℝ) ^ 2 = 1 := by
          rcases hadj with rfl | rfl <;> push_cast <;> ring
        rw [hone] at hl
        nlinarith
      · have h4 : (4 : ℝ) ≤ ((i - j : ℤ) : ℝ) ^ 2 := by
          have : 2 ≤ i - j ∨ i - j ≤ -2 := by omega
          have : 4 ≤ (i - j) ^ 2 := by rcases this with h | h <;> nlinarith
          exact_mod_cast this
        have := normSq_nonneg (p - (i * d) • n - (q - (j * d) • n))
        nlinarith
  rw [dist_eq, div_le_iff₀ (by positivity)]
  refine le_of_sq_le_sq ?_ (mul_nonneg (norm3_nonneg _) (by positivity))
  rw [mul_pow, norm3_sq, Real.sq_sqrt (by norm_num)]
  linarith

/-! ## C129 -/

/-- The layers of the grains are those of the first one, in the same or the opposite order. -/
theorem grains_order {B : M3 ℝ} {h : V3 ℤ} {N : ℕ} {K : ℕ → ℤ} {L : ℕ → ℤ → Set (V3 ℝ)} {tw : ℕ → Prop} (h0 : ∀ j, L 0 j = fccLayer B h j)
    (ht : ∀ k, k < N → ¬ tw k → ∀ i, L (k + 1) (K k - i) = L k (K k + i)) (hf : ∀ k, k < N → tw k → ∀ i, L (k + 1) (K k - i) = L k (K k + 2 - i)) :
    ∃ ε c : ℕ → ℤ, (∀ k, k ≤ N → (ε k = 1 ∨ ε k = -1) ∧ ∀ j, L k j = fccLayer B h (ε k * j + c k)) ∧
      ∀ k, k < N → ¬ 3 ∣ (ε k * (K k + 1) + c k) - (ε (k + 1) * K k + c (k + 1)) := by
  let st : ℕ → ℤ × ℤ := fun k => Nat.rec (1, 0) (fun k e => if tw k then (e.1, e.2 + 2 * e.1) else (-e.1, e.2 + 2 * e.1 * K k)) k
  have s0 : st 0 = (1, 0) := rfl
  have s1 : ∀ k, st (k + 1) = if tw k then ((st k).1, (st k).2 + 2 * (st k).1) else (-(st k).1, (st k).2 + 2 * (st k).1 * K k) := fun k => rfl
  clear_value st
  have key : ∀ k, k ≤ N → ((st k).1 = 1 ∨ (st k).1 = -1) ∧ ∀ j, L k j = fccLayer B h ((st k).1 * j + (st k).2) := by
    intro k
    induction k with
    | zero => intro _; rw [s0]; refine ⟨Or.inl rfl, fun j => ?_⟩; rw [h0]; simp
    | succ k ih =>
      intro hk
      obtain ⟨i1, i2⟩ := ih (by omega)
      rw [s1]
      split_ifs with hb
      · refine ⟨i1, fun j => ?_⟩
        have := hf k (by omega) hb (K k - j)
        rw [show K k - (K k - j) = j by ring, i2] at this
        rw [this]; congr 1; ring
      · refine ⟨by simp only; omega, fun j => ?_⟩
        have := ht k (by omega) hb (K k - j)
        rw [show K k - (K k - j) = j by ring, i2] at this
        rw [this]; congr 1; ring
  refine ⟨fun k => (st k).1, fun k => (st k).2, key, ?_⟩
  intro k hk
  obtain ⟨i1, -⟩ := key k hk.le
  simp only [s1]
  split_ifs with hb <;> rcases i1 with e | e <;> rw [e] <;> simp only <;> intro h3 <;> ring_nf at h3 <;> omega

/-- The spacing of the layers is determined by the crystal. -/
theorem spacing_unique {n : V3 ℝ} {d d' : ℝ} {g : Gen ℝ} {Z : ℤ} (hd : 0 < d) (hd' : 0 < d') (h : Layers n d g Z) (h' : Layers n d' g Z)
    (hc : ∀ j, (Lateral n d g Z j).Nonempty) (hc' : ∀ j, (Lateral n d' g Z j).Nonempty) : d = d' := by
  obtain ⟨w, q, q1, q2, -⟩ := hc 1
  obtain ⟨w', q', q1', q2', -⟩ := hc' 1
  obtain ⟨i, hi⟩ := h' q q1
  obtain ⟨j, hj⟩ := h q' q1'
  rw [q2] at hi
  rw [q2'] at hj
  push_cast at hi hj
  rw [one_mul] at hi hj
  have hi0 : (0 : ℝ) < i := by by_contra hh; nlinarith
  have hj0 : (0 : ℝ) < j := by by_contra hh; nlinarith
  have hi1 : (1 : ℝ) ≤ i := by exact_mod_cast (show 0 < i by exact_mod_cast hi0)
  have hj1 : (1 : ℝ) ≤ j := by exact_mod_cast (show 0 < j by exact_mod_cast hj0)
  nlinarith

/-- Grains cut by planes of an fcc crystal whose layers follow each other in the same or the opposite order, with the layers at each cut not on top of each
other: two different atoms are at least `a/√2` apart. -/
theorem layered_distance {env : Env} {v : Vol} {ws : ℕ → Vol} {gs : ℕ → Gen ℝ} {N : ℕ} {n : V3 ℝ} {d a : ℝ} {K : ℕ → ℤ} {B : M3 ℝ} {h : V3 ℤ} {Z : ℤ} {ε c : ℕ → ℤ}
    (hB : CubicCell a B) (h111 : Is111 h) (hn1 : norm3 n = 1) (k1 : 0 < d) (hd3 : 3 * d ^ 2 = a ^ 2) (hdt : 1 / 10 ^ 5 < d)
    (k4 : ∀ i j, i < j → j < N → K j + 1 ≤ K i)
    (k6 : ∀ k, k ≤ N → Layers n d (gs k) Z ∧ ∀ q, Owns env ws (N + 1) k q ↔ Inside env (.vol v) q ∧ InLayer n (fun k => K k * d) (1 / 10 ^ 5) N k q)
    (hc1 : ∀ k, k ≤ N → (ε k = 1 ∨ ε k = -1) ∧ ∀ j, Lateral n d (gs k) Z j = fccLayer B h (ε k * j + c k))
    (hc2 : ∀ k, k < N → ¬ 3 ∣ (ε k * (K k + 1) + c k) - (ε (k + 1) * K k + c (k + 1))) :
    ∀ k l q q', k ≤ N → l ≤ N → (q, Z) ∈ CrystalOf (gs k) → (q', Z) ∈ CrystalOf (gs l) → Owns env ws (N + 1) k q →
        Owns env ws (N + 1) l q' → (q ≠ q' → a / √2 ≤ Spec.dist q q') ∧ (k ≠ l → q ≠ q') := by
  -- an atom owned by a grain is in one of the layers of the grain
  have hin : ∀ k q, k ≤ N → (q, Z) ∈ CrystalOf (gs k) → Owns env ws (N + 1) k q → ∃ j : ℤ, height n q = j * d ∧
      q - height n q • n ∈ fccLayer B h (ε k * j + c k) ∧ (k < N → K k + 1 ≤ j) ∧ ∀ i, i + 1 = k → j ≤ K i := by
    intro k q hk hq ho
    obtain ⟨m1, m3⟩ := k6 k hk
    obtain ⟨-, o1, o2⟩ := (m3 q).mp ho
    obtain ⟨j, hj⟩ := m1 q hq
    refine ⟨j, hj, ?_, ?_, ?_⟩
    · rw [← (hc1 k hk).2 j]; exact ⟨q, hq, hj, rfl⟩
    · intro hkN
      have := o2 hkN
      rw [hj] at this
      have h1 : (K k : ℝ) * d < j * d := lt_of_lt_of_le (by simp) this
      have : (K k : ℝ) < j := lt_of_mul_lt_mul_right h1 k1.le
      exact_mod_cast this
    · intro i hi
      have := o1 i hi
      rw [hj] at this
      have h1 : (j : ℝ) * d < (K i + 1) * d := by simp only at this; rw [add_mul, one_mul]; linarith
      have : (j : ℝ) < K i + 1 := lt_of_mul_lt_mul_right h1 k1.le
      have : j < K i + 1 := by exact_mod_cast this
      omega
  -- two grains
  have hlt : ∀ {k l : ℕ} {j j' : ℤ}, k < l → l ≤ N → (k < N → K k + 1 ≤ j) → (∀ i, i + 1 = l → j' ≤ K i) → j' + 1 ≤ j ∧
      (j = j' + 1 → l = k + 1 ∧ j' = K k) := by
    intro k l j j' hkl hl h1 h2
    have h1 := h1 (by omega)
    have h2 := h2 (l - 1) (by omega)
    rcases eq_or_ne (l - 1) k with e | e
    · rw [e] at h2
      exact ⟨by omega, fun _ => ⟨by omega, by omega⟩⟩
    · have := k4 k (l - 1) (by omega) (by omega)
      exact ⟨by omega, fun _ => by omega⟩
  intro k l q q' hk hl hq hq' ho ho'
  obtain ⟨j, j1, j2, j3, j4⟩ := hin k q hk hq ho
  obtain ⟨j', j1', j2', j3', j4'⟩ := hin l q' hl hq' ho'
  rcases lt_trichotomy k l with hkl | rfl | hkl
  · obtain ⟨a1, a2⟩ := hlt hkl hl j3 j4'
    refine ⟨fun hne => stack_distance hB h111 hn1 hd3 j1 j1' j2 j2' (fun e => by omega) ?_ hne, ?_⟩
    · intro h1
      obtain ⟨rfl, rfl⟩ := a2 (by omega)
      obtain rfl : j = K k + 1 := by omega
      exact hc2 k (by omega)
    · rintro - rfl
      rw [j1] at j1'
      have := mul_right_cancel₀ k1.ne' j1'
      have : j = j' := by exact_mod_cast this
      omega
  · refine ⟨fun hne => stack_distance hB h111 hn1 hd3 j1 j1' j2 j2' ?_ ?_ hne, fun h => absurd rfl h⟩
    · rintro rfl; simp
    · intro h1 h3
      rcases (hc1 k hk).1 with e | e <;> rw [e] at h3 <;> omega
  · obtain ⟨a1, a2⟩ := hlt hkl hk j3' j4
    refine ⟨fun hne => stack_distance hB h111 hn1 hd3 j1 j1' j2 j2' (fun e => by omega) ?_ hne, ?_⟩
    · intro h1
      obtain ⟨rfl, rfl⟩ := a2 (by omega)
      obtain rfl : j' = K l + 1 := by omega
      intro h3
      exact hc2 l (by omega) (dvd_sub_comm.mp h3)
    · rintro - rfl
      rw [j1] at j1'
      have := mul_right_cancel₀ k1.ne' j1'
      have : j = j' := by exact_mod_cast this
      omega

/-- **C129 (sites).** For an unstrained fcc crystal of cell `a` with an atom at the coordinate origin and planes {111} at least one apart: two different atoms
which the grains of `build_object` own are at least `a/√2` apart, the distance of nearest neighbours in the perfect crystal, whatever defects were
drawn. -/
theorem C129_sites_partial (env : Env) (p : Fcc) (g : Gen ℝ) (v : Vol) (x : Voxel ℝ) (s : Struct ℝ) (a : ℝ) (Z : ℤ) (hg : p.gen = some g)
    (hv : p.vol = some (.vol v)) (hx : g.voxel = some x) (hst : g.struct = some s) (hn : g.strain = none) (hs : ColumnScale x.scale)
    (hB : CubicCell a x.sbases) (hL : CubicCell a s.latticeMatrix) (ha : machEps * a < 1) (ha' : 1 / 10 ^ 4 ≤ a) (hZ : FccSites s Z)
    (h111 : Is111 p.plane) (o : V3 ℤ) (ho : x.origin = cart x.sbases 0 ⟨(o.x : ℝ), (o.y : ℝ), (o.z : ℝ)⟩)
    (hi : Intact env v) (hN : 0 ≤ p.N) (hm : 1 ≤ p.minSep) (split : ℕ → ℕ) (fuel : ℕ) (rand : ℕ → ℝ) (t : VTree) (tw sf : Bool)
    (h : p.build env split fuel rand = some (.ok (t, tw, sf))) :
    ∃ (ws : ℕ → Vol) (gs : ℕ → Gen ℝ), t = .multi ((List.range (p.N.toNat + 1)).map fun k => .vol (ws k)) 0 none ∧
      (∀ k, k ≤ p.N.toNat → (ws k).gen = some (.crystal (gs k))) ∧
      ∀ k l q q', k ≤ p.N.toNat → l ≤ p.N.toNat → (q, Z) ∈ CrystalOf (gs k) → (q', Z) ∈ CrystalOf (gs l) → Owns env ws (p.N.toNat + 1) k q →
        Owns env ws (p.N.toNat + 1) l q' → (q ≠ q' → a / √2 ≤ Spec.dist q q') ∧ (k ≠ l → q ≠ q') := by
  obtain ⟨n, d, K, ws, gs, k1, k2, k3, k4, k5, k6, k7, k8⟩ := C89_fcc_stacking_partial env p g v x s a Z hg hv hx hst hn hs hB hL ha hZ h111 o ho hi hN
    (by omega) split fuel rand t tw sf h
  refine ⟨ws, gs, k3, fun k hk => (k6 k hk).1, ?_⟩
  have ha0 := hB.1
  obtain ⟨r, hr⟩ : ∃ r, r = (a ^ 2)⁻¹ • x.sbases.mulVec (millerV p.plane) := ⟨_, rfl⟩
  obtain ⟨q1, q2, q3⟩ := is111_sq h111
  have hlen : len r ^ 2 = 3 / a ^ 2 := by
    rw [hr, cubic_len hB, div_pow, norm3_sq]
    congr 1
    simp only [V3.normSq, V3.dot, millerV]; linarith
  have h0 : 0 < len r := by
    rcases (show 0 ≤ len r by rw [len_eq]; exact norm3_nonneg _).lt_or_eq with h | h
    · exact h
    · rw [← h] at hlen
      have : 0 < 3 / a ^ 2 := by positivity
      rw [← hlen] at this
      norm_num at this
  have hunit : n = (len r)⁻¹ • r := by
    rw [k2, hr, cart_eq, add_zero, len_eq, len_eq, norm3_smul, abs_of_pos (by positivity), smul_smul]
    congr 1
    field_simp
  have hn1 : norm3 n = 1 := by
    rw [hunit, norm3_smul, abs_of_pos (inv_pos.mpr h0), ← len_eq]
    exact inv_mul_cancel₀ h0.ne'
  obtain ⟨l1, l2⟩ := fcc_lateral hx hst hZ ho hB h111 hr h0
  rw [← hunit] at l1 l2
  have hdd : d = (len r)⁻¹ := by
    obtain ⟨-, m1, m2, -⟩ := k6 0 (Nat.zero_le _)
    rw [k5] at m1 m2
    exact spacing_unique k1 (inv_pos.mpr h0) m1 l1 (fun j => (m2 j).1) fun j => by rw [l2]; exact fccLayer_nonempty _ h111 _
  have hd3 : 3 * d ^ 2 = a ^ 2 := by
    rw [hdd, inv_pow, hlen]; field_simp
  have hdt : 1 / 10 ^ 5 < d := by
    by_contra hh
    have hh' := not_lt.mp hh
    have : d ^ 2 ≤ (1 / 10 ^ 5) ^ 2 := pow_le_pow_left₀ k1.le hh' 2
    have : (1 / 10 ^ 4 : ℝ) ^ 2 ≤ a ^ 2 := pow_le_pow_left₀ (by positivity) ha' 2
    norm_num at *
    linarith
  obtain ⟨ε, c, hc1, hc2⟩ := grains_order (N := p.N.toNat) (K := K) (L := fun k => Lateral n d (gs k) Z) (tw := fun k => rand k < p.ratio)
    (fun j => by rw [k5, hdd]; exact l2 j) k7 k8
  exact layered_distance hB h111 hn1 k1 hd3 hdt (fun i j hi hj => by have := k4 i j hi hj; omega) (fun k hk => ⟨(k6 k hk).2.1, (k6 k hk).2.2.2⟩) hc1 hc2

theorem fills_multi {env : Env} {ts : List VTree} {pr : ℤ} {hd : Option (List (V3 ℝ) × List ℤ)} {cs : List (V3 ℝ × ℤ)}
    (h : Fills env (.multi ts pr hd) cs) : ∃ parts : List (VTree × List (V3 ℝ × ℤ)), parts.map Prod.fst = ts ∧ (∀ x ∈ parts, Fills env x.1 x.2) ∧
      cs = contents (parts.map fun x => ⟨x.1.priority, x.2, Inside env x.1⟩) := by
  generalize ht : VTree.multi ts pr hd = t at h
  cases h with
  | vol v cs h => cases ht
  | multi parts pr' hd' h => cases ht; exact ⟨parts, rfl, h, rfl⟩

theorem fills_vol {env : Env} {v : Vol} {cs : List (V3 ℝ × ℤ)} (h : Fills env (.vol v) cs) : ∃ as, Supplied env v as ∧
    cs = as.filter fun a => decide (Inside env (.vol v) a.1) := by
  cases h with
  | vol v cs h => exact ⟨cs, h, rfl⟩

theorem contents_pairwise {P S : Type} {R : P × S → P × S → Prop} (bs : List (Body P S)) 
    (h1 : ∀ i : Fin bs.length, bs[i].sites.Pairwise fun x y => Survives bs i x.1 → Survives bs i y.1 → R x y)
    (h2 : ∀ i j : Fin bs.length, i < j → ∀ x ∈ bs[i].sites, ∀ y ∈ bs[j].sites, Survives bs i x.1 → Survives bs j y.1 → R x y) :
    (contents bs).Pairwise R := by
  unfold contents
  rw [List.pairwise_flatMap]
  refine ⟨fun i _ => ?_, ?_⟩
  · unfold contributed
    rw [List.pairwise_filter]
    refine (h1 i).imp ?_
    intro x y hxy hx hy
    exact hxy (of_decide_eq_true hx) (of_decide_eq_true hy)
  have hp : (List.finRange bs.length).Pairwise (· < ·) := List.pairwise_lt_finRange _
  refine hp.imp ?_
  intro i j hij x hx y hy
  simp only [contributed, List.mem_filter, decide_eq_true_eq] at hx hy
  exact h2 i j hij x hx.1 y hy.1 hx.2 hy.2

theorem dist_symm (p q : V3 ℝ) : Spec.dist p q = Spec.dist q p := by
  rw [dist_eq, dist_eq, ← norm3_neg]
  congr 1
  ext <;> simp

/-- A crystal generator supplies no site twice, and only sites of its crystal. -/
theorem fcc_supplied {env : Env} {w : Vol} {g : Gen ℝ} {s : Struct ℝ} {Z : ℤ} {as : List (V3 ℝ × ℤ)} (hw : w.gen = some (.crystal g))
    (hs : g.struct = some s) (hn : g.strain = none) (hp : g.post = none) (hZ : FccSites s Z) (hd : s.sites.Nodup) (h : Supplied env w as) :
    (as.Pairwise fun x y => x.2 = Z → y.2 = Z → x.1 ≠ y.1) ∧ ∀ x ∈ as, x ∈ CrystalOf g := by
  obtain ⟨n0, b, g', ps, zs, hb, hg', hsup, -, rfl⟩ := h
  rw [hw] at hg'
  cases hg'
  simp only [GenObj.supply] at hsup
  split at hsup
  · cases hsup
  rename_i y hy
  cases b with
  | rows bs =>
    simp only at hsup
    obtain ⟨L, sites⟩ := s
    obtain ⟨lo, hi, he, idx, hnd, -, rfl, rfl⟩ := C29_enumerates_once g y sites ⟨hy, ⟨L, hs⟩, hn, hp⟩ _ _ _ _ hsup
    have hdet := (Voxel.getExtents_det he).1
    rw [List.zip_map']
    constructor
    · rw [List.pairwise_map]
      refine hnd.imp ?_
      rintro ⟨m, i⟩ ⟨m', i'⟩ hne e1 e2 e3
      simp only at e1 e2 e3
      apply hne
      have hf : ((sites.get i).1, Z) ∈ sites := by rw [← e1]; exact List.get_mem _ _
      have hf' : ((sites.get i').1, Z) ∈ sites := by rw [← e2]; exact List.get_mem _ _
      have hc := (hZ _).mp hf
      have hc' := (hZ _).mp hf'
      simp only [siteAt, cart_eq] at e3
      have e4 := mulVec_inj hdet (add_right_cancel e3)
      have hx := congrArg V3.x e4
      have hy := congrArg V3.y e4
      have hz := congrArg V3.z e4
      simp only at hx hy hz
      have half : ∀ (m m' : ℤ) (u u' : ℝ), (u = 0 ∨ u = 1 / 2) → (u' = 0 ∨ u' = 1 / 2) → (m : ℝ) + u = m' + u' → m = m' ∧ u = u' := by
        intro m m' u u' hu hu' e
        have h2 : 2 * m = 2 * m' ∨ 2 * m = 2 * m' + 1 ∨ 2 * m + 1 = 2 * m' := by
          have h2 : (2 * m : ℝ) = 2 * m' ∨ (2 * m : ℝ) = 2 * m' + 1 ∨ (2 * m + 1 : ℝ) = 2 * m' := by
            rcases hu with rfl | rfl <;> rcases hu' with rfl | rfl
            · left; linarith
            · right; left; linarith
            · right; right; linarith
            · left; linarith
          exact_mod_cast h2
        have : m = m' := by omega
        subst this
        exact ⟨rfl, by linarith⟩
      have co : ∀ f : V3 ℝ, (f = ⟨0, 0, 0⟩ ∨ f = ⟨1 / 2, 1 / 2, 0⟩ ∨ f = ⟨1 / 2, 0, 1 / 2⟩ ∨ f = ⟨0, 1 / 2, 1 / 2⟩) →
          (f.x = 0 ∨ f.x = 1 / 2) ∧ (f.y = 0 ∨ f.y = 1 / 2) ∧ (f.z = 0 ∨ f.z = 1 / 2) := by
        rintro f (rfl | rfl | rfl | rfl) <;> simp
      obtain ⟨c1, c2, c3⟩ := co _ hc
      obtain ⟨c1', c2', c3'⟩ := co _ hc'
      obtain ⟨a1, b1⟩ := half _ _ _ _ c1 c1' hx
      obtain ⟨a2, b2⟩ := half _ _ _ _ c2 c2' hy
      obtain ⟨a3, b3⟩ := half _ _ _ _ c3 c3' hz
      have hm : m = m' := by ext <;> assumption
      have hfi : sites.get i = sites.get i' := Prod.ext (by ext <;> assumption) (e1.trans e2.symm)
      rw [hm, hd.injective_get hfi]
    · intro x hx
      obtain ⟨⟨m, i⟩, -, rfl⟩ := List.mem_map.mp hx
      exact ⟨y, ⟨L, sites⟩, hy, hs, m, sites.get i, List.get_mem _ _, rfl⟩
  | cleared => simp at hsup
  | single q => simp at hsup
  | tuple u w => simp at hsup
  | none => simp at hsup

theorem layered_populated {env : Env} {ws : ℕ → Vol} {gs : ℕ → Gen ℝ} {N : ℕ} {a : ℝ} {s : Struct ℝ} {Z : ℤ} (hZ : FccSites s Z) (hnd : s.sites.Nodup)
    (k2 : ∀ k, k ≤ N → (ws k).gen = some (.crystal (gs k))) (hgs : ∀ k, k ≤ N → (gs k).struct = some s ∧ (gs k).strain = none ∧ (gs k).post = none)
    (k3 : ∀ k l q q', k ≤ N → l ≤ N → (q, Z) ∈ CrystalOf (gs k) → (q', Z) ∈ CrystalOf (gs l) → Owns env ws (N + 1) k q →
        Owns env ws (N + 1) l q' → (q ≠ q' → a / √2 ≤ Spec.dist q q') ∧ (k ≠ l → q ≠ q'))
    {pr : ℤ} {hd : Option (List (V3 ℝ) × List ℤ)} {t : VTree} (k1 : t = .multi ((List.range (N + 1)).map fun k => .vol (ws k)) pr hd) {n0 n1 : ℕ} {t' : VTree}
    (ht : t.populate env n0 = (t', n1, .ok ())) {as : List (V3 ℝ)} {ss : List ℤ} (hh : t'.held = some (as, ss)) :
    (as.zip ss).Pairwise fun q q' => q.2 = Z → q'.2 = Z → a / √2 ≤ Spec.dist q.1 q'.1 := by
  obtain ⟨as', ss', cs, e1, -, e3, e4⟩ := C12_nested_resolution env t t' n0 n1 ht
  rw [hh] at e1
  cases e1
  refine (e4.pairwise_iff ?_).mpr ?_
  · intro q q' hq h1 h2
    rw [dist_symm]
    exact hq h2 h1
  subst k1
  obtain ⟨parts, f1, f2, rfl⟩ := fills_multi e3
  have hlen : parts.length = N + 1 := by
    have := congrArg List.length f1
    simpa using this
  have hpart : ∀ k (hk : k < parts.length), (parts[k]).1 = .vol (ws k) := by
    intro k hk
    have := congrArg (fun l => l[k]?) f1
    simp only [List.getElem?_map, List.getElem?_range (show k < N + 1 by omega), Option.map_some, List.getElem?_eq_getElem hk,
      Option.some.injEq] at this
    exact this
  have hsup : ∀ k (hk : k < parts.length), ∃ as, Supplied env (ws k) as ∧ (parts[k]).2 = as.filter fun a => decide (Inside env (.vol (ws k)) a.1) := by
    intro k hk
    have := f2 _ (List.getElem_mem hk)
    rw [hpart k hk] at this
    exact fills_vol this
  have hfc : ∀ k (hk : k < parts.length), ((parts[k]).2.Pairwise fun x y => x.2 = Z → y.2 = Z → x.1 ≠ y.1) ∧
      ∀ x ∈ (parts[k]).2, x ∈ CrystalOf (gs k) ∧ Inside env (.vol (ws k)) x.1 := by
    intro k hk
    obtain ⟨as, a1, a2⟩ := hsup k hk
    have hk' : k ≤ N := by omega
    obtain ⟨b1, b2, b3⟩ := hgs k hk'
    obtain ⟨c1, c2⟩ := fcc_supplied (k2 k hk') b1 b2 b3 hZ hnd a1
    rw [a2]
    refine ⟨c1.filter _, fun x hx => ?_⟩
    rw [List.mem_filter, decide_eq_true_eq] at hx
    exact ⟨c2 x hx.1, hx.2⟩
  have howns : ∀ (i : Fin (parts.map fun x => (⟨x.1.priority, x.2, Inside env x.1⟩ : Body (V3 ℝ) ℤ)).length) (q : V3 ℝ),
      Inside env (.vol (ws i)) q → Survives (parts.map fun x => ⟨x.1.priority, x.2, Inside env x.1⟩) i q → Owns env ws (N + 1) i q := by
    intro i q hq hsv
    have hi' : i.1 < parts.length := lt_of_lt_of_eq i.2 (List.length_map _)
    refine ⟨hq, fun j hj hji hpr hin => ?_⟩
    have hj' : j < parts.length := by omega
    have := hsv ⟨j, by rw [List.length_map]; exact hj'⟩ (fun e => hji (congrArg Fin.val e))
    simp only [Fin.getElem_fin, List.getElem_map, hpart _ hj', hpart _ hi'] at this
    exact this hpr hin
  refine contents_pairwise _ ?_ ?_
  · intro i
    have hi' : i.1 < parts.length := lt_of_lt_of_eq i.2 (List.length_map _)
    simp only [Fin.getElem_fin, List.getElem_map]
    refine (List.Pairwise.and_mem.mp (hfc i hi').1).imp ?_
    rintro q q' ⟨m1, m2, hne⟩ s1 s2 z1 z2
    obtain ⟨i1, i2⟩ := (hfc i hi').2 q m1
    obtain ⟨i1', i2'⟩ := (hfc i hi').2 q' m2
    obtain ⟨q, qz⟩ := q
    obtain ⟨q', qz'⟩ := q'
    obtain rfl : qz = Z := z1
    obtain rfl : qz' = qz := z2
    exact (k3 i i q q' (by omega) (by omega) i1 i1' (howns i q i2 s1) (howns i q' i2' s2)).1 (hne rfl rfl)
  · intro i j hij q hq q' hq' s1 s2 z1 z2
    have hi' : i.1 < parts.length := lt_of_lt_of_eq i.2 (List.length_map _)
    have hj' : j.1 < parts.length := lt_of_lt_of_eq j.2 (List.length_map _)
    simp only [Fin.getElem_fin, List.getElem_map] at hq hq'
    obtain ⟨i1, i2⟩ := (hfc i hi').2 q hq
    obtain ⟨i1', i2'⟩ := (hfc j hj').2 q' hq'
    obtain ⟨q, qz⟩ := q
    obtain ⟨q', qz'⟩ := q'
    obtain rfl : qz = Z := z1
    obtain rfl : qz' = qz := z2
    obtain ⟨r3, r4⟩ := k3 i j q q' (by omega) (by omega) i1 i1' (howns i q i2 s1) (howns j q' i2' s2)
    exact r3 (r4 fun e => hij.ne (Fin.ext e))

/-- **C129 (populated).** The same for what the built MultiVolume holds after `populate_atoms`: any two of its atoms of the species are at least `a/√2`
apart. -/
theorem C129_populated_partial (env : Env) (p : Fcc) (g : Gen ℝ) (v : Vol) (x : Voxel ℝ) (s : Struct ℝ) (a : ℝ) (Z : ℤ) (hg : p.gen = some g)
    (hv : p.vol = some (.vol v)) (hx : g.voxel = some x) (hst : g.struct = some s) (hn : g.strain = none) (hp : g.post = none) (hs : ColumnScale x.scale)
    (hB : CubicCell a x.sbases) (hL : CubicCell a s.latticeMatrix) (ha : machEps * a < 1) (ha' : 1 / 10 ^ 4 ≤ a) (hZ : FccSites s Z)
    (hnd : s.sites.Nodup) (h111 : Is111 p.plane) (o : V3 ℤ) (ho : x.origin = cart x.sbases 0 ⟨(o.x : ℝ), (o.y : ℝ), (o.z : ℝ)⟩)
    (hi : Intact env v) (hN : 0 ≤ p.N) (hm : 1 ≤ p.minSep) (split : ℕ → ℕ) (fuel : ℕ) (rand : ℕ → ℝ) (t : VTree) (tw sf : Bool)
    (h : p.build env split fuel rand = some (.ok (t, tw, sf))) (n0 n1 : ℕ) (t' : VTree) (ht : t.populate env n0 = (t', n1, .ok ()))
    (as : List (V3 ℝ)) (ss : List ℤ) (hh : t'.held = some (as, ss)) :
    (as.zip ss).Pairwise fun q q' => q.2 = Z → q'.2 = Z → a / √2 ≤ Spec.dist q.1 q'.1 := by
  obtain ⟨ws, gs, k1, k2, k3⟩ := C129_sites_partial env p g v x s a Z hg hv hx hst hn hs hB hL ha ha' hZ h111 o ho hi hN hm split fuel rand t tw sf h
  obtain ⟨ws', r1, r2⟩ := C116_fcc env p g hg split fuel rand t tw sf h
  have hws : ∀ k, k ≤ p.N.toNat → ws' k = ws k := by
    intro k hk
    have e := k1.symm.trans r1
    simp only [VTree.multi.injEq, and_true] at e
    have := congrArg (fun l => l[k]?) e
    simp only [List.getElem?_map, List.getElem?_range (show k < p.N.toNat + 1 by omega), Option.map_some, Option.some.injEq, VTree.vol.injEq] at this
    exact this.symm
  have hgs : ∀ k, k ≤ p.N.toNat → SameRecipe g (gs k) := by
    intro k hk
    obtain ⟨-, g', e1, e2⟩ := r2 k hk
    rw [hws k hk, k2 k hk] at e1
    cases e1
    exact e2
  exact layered_populated hZ hnd k2 (fun k hk => ⟨(hgs k hk).1.trans hst, (hgs k hk).2.1.trans hn, (hgs k hk).2.2.trans hp⟩) k3 k1 ht hh

/-- Concrete case of C129: two defects on the planes (111) of an fcc ball of radius 10 with cell 1; the run exists for every sequence of random choices
between twin and fault, and whatever `populate_atoms` then holds has no two atoms nearer than `1/√2`. -/
example (env : Env) : ∃ split fuel, ∀ rand, ∃ t tw sf,
    (⟨some fccGen, some (.vol (ball 0 10)), 1 / 2, 2, 3, ⟨1, 1, 1⟩⟩ : Fcc).build env split fuel rand = some (.ok (t, tw, sf)) ∧
    ∀ n0 n1 t' as ss, t.populate env n0 = (t', n1, .ok ()) → t'.held = some (as, ss) →
      (as.zip ss).Pairwise fun q q' => q.2 = 79 → q'.2 = 79 → 1 / √2 ≤ Spec.dist q.1 q'.1 := by
  have hB : CubicCell 1 (⟨1, .scalar 1, 0⟩ : Voxel ℝ).sbases := by
    rw [unit_sbases]
    exact ⟨one_pos, by ext <;> simp [M3.mul_def, M3.transpose, M3.one_def, M3.smul_def],
      by ext <;> simp [M3.mul_def, M3.transpose, M3.one_def, M3.smul_def]⟩
  have hB' : CubicCell 1 (1 : M3 ℝ) := by rw [← unit_sbases 0]; exact hB
  have hl : 1 ≤ len (millerV ⟨1, 1, 1⟩) := by
    simp only [len, millerV]; rw [Real.one_le_sqrt]; norm_num
  have hnz : nonzeros ⟨1, 1, 1⟩ = 3 := by simp [nonzeros]
  have hi := ball_intact env 0 10
  have h2 : (0 : ℤ) ≤ 2 := by norm_num
  obtain ⟨-, split, fuel, h⟩ := C90_cubic_partial env ⟨some fccGen, some (.vol (ball 0 10)), 1 / 2, 2, 3, ⟨1, 1, 1⟩⟩ fccGen (ball 0 10) _ _ 1 1
    rfl rfl rfl rfl rfl one_pos rfl hB hB' (by rw [mul_one]; exact lt_of_lt_of_le machEps_lt_one hl) hi h2 (by rw [hnz]) (-10) 10
    (ball_range env 0 (by norm_num) _) (by rw [hnz]; push_cast; nlinarith)
  refine ⟨split, fuel, fun rand => ?_⟩
  obtain ⟨t, tw, sf, ht, -⟩ := h rand
  refine ⟨t, tw, sf, ht, fun n0 n1 t' as ss hp hh => ?_⟩
  exact C129_populated_partial env _ fccGen (ball 0 10) _ _ 1 79 rfl rfl rfl rfl rfl rfl trivial hB hB'
    (by rw [mul_one]; exact machEps_lt_one) (by norm_num) (by intro f; simp [V3.ext_iff]) (by simp [V3.ext_iff])
    (by refine ⟨.inl rfl, .inl rfl, .inl rfl⟩) ⟨0, 0, 0⟩
    (by rw [unit_sbases, cart_eq, add_zero, M3.mulVec_one]; ext <;> simp) hi h2 (by norm_num) _ _ _ _ _ _ ht n0 n1 t' hp as ss hh

end Prefab
end
end CZ
