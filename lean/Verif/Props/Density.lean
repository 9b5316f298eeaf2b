import Verif.Density
import Verif.Props.SurfaceMotion

/-!
# Property C137: large bodies hold the density and the composition of the crystal
-/

namespace CZ
open Spec Filter Topology MeasureTheory Pointwise

noncomputable section
open Classical

namespace Density

/-- The number of atoms a Volume holds whose species satisfies `q`. -/
def number (v : Vol) (q : ℤ → Bool) : ℕ := (v.species.getD []).countP q

theorem enlarge {K : Set (Fin 3 → ℝ)} (hc : Convex ℝ K) {r : ℝ} (hr : 0 < r) (hball : r • ball ⊆ K) {R η : ℝ} (hR : 0 < R) (hη : 0 < η)
    {u d : V3 ℝ} (hu : vec u ∈ R • K) (hd : norm3 d ≤ r * η) : vec (u + d) ∈ (R + η) • K := by
  rw [vec_add, hc.add_smul hR.le hη.le]
  refine Set.add_mem_add hu ?_
  have h1 : vec d ∈ (η * r) • ball := (mem_ball (mul_pos hη hr) d).mpr (by rw [mul_comm]; exact hd)
  rw [mul_smul] at h1
  exact Set.smul_set_mono hball h1

theorem countP_cells (inside : V3 ℝ → Bool) (x : Voxel ℝ) (q : ℤ → Bool) (cs : List (V3 ℤ)) : ∀ sites : List (V3 ℝ × ℤ),
    (((cs.flatMap (inCell inside x sites)).map Atom.Z).countP q) =
      (((sites.filter fun f => q f.2).map fun f => cs.countP fun n => inside (siteAt x.sbases x.origin n f.1)).sum) := by
  intro sites
  rw [List.countP_map, List.countP_flatMap]
  induction sites with
  | nil => simp [inCell, Function.comp_def]
  | cons f fs ih =>
    have h1 : (cs.map (List.countP (q ∘ Atom.Z) ∘ inCell inside x (f :: fs))).sum =
        (cs.map fun n => (if inside (siteAt x.sbases x.origin n f.1) ∧ q f.2 then 1 else 0) +
          (List.countP (q ∘ Atom.Z) ∘ inCell inside x fs) n).sum := by
      congr 1
      refine List.map_congr_left fun n _ => ?_
      simp only [Function.comp_apply, inCell, List.map_cons, List.filter_cons]
      by_cases hi : inside (siteAt x.sbases x.origin n f.1) = true <;> by_cases hq : q f.2 = true <;> simp [hi, hq, add_comm]
    rw [h1, List.sum_map_add, ih, List.filter_cons]
    by_cases hq : q f.2 = true
    · have h2 : ∀ l : List (V3 ℤ), (l.map fun n => if inside (siteAt x.sbases x.origin n f.1) ∧ q f.2 then 1 else 0).sum =
          l.countP fun n => inside (siteAt x.sbases x.origin n f.1) := by
        intro l
        induction l with
        | nil => rfl
        | cons n l ihl =>
          rw [List.map_cons, List.sum_cons, ihl, List.countP_cons]
          simp [hq, add_comm]
      rw [h2]
      simp [hq]
    · simp [hq]

theorem card_cells {cs : List (V3 ℤ)} (hn : cs.Nodup) (P : V3 ℤ → Bool) : cs.countP P = Nat.card {n | n ∈ cs ∧ P n = true} := by
  have : {n | n ∈ cs ∧ P n = true} = ((cs.filter P).toFinset : Set (V3 ℤ)) := by ext n; simp
  rw [this, Nat.card_coe_set_eq, Set.ncard_coe_finset, List.toFinset_card_of_nodup (hn.filter _), List.countP_eq_length_filter]

/-- The cells of a body whose atom at the basis position `f` is kept. -/
def kept (env : Env) (v : Vol) (x : Voxel ℝ) (box : List (V3 ℝ)) (f : V3 ℝ) : Set (V3 ℤ) :=
  {n | ∃ lo hi, x.getExtents box = .ok (lo, hi) ∧ n ∈ Gen.cells lo hi ∧ v.interior env (siteAt x.sbases x.origin n f) = true}

theorem number_eq {env : Env} {v : Vol} {c : Gen ℝ} {x : Voxel ℝ} {sites : List (V3 ℝ × ℤ)} {box : List (V3 ℝ)}
    (hb : v.boundingBox env = .ok (.rows box)) (hbox : box ≠ []) (hg : v.gen = some (.crystal c)) (hP : Gen.Plain c x sites)
    (hd : x.sbases.det ≠ 0) (q : ℤ → Bool) (n : ℕ) :
    (v.populate env n).2 = .ok () ∧ number (v.populate env n).1 q =
      ((sites.filter fun f => q f.2).map fun f => Nat.card (kept env v x box f.1)).sum := by
  obtain ⟨⟨lo, hi⟩, he⟩ := Voxel.getExtents_ok (v := x) hd hbox
  rw [populate_crystal hb hg hP he n]
  refine ⟨rfl, ?_⟩
  show ((_ : List ℤ).countP q) = _
  simp only [Option.getD_some]
  rw [countP_cells]
  congr 1
  refine List.map_congr_left fun f _ => ?_
  rw [card_cells (Gen.nodup_cells lo hi)]
  congr 2
  ext m
  constructor
  · rintro ⟨h1, h2⟩; exact ⟨lo, hi, he, h1, h2⟩
  · rintro ⟨lo', hi', he', h1, h2⟩
    rw [he] at he'
    cases he'
    exact ⟨h1, h2⟩

theorem sum_tendsto {α : Type} (F : α → ℝ → ℕ) (L : ℝ) : ∀ l : List α, (∀ f ∈ l, Tendsto (fun R : ℝ => (F f R : ℝ) / R ^ 3) atTop (𝓝 L)) →
    Tendsto (fun R : ℝ => ((l.map fun f => F f R).sum : ℕ) / R ^ 3) atTop (𝓝 (l.length * L)) := by
  intro l
  induction l with
  | nil => intro _; simp
  | cons f l ih =>
    intro h
    have h1 := (h f List.mem_cons_self).add (ih fun g hg => h g (List.mem_cons_of_mem _ hg))
    have e : L + l.length * L = ((f :: l).length : ℕ) * L := by push_cast [List.length_cons]; ring
    rw [e] at h1
    refine h1.congr fun R => ?_
    rw [List.map_cons, List.sum_cons]
    push_cast
    ring

theorem volume_pos {K : Set (Fin 3 → ℝ)} (hb : Bornology.IsBounded K) {r : ℝ} (hr : 0 < r) (hball : r • ball ⊆ K) :
    0 < volume.real K := by
  have h1 : volume.real (r • ball) = r ^ 3 * (4 / 3 * Real.pi) := by
    rw [Measure.real, Measure.addHaar_smul, ENNReal.toReal_mul, ENNReal.toReal_ofReal (abs_nonneg _), ← ball_volume]
    simp [Measure.real, abs_of_pos hr]
  have h2 : volume.real (r • ball) ≤ volume.real K := measureReal_mono hball hb.measure_lt_top.ne
  have h3 : 0 < r ^ 3 * (4 / 3 * Real.pi) := by have := Real.pi_pos; positivity
  linarith

theorem site_tendsto {env : Env} {body : ℝ → Vol} {box : ℝ → List (V3 ℝ)} {x : Voxel ℝ}
    (hd : x.sbases.det ≠ 0) {K : Set (Fin 3 → ℝ)} (hb : Bornology.IsBounded K) (hcl : IsClosed K)
    (hc : Convex ℝ K) {r : ℝ} (hr : 0 < r) (hball : r • ball ⊆ K) (h0 : (0 : Fin 3 → ℝ) ∈ K) (ctr : V3 ℝ) (δ : ℝ)
    (hbody : ∀ᶠ R in atTop, box R ≠ [])
    (hbox : ∀ᶠ R in atTop, ∀ p, vec (p - ctr) ∈ (R - δ) • K → p ∈ Region (box R) ∧ Inside env (.vol (body R)) p)
    (hout : ∀ᶠ R in atTop, ∀ p, Inside env (.vol (body R)) p → vec (p - ctr) ∈ (R + δ) • K) (f : V3 ℝ) :
    Tendsto (fun R : ℝ => (Nat.card (kept env (body R) x (box R) f) : ℝ) / R ^ 3) atTop (𝓝 (volume.real K / |x.sbases.det|)) := by
  set e := x.origin - ctr with he
  set d := x.sbases.mulVec f + e with hde
  set η := (norm3 e + norm3 d) / r + 1 with hη
  have hη0 : 0 < η := by
    have := norm3_nonneg e; have := norm3_nonneg d; positivity
  have hrη : norm3 e + norm3 d + r = r * η := by rw [hη]; field_simp
  have hed : norm3 e ≤ r * η := by have := norm3_nonneg d; linarith
  have hdd : norm3 d ≤ r * η := by have := norm3_nonneg e; linarith
  refine sandwich (δ := δ + η) hd hb hcl hc h0 ?_ ?_
  · filter_upwards [hbody, hbox, eventually_gt_atTop (δ + η)] with R h1 h2 hR m hm
    have hm' : vec (x.sbases.mulVec (Gen.castV m)) ∈ (R - (δ + η)) • K := hm
    have hR' : 0 < R - (δ + η) := by linarith
    have e1 : R - (δ + η) + η = R - δ := by ring
    obtain ⟨⟨lo, hi⟩, hlh⟩ := Voxel.getExtents_ok (v := x) hd h1
    refine ⟨lo, hi, hlh, ?_, ?_⟩
    · have h3 := enlarge hc hr hball hR' hη0 hm' hed
      rw [e1] at h3
      refine cell_mem (f := 0) hlh ⟨⟨by norm_num, by norm_num⟩, ⟨by norm_num, by norm_num⟩, by norm_num, by norm_num⟩ ?_
      rw [siteAt_eq, M3.mulVec_zero, add_zero]
      refine (h2 _ ?_).1
      rw [add_sub_assoc]; exact h3
    · have h3 := enlarge hc hr hball hR' hη0 hm' hdd
      rw [e1] at h3
      rw [siteAt_eq, Vol.interior_iff]
      refine (h2 _ ?_).2
      rw [add_sub_assoc, add_assoc]; exact h3
  · filter_upwards [hout, eventually_gt_atTop (-δ)] with R h2 hR m hm
    obtain ⟨lo, hi, _, _, hin⟩ := hm
    rw [Vol.interior_iff, siteAt_eq] at hin
    have h3 := h2 _ hin
    rw [add_sub_assoc, add_assoc] at h3
    have h4 := enlarge hc hr hball (by linarith : 0 < R + δ) hη0 h3 (d := -d) (by rw [norm3_neg]; exact hdd)
    have e2 : x.sbases.mulVec (Gen.castV m) + (x.sbases.mulVec f + (x.origin - ctr)) + -d = x.sbases.mulVec (Gen.castV m) := by
      rw [hde, he]; abel
    rw [e2, add_assoc] at h4
    exact h4

/-- **C137, general form.** For Volumes that grow like the multiples `R • K` of a convex body (up to a layer of bounded thickness,
as tolerances make), placed anywhere and filled by an unstrained crystal: populate succeeds, and the number of atoms of the
chosen species per volume tends to the number of such basis atoms per volume of the cell.  No condition on the basis. -/
theorem C137_convex_bodies (env : Env) (body : ℝ → Vol) (box : ℝ → List (V3 ℝ)) (c : Gen ℝ) (x : Voxel ℝ) (sites : List (V3 ℝ × ℤ))
    (hP : Gen.Plain c x sites) (hd : x.sbases.det ≠ 0) (K : Set (Fin 3 → ℝ)) (hb : Bornology.IsBounded K) (hcl : IsClosed K)
    (hc : Convex ℝ K) (r : ℝ) (hr : 0 < r) (hball : r • ball ⊆ K) (ctr : V3 ℝ) (δ : ℝ)
    (hbody : ∀ᶠ R in atTop, (body R).boundingBox env = .ok (.rows (box R)) ∧ box R ≠ [] ∧ (body R).gen = some (.crystal c))
    (hbox : ∀ᶠ R in atTop, ∀ p, vec (p - ctr) ∈ (R - δ) • K → p ∈ Region (box R) ∧ Inside env (.vol (body R)) p)
    (hout : ∀ᶠ R in atTop, ∀ p, Inside env (.vol (body R)) p → vec (p - ctr) ∈ (R + δ) • K) (q : ℤ → Bool) (n : ℕ) :
    (∀ᶠ R in atTop, ((body R).populate env n).2 = .ok ()) ∧
    Tendsto (fun R => (number ((body R).populate env n).1 q : ℝ) / (volume.real K * R ^ 3)) atTop
      (𝓝 ((sites.countP fun f => q f.2 : ℕ) / |x.sbases.det|)) := by
  have h0 : (0 : Fin 3 → ℝ) ∈ K := hball ⟨0, ball_zero, smul_zero _⟩
  have hV := volume_pos hb hr hball
  refine ⟨?_, ?_⟩
  · filter_upwards [hbody] with R h
    exact (number_eq h.1 h.2.1 h.2.2 hP hd q n).1
  have key : ∀ f ∈ sites.filter (fun f => q f.2),
      Tendsto (fun R : ℝ => (Nat.card (kept env (body R) x (box R) f.1) : ℝ) / R ^ 3) atTop (𝓝 (volume.real K / |x.sbases.det|)) :=
    fun f _ => site_tendsto hd hb hcl hc hr hball h0 ctr δ (hbody.mono fun R h => h.2.1) hbox hout f.1
  have hs := sum_tendsto (fun f R => Nat.card (kept env (body R) x (box R) f.1)) (volume.real K / |x.sbases.det|)
    (sites.filter fun f => q f.2) key
  generalize volume.real K = V at hV hs ⊢
  have hs := hs.const_mul V⁻¹
  have e3 : ∀ m D : ℝ, V⁻¹ * (m * (V / D)) = m / D := fun m D => by field_simp
  rw [e3, ← List.countP_eq_length_filter] at hs
  refine hs.congr' ?_
  filter_upwards [hbody] with R h
  have e4 : ∀ N : ℝ, V⁻¹ * (N / R ^ 3) = N / (V * R ^ 3) := fun N => by
    rw [div_mul_eq_div_div_swap, div_eq_inv_mul (N / R ^ 3)]
  rw [(number_eq h.1 h.2.1 h.2.2 hP hd q n).2]
  exact e4 _

/-- **C137.** Spheres of growing radius. -/
theorem C137_ball (env : Env) (v : Vol) (hpts : v.points = none) (htri : v.tri = none) (c : Gen ℝ) (hg : v.gen = some (.crystal c))
    (x : Voxel ℝ) (sites : List (V3 ℝ × ℤ)) (hP : Gen.Plain c x sites) (hd : x.sbases.det ≠ 0) (ctr : V3 ℝ) (tol : ℝ)
    (q : ℤ → Bool) (n : ℕ) :
    (∀ᶠ R in atTop, (({ v with algs := [.sphere ⟨R, ctr, tol⟩] } : Vol).populate env n).2 = .ok ()) ∧
    Tendsto (fun R => (number (({ v with algs := [.sphere ⟨R, ctr, tol⟩] } : Vol).populate env n).1 q : ℝ) / (4 / 3 * Real.pi * R ^ 3))
      atTop (𝓝 ((sites.countP fun f => q f.2 : ℕ) / |x.sbases.det|)) := by
  have hin : ∀ R p, Inside env (.vol { v with algs := [.sphere ⟨R, ctr, tol⟩] }) p ↔ (p - ctr).normSq < (R + tol) ^ 2 := by
    intro R p
    rw [← Vol.interior_iff]
    simp [Vol.interior, htri, Alg.interior, Sphere.interior]
  have h := C137_convex_bodies env (fun R => { v with algs := [.sphere ⟨R, ctr, tol⟩] }) (fun R => Vol.sphereBox ⟨R, ctr, tol⟩) c x sites
    hP hd ball ball_bounded ball_closed ball_convex 1 one_pos (by rw [one_smul]) ctr (|tol| + 1) ?_ ?_ ?_ q n
  · rw [ball_volume] at h; exact h
  · refine Eventually.of_forall fun R => ⟨?_, by simp [Vol.sphereBox, Vol.rectPrism], hg⟩
    unfold Vol.boundingBox
    rw [hpts]
    simp [Vol.spheres, Vol.smallest]
  · filter_upwards [eventually_gt_atTop (|tol| + 1)] with R hR p hp
    rw [mem_ball (by linarith)] at hp
    have h1 := neg_abs_le tol
    have h2 := abs_nonneg tol
    refine ⟨ball_in_box _ (by show 0 < R; linarith) p ?_, (hin R p).mpr ?_⟩
    · rw [dist_eq]; show norm3 (p - ctr) ≤ R; linarith
    · rw [← norm3_sq]
      have := norm3_nonneg (p - ctr)
      exact pow_lt_pow_left₀ (by linarith) this two_ne_zero
  · filter_upwards [eventually_gt_atTop (|tol| + 1)] with R hR p hp
    have h1 := neg_abs_le tol
    have h2 := le_abs_self tol
    have h3 := abs_nonneg tol
    rw [mem_ball (by linarith)]
    rw [hin, ← norm3_sq] at hp
    have := abs_lt_of_sq_lt_sq hp (by linarith)
    rw [abs_of_nonneg (norm3_nonneg _)] at this
    linarith

/-- A vector across `a` has no component of `p` longer than the distance of `p` from the axis. -/
theorem across {u a p : V3 ℝ} (hu : u.normSq = 1) (ha : a.normSq = 1) (hua : u.dot a = 0) : |p.dot u| ≤ norm3 (p.cross a) := by
  refine abs_le_of_sq_le_sq ?_ (norm3_nonneg _)
  have h1 := dot_sq_le (p - p.dot a • a) u
  have e1 : (p - p.dot a • a).dot u = p.dot u := by
    have : a.dot u = 0 := by rw [← hua]; simp only [V3.dot]; ring
    rw [dot_sub_left, dot_smul_left, this]; ring
  have e2 : (p - p.dot a • a).normSq = (p.cross a).normSq := by
    rw [normSq_cross, ha]
    have : (p - p.dot a • a).normSq = p.normSq - 2 * p.dot a ^ 2 + p.dot a ^ 2 * a.normSq := by
      simp only [V3.normSq, V3.dot, V3.sub_x, V3.sub_y, V3.sub_z, V3.smul_x, V3.smul_y, V3.smul_z]; ring
    rw [this, ha]; ring
  rw [norm3_sq]
  rw [e1, e2, hu, mul_one] at h1
  exact h1

/-- **C137.** Cylinders growing in both dimensions, of any direction but the space diagonal (for which there is no box, C26). -/
theorem C137_cylinder (env : Env) (v : Vol) (hpts : v.points = none) (htri : v.tri = none) (c : Gen ℝ) (hg : v.gen = some (.crystal c))
    (x : Voxel ℝ) (sites : List (V3 ℝ × ℤ)) (hP : Gen.Plain c x sites) (hd : x.sbases.det ≠ 0) (a ctr : V3 ℝ) (r l tol : ℝ)
    (ha : norm3 a = 1) (hdiag : ¬ Parallel a ⟨1, 1, 1⟩) (hr : 0 < r) (hl : 0 < l) (q : ℤ → Bool) (n : ℕ) :
    (∀ᶠ R in atTop, (({ v with algs := [.cyl ⟨a, ctr, R * r, R * l, tol⟩] } : Vol).populate env n).2 = .ok ()) ∧
    Tendsto (fun R => (number (({ v with algs := [.cyl ⟨a, ctr, R * r, R * l, tol⟩] } : Vol).populate env n).1 q : ℝ) /
        (Real.pi * (R * r) ^ 2 * (R * l))) atTop (𝓝 ((sites.countP fun f => q f.2 : ℕ) / |x.sbases.det|)) := by
  have ha' : a.normSq = 1 := norm3_eq_one.mp ha
  have hbx : ∀ R : ℝ, ∃ box, (⟨a, ctr, R * r, R * l, tol⟩ : Cylinder).bbox = .ok box := fun R =>
    (C26_cylinder_box_iff ⟨a, ctr, R * r, R * l, tol⟩ ha).mpr hdiag
  choose box hbox using hbx
  obtain ⟨u, w, hu, -, -, hua, -, -, -⟩ := bbox_frame (c := ⟨a, ctr, 1 * r, 1 * l, tol⟩) ha (hbox 1)
  have hua : u.dot a = 0 := hua
  have hreg : ∀ R : ℝ, 0 < R → ∀ p, norm3 ((p - ctr).cross a) ≤ R * r → |(p - ctr).dot a| ≤ R * (l / 2) → p ∈ Region (box R) := by
    intro R hR p h1 h2
    obtain ⟨u', w', h3, h4, h5, h6, h7, h8⟩ := C135_box_region (c := ⟨a, ctr, R * r, R * l, tol⟩) (by rw [len_eq]; exact ha)
      (mul_pos hR hr) (mul_pos hR hl) (hbox R)
    rw [len_eq, norm3_eq_one] at h3 h4
    refine (h8 p).mpr ⟨(across h3 ha' h6).trans h1, (across h4 ha' h7).trans h1, ?_⟩
    refine h2.trans (le_of_eq ?_)
    show R * (l / 2) = R * l / 2
    ring
  have hin : ∀ R p, Inside env (.vol { v with algs := [.cyl ⟨a, ctr, R * r, R * l, tol⟩] }) p ↔
      norm3 ((p - ctr).cross a) < R * r + tol ∧ |(p - ctr).dot a| < R * l / 2 + tol := by
    intro R p
    rw [← Vol.interior_iff]
    simp [Vol.interior, htri, Alg.interior, Cylinder.interior]
  have hl2 : 0 < l / 2 := by linarith
  set δ := (|tol| + 1) / r + (|tol| + 1) / (l / 2) with hδ
  have ht0 := abs_nonneg tol
  have ht1 := neg_abs_le tol
  have ht2 := le_abs_self tol
  have hδ0 : 0 < δ := by positivity
  have hδr : |tol| + 1 ≤ δ * r := by
    have : (|tol| + 1) / r * r = |tol| + 1 := div_mul_cancel₀ _ hr.ne'
    have h3 : 0 ≤ (|tol| + 1) / (l / 2) * r := by positivity
    rw [hδ, add_mul, this]; linarith
  have hδl : |tol| + 1 ≤ δ * (l / 2) := by
    have : (|tol| + 1) / (l / 2) * (l / 2) = |tol| + 1 := div_mul_cancel₀ _ hl2.ne'
    have h3 : 0 ≤ (|tol| + 1) / r * (l / 2) := by positivity
    rw [hδ, add_mul, this]; linarith
  have hm : 0 < min r (l / 2) := lt_min hr hl2
  have h := C137_convex_bodies env (fun R => { v with algs := [.cyl ⟨a, ctr, R * r, R * l, tol⟩] }) box c x sites
    hP hd (tube u a r (l / 2)) (tube_bounded hu ha' hua _ _) (tube_closed _ _) (tube_convex hr.le _) (min r (l / 2)) hm
    (ball_tube hu ha' hua hm (min_le_left _ _) (min_le_right _ _)) ctr δ ?_ ?_ ?_ q n
  · rw [tube_volume hu ha' hua hr.le hl2.le] at h
    refine ⟨h.1, h.2.congr fun R => ?_⟩
    congr 1
    ring
  · filter_upwards [eventually_gt_atTop 0] with R hR
    refine ⟨?_, ?_, hg⟩
    · unfold Vol.boundingBox
      rw [hpts]
      simp [Vol.spheres, Vol.planes, Vol.cylinders, hbox, Except.map]
    · intro h0
      have h1 := (C135_box_rows (c := ⟨a, ctr, R * r, R * l, tol⟩) (by rw [len_eq]; exact ha) (hbox R)).1
      rw [h0] at h1
      simp at h1
  · filter_upwards [eventually_gt_atTop δ] with R hR p hp
    rw [mem_tube hu ha' hua hr.le (by linarith)] at hp
    rw [sub_mul, sub_mul] at hp
    refine ⟨hreg R (by linarith) p (by linarith [hp.1]) (by linarith [hp.2]), (hin R p).mpr ⟨by linarith [hp.1], ?_⟩⟩
    have e : R * l / 2 = R * (l / 2) := by ring
    rw [e]; linarith [hp.2]
  · filter_upwards [eventually_gt_atTop 0] with R hR p hp
    rw [mem_tube hu ha' hua hr.le (by linarith)]
    rw [hin] at hp
    have e : R * l / 2 = R * (l / 2) := by ring
    rw [e] at hp
    rw [add_mul R δ r, add_mul R δ (l / 2)]
    exact ⟨by linarith [hp.1], by linarith [hp.2]⟩

/-- `vec` as a linear map. -/
def vecLin : V3 ℝ →ₗ[ℝ] (Fin 3 → ℝ) where
  toFun := vec
  map_add' := vec_add
  map_smul' := vec_smul

theorem vec_injective : Function.Injective vec := by
  intro p q h
  ext
  · exact congrFun h 0
  · exact congrFun h 1
  · exact congrFun h 2

/-- The solid spanned by points. -/
def solid (ps : List (V3 ℝ)) : Set (Fin 3 → ℝ) := vec '' Region ps

theorem solid_eq (ps : List (V3 ℝ)) : solid ps = convexHull ℝ (vec '' {p | p ∈ ps}) := vecLin.image_convexHull _

theorem solid_compact (ps : List (V3 ℝ)) : IsCompact (solid ps) := by
  rw [solid_eq]
  exact ((List.finite_toSet ps).image _).isCompact_convexHull ℝ

theorem solid_scaled (ps : List (V3 ℝ)) (ctr : V3 ℝ) (R : ℝ) (p : V3 ℝ) :
    p ∈ Region (ps.map fun p => ctr + R • p) ↔ vec (p - ctr) ∈ R • solid ps := by
  have h1 : Region (ps.map fun p => ctr + R • p) = (fun p => ctr + R • p) '' Region ps := by
    have e : {p | p ∈ ps.map fun p => ctr + R • p} = (fun p => ctr + R • p) '' {p | p ∈ ps} := by
      ext q; simp
    unfold Region
    rw [e]
    exact (((AffineMap.const ℝ (V3 ℝ) ctr) + R • (AffineMap.id ℝ (V3 ℝ))).image_convexHull _).symm
  rw [h1]
  constructor
  · rintro ⟨q, hq, rfl⟩
    simp only [add_sub_cancel_left]
    rw [vec_smul]
    exact Set.smul_mem_smul_set ⟨q, hq, rfl⟩
  · rintro ⟨_, ⟨q, hq, rfl⟩, h⟩
    refine ⟨q, hq, ?_⟩
    have h2 : vec (R • q) = vec (p - ctr) := by rw [vec_smul]; exact h
    show ctr + R • q = p
    rw [vec_injective h2]
    abel

/-- **C137.** Convex hulls of points moving apart about a point inside, tolerance 0, exact point location. -/
theorem C137_hull (env : Env) (he : ExactHull env) (v : Vol) (halg : v.algs = []) (c : Gen ℝ) (hg : v.gen = some (.crystal c))
    (x : Voxel ℝ) (sites : List (V3 ℝ × ℤ)) (hP : Gen.Plain c x sites) (hd : x.sbases.det ≠ 0) (ps : List (V3 ℝ)) (ctr : V3 ℝ) (r : ℝ)
    (hr : 0 < r) (hin : ∀ p, norm3 p ≤ r → p ∈ Region ps) (q : ℤ → Bool) (n : ℕ) :
    (∀ᶠ R : ℝ in atTop, (({ v with points := some (.arr (ps.map fun p => ctr + R • p)), tri := some (ps.map fun p => ctr + R • p), tol := 0 } : Vol).populate env n).2 = .ok ()) ∧
    Tendsto (fun R : ℝ => (number (({ v with points := some (.arr (ps.map fun p => ctr + R • p)), tri := some (ps.map fun p => ctr + R • p), tol := 0 } : Vol).populate env n).1 q : ℝ) /
        (volume.real (solid ps) * R ^ 3)) atTop (𝓝 ((sites.countP fun f => q f.2 : ℕ) / |x.sbases.det|)) := by
  have hne : ps ≠ [] := by
    rintro rfl
    have := hin 0 (by rw [(norm3_eq_zero _).mpr rfl]; exact hr.le)
    simp [Region] at this
  have hins : ∀ (R : ℝ) p, Inside env (.vol { v with points := some (.arr (ps.map fun p => ctr + R • p)), tri := some (ps.map fun p => ctr + R • p), tol := 0 }) p ↔
      p ∈ Region (ps.map fun p => ctr + R • p) := by
    intro R p
    rw [← Vol.interior_iff]
    simp only [Vol.interior, halg, List.all_nil, Bool.and_true]
    exact ⟨he.only _ _, he.mem _ _ _ le_rfl⟩
  refine C137_convex_bodies env _ (fun R => ps.map fun p => ctr + R • p) c x sites hP hd (solid ps) (solid_compact ps).isBounded
    (solid_compact ps).isClosed (by rw [solid_eq]; exact convex_convexHull ℝ _) r hr ?_ ctr 0 ?_ ?_ ?_ q n
  · intro y hy
    obtain ⟨p, rfl⟩ : ∃ p : V3 ℝ, y = vec p := ⟨⟨y 0, y 1, y 2⟩, by ext i; fin_cases i <;> rfl⟩
    rw [mem_ball hr] at hy
    exact ⟨p, hin p hy, rfl⟩
  · exact Eventually.of_forall fun R => ⟨rfl, by simpa using hne, hg⟩
  · refine Eventually.of_forall fun R p hp => ?_
    rw [sub_zero, ← solid_scaled ps ctr R] at hp
    exact ⟨hp, (hins R p).mpr hp⟩
  · refine Eventually.of_forall fun R p hp => ?_
    rw [add_zero, ← solid_scaled ps ctr R]
    exact (hins R p).mp hp

/-- The corners of a block `a × b × c` centred at the origin (`makeRectPrism(a, b, c)` moved). -/
def block (a b c : ℝ) : List (V3 ℝ) := (Vol.rectPrism a b c).map (· - (1 / 2 : ℝ) • (⟨a, b, c⟩ : V3 ℝ))

theorem block_mem {a b c : ℝ} {p : V3 ℝ} (ha : 0 < a) (hb : 0 < b) (hc : 0 < c) :
    p ∈ Region (block a b c) ↔ |p.x| ≤ a / 2 ∧ |p.y| ≤ b / 2 ∧ |p.z| ≤ c / 2 := by
  constructor
  · intro h
    have key : ∀ (f : V3 ℝ → ℝ), (∀ (p q : V3 ℝ) (s t : ℝ), f (s • p + t • q) = s * f p + t * f q) → ∀ d : ℝ, (∀ p ∈ block a b c, |f p| ≤ d) → |f p| ≤ d := by
      intro f hf d hd
      refine abs_le.mpr ⟨?_, region_le f hf (fun p hp => (abs_le.mp (hd p hp)).2) h⟩
      have := region_le (fun p => - f p) (c := d) (fun p q s t => by simp only [hf]; ring) (fun p hp => by linarith [(abs_le.mp (hd p hp)).1]) h
      linarith
    have ea : |a| = a := abs_of_pos ha
    have eb : |b| = b := abs_of_pos hb
    have ec : |c| = c := abs_of_pos hc
    have e1 : ∀ t : ℝ, t - 2⁻¹ * t = t / 2 := fun t => by ring
    refine ⟨key V3.x (fun p q s t => by simp) _ ?_, key V3.y (fun p q s t => by simp) _ ?_, key V3.z (fun p q s t => by simp) _ ?_⟩ <;>
      simp [block, Vol.rectPrism, abs_mul, abs_div, ea, eb, ec, e1] <;> linarith
  · rintro ⟨h1, h2, h3⟩
    have hm : ∀ p : V3 ℝ, (p.x = a / 2 ∨ p.x = -(a / 2)) → (p.y = b / 2 ∨ p.y = -(b / 2)) → (p.z = c / 2 ∨ p.z = -(c / 2)) →
        p ∈ Region (block a b c) := by
      intro p hx hy hz
      apply region_mem
      refine List.mem_map.mpr ⟨⟨p.x + a / 2, p.y + b / 2, p.z + c / 2⟩, ?_, ?_⟩
      · rcases hx with hx | hx <;> rcases hy with hy | hy <;> rcases hz with hz | hz <;>
          simp [hx, hy, hz, Vol.rectPrism]
      · ext <;> simp <;> ring
    have e : p = (0 : V3 ℝ) + (p.x / (a / 2)) • (⟨a / 2, 0, 0⟩ : V3 ℝ) + (p.y / (b / 2)) • (⟨0, b / 2, 0⟩ : V3 ℝ) + (p.z / (c / 2)) • (⟨0, 0, c / 2⟩ : V3 ℝ) := by
      ext <;> simp <;> field_simp
    have habs : ∀ x t : ℝ, 0 < t → |x| ≤ t → |x / t| ≤ 1 := fun x t ht h => by rw [abs_div, abs_of_pos ht, div_le_one ht]; exact h
    rw [e]
    refine parallelepiped_mem (region_convex _) ?_ ?_ ?_ ?_ ?_ ?_ ?_ ?_ (habs _ _ (by linarith) h1) (habs _ _ (by linarith) h2) (habs _ _ (by linarith) h3) <;>
      (apply hm <;> simp)

theorem block_volume {a b c : ℝ} (ha : 0 < a) (hb : 0 < b) (hc : 0 < c) : volume.real (solid (block a b c)) = a * b * c := by
  have h : solid (block a b c) = Set.Icc ![-(a / 2), -(b / 2), -(c / 2)] ![a / 2, b / 2, c / 2] := by
    ext y
    obtain ⟨p, rfl⟩ : ∃ p : V3 ℝ, y = vec p := ⟨⟨y 0, y 1, y 2⟩, by ext i; fin_cases i <;> rfl⟩
    rw [solid, vec_injective.mem_set_image, block_mem ha hb hc]
    simp only [Set.mem_Icc, Pi.le_def, Fin.forall_fin_succ, vec, abs_le]
    simp
    tauto
  rw [h, Measure.real, Real.volume_Icc_pi_toReal]
  · simp [Fin.prod_univ_three]
  · intro i; fin_cases i <;> simp <;> linarith

/-- **C137.** Blocks of growing size. -/
theorem C137_block (env : Env) (he : ExactHull env) (v : Vol) (halg : v.algs = []) (g : Gen ℝ) (hg : v.gen = some (.crystal g))
    (x : Voxel ℝ) (sites : List (V3 ℝ × ℤ)) (hP : Gen.Plain g x sites) (hd : x.sbases.det ≠ 0) (a b c : ℝ) (ha : 0 < a) (hb : 0 < b)
    (hc : 0 < c) (ctr : V3 ℝ) (q : ℤ → Bool) (n : ℕ) :
    Tendsto (fun R : ℝ => (number (({ v with points := some (.arr ((block a b c).map fun p => ctr + R • p)), tri := some ((block a b c).map fun p => ctr + R • p), tol := 0 } : Vol).populate env n).1 q : ℝ) /
        ((R * a) * (R * b) * (R * c))) atTop (𝓝 ((sites.countP fun f => q f.2 : ℕ) / |x.sbases.det|)) := by
  have hm : 0 < min (a / 2) (min (b / 2) (c / 2)) := by simp; exact ⟨ha, hb, hc⟩
  have h := (C137_hull env he v halg g hg x sites hP hd (block a b c) ctr (min (a / 2) (min (b / 2) (c / 2))) hm (fun p hp => ?_) q n).2
  · rw [block_volume ha hb hc] at h
    refine h.congr fun R => ?_
    congr 1
    ring
  · rw [block_mem ha hb hc]
    have hc' := coord_le_dist p 0
    rw [dist_eq, sub_zero] at hc'
    simp only [V3.zero_x, V3.zero_y, V3.zero_z, sub_zero] at hc'
    simp only [le_min_iff] at hp
    exact ⟨hc'.1.trans hp.1, hc'.2.1.trans hp.2.1, hc'.2.2.trans hp.2.2⟩

/-- **C137.** The composition of a large ball is that of the cell. -/
theorem C137_composition (env : Env) (v : Vol) (hpts : v.points = none) (htri : v.tri = none) (c : Gen ℝ) (hg : v.gen = some (.crystal c))
    (x : Voxel ℝ) (sites : List (V3 ℝ × ℤ)) (hs : sites ≠ []) (hP : Gen.Plain c x sites) (hd : x.sbases.det ≠ 0) (ctr : V3 ℝ) (tol : ℝ)
    (Z : ℤ) (n : ℕ) :
    Tendsto (fun R => (number (({ v with algs := [.sphere ⟨R, ctr, tol⟩] } : Vol).populate env n).1 (· = Z) : ℝ) /
        number (({ v with algs := [.sphere ⟨R, ctr, tol⟩] } : Vol).populate env n).1 fun _ => true)
      atTop (𝓝 ((sites.countP fun f => f.2 = Z : ℕ) / sites.length)) := by
  have h1 := (C137_ball env v hpts htri c hg x sites hP hd ctr tol (· = Z) n).2
  have h2 := (C137_ball env v hpts htri c hg x sites hP hd ctr tol (fun _ => true) n).2
  have hD : |x.sbases.det| ≠ 0 := abs_ne_zero.mpr hd
  have hl : (sites.length : ℝ) ≠ 0 := by
    rw [Nat.cast_ne_zero]; exact fun h => hs (List.length_eq_zero_iff.mp h)
  have e1 : (sites.countP fun _ => true) = sites.length := by simp
  rw [e1] at h2
  have h3 := h1.div h2 (div_ne_zero hl hD)
  rw [div_div_div_cancel_right₀ hD] at h3
  refine h3.congr' ?_
  filter_upwards [eventually_gt_atTop 0] with R hR
  have hV : 4 / 3 * Real.pi * R ^ 3 ≠ 0 := by have := Real.pi_pos; positivity
  simp only [Pi.div_apply]
  rw [div_div_div_cancel_right₀ hV]

/-- A cell of volume 8 with two sodium and one chlorine atom; one basis position is given outside the cell. -/
def saltGen : Gen ℝ :=
  ⟨some ⟨1, [(0, 11), (⟨1 / 2, 0, 0⟩, 11), (⟨5 / 2, 1 / 2, 0⟩, 17)]⟩, some ⟨1, .scalar 2, ⟨1, 0, 0⟩⟩, none, none⟩

/-- A Volume without surfaces that is filled by this crystal. -/
def saltVol : Vol := { Vol.blank (1 / 10 ^ 5) with gen := some (.crystal saltGen) }

theorem salt_det : (⟨1, .scalar 2, ⟨1, 0, 0⟩⟩ : Voxel ℝ).sbases.det = 8 := by
  simp only [M3.one_def]
  norm_num [Voxel.sbases, M3.det, M3.smul_def]

/-- A case of `C137_ball`: 2 / 8 sodium atoms per unit of volume. -/
example (env : Env) : Tendsto (fun R => (number (({ saltVol with algs := [.sphere ⟨R, ⟨1, 2, 3⟩, 1 / 10 ^ 5⟩] } : Vol).populate env 0).1 (· = 11) : ℝ) /
    (4 / 3 * Real.pi * R ^ 3)) atTop (𝓝 (1 / 4)) := by
  have h := (C137_ball env saltVol rfl rfl saltGen rfl _ _ ⟨rfl, ⟨1, rfl⟩, rfl, rfl⟩ (by rw [salt_det]; norm_num) ⟨1, 2, 3⟩ (1 / 10 ^ 5)
    (· = 11) 0).2
  convert h using 2
  rw [salt_det]
  norm_num [List.countP_cons]

/-- A case of `C137_composition`: a third of the atoms is chlorine. -/
example (env : Env) : Tendsto (fun R => (number (({ saltVol with algs := [.sphere ⟨R, 0, 0⟩] } : Vol).populate env 0).1 (· = 17) : ℝ) /
    number (({ saltVol with algs := [.sphere ⟨R, 0, 0⟩] } : Vol).populate env 0).1 fun _ => true) atTop (𝓝 (1 / 3)) := by
  have h := C137_composition env saltVol rfl rfl saltGen rfl _ _ (by simp) ⟨rfl, ⟨1, rfl⟩, rfl, rfl⟩ (by rw [salt_det]; norm_num) 0 0 17 0
  convert h using 2
  norm_num [List.countP_cons]

/-- A case of `C137_cylinder`: rods along the third axis. -/
example (env : Env) : Tendsto (fun R => (number (({ saltVol with algs := [.cyl ⟨⟨0, 0, 1⟩, 0, R * 1, R * 3, 1 / 10 ^ 5⟩] } : Vol).populate env 0).1 (· = 17) : ℝ) /
    (Real.pi * (R * 1) ^ 2 * (R * 3))) atTop (𝓝 (1 / 8)) := by
  have h := (C137_cylinder env saltVol rfl rfl saltGen rfl _ _ ⟨rfl, ⟨1, rfl⟩, rfl, rfl⟩ (by rw [salt_det]; norm_num) ⟨0, 0, 1⟩ 0 1 3 (1 / 10 ^ 5)
    (norm3_eq_one.mpr (by simp [V3.normSq, V3.dot])) ?_ one_pos (by norm_num) (· = 17) 0).2
  · convert h using 2
    rw [salt_det]
    norm_num [List.countP_cons]
  · rintro (⟨t, ht⟩ | ⟨t, ht⟩)
    · have := congrArg V3.x ht; simp at this
    · have h1 := congrArg V3.x ht; have h2 := congrArg V3.z ht; simp at h1 h2; linarith

/-- A case of `C137_block`. -/
example : Tendsto (fun R : ℝ => (number (({ saltVol with points := some (.arr ((block 1 2 3).map fun p => ⟨5, 0, 0⟩ + R • p)), tri := some ((block 1 2 3).map fun p => ⟨5, 0, 0⟩ + R • p), tol := 0 } : Vol).populate exactEnv 0).1 (fun _ => true) : ℝ) /
    ((R * 1) * (R * 2) * (R * 3))) atTop (𝓝 (3 / 8)) := by
  have h := C137_block exactEnv exactEnv_exact saltVol rfl saltGen rfl _ _ ⟨rfl, ⟨1, rfl⟩, rfl, rfl⟩ (by rw [salt_det]; norm_num) 1 2 3
    one_pos two_pos three_pos ⟨5, 0, 0⟩ (fun _ => true) 0
  convert h using 2
  rw [salt_det]
  norm_num

end Density
end
end CZ
