import Verif.Props.VolumeFill

/-!
# Further volume properties: C23 for MultiVolumes, C26 (choice of the sphere), C81, C82
-/

namespace CZ
open Spec

noncomputable section
open Classical

/-! ## C23 for trees -/

/-- Volumes `from_volume()` can copy faithfully: default tolerance, a generator, hull and triangulation belonging to the
points. -/
inductive Copyable (env : Env) : VTree → Prop
  | vol (v : Vol) (g : GenObj) (hg : v.gen = some g) (ht : v.tol = 1 / 10 ^ 10)
      (hcon : (v.points = none ∧ v.tri = none) ∨
        ∃ ps, v.points = some (.arr ps) ∧ v.tri = some ps ∧ 3 < ps.length ∧ env.hullOk ps = true) : Copyable env (.vol v)
  | multi (vs : List VTree) (pr : ℤ) (h : Option (List (V3 ℝ) × List ℤ)) (hv : ∀ t ∈ vs, Copyable env t) :
      Copyable env (.multi vs pr h)

/-- `w` is a copy of `t`: same shape, same priorities at every level, same region and generator at every leaf. -/
inductive SameTree (env : Env) : VTree → VTree → Prop
  | vol (v w : Vol) (hp : w.priority = v.priority) (hg : w.gen = v.gen)
      (hi : ∀ p, Inside env (.vol w) p ↔ Inside env (.vol v) p) : SameTree env (.vol v) (.vol w)
  | multi (vs ws : List VTree) (pr : ℤ) (h h' : Option (List (V3 ℝ) × List ℤ)) (hv : List.Forall₂ (SameTree env) vs ws) :
      SameTree env (.multi vs pr h) (.multi ws pr h')

/-- **C23 for MultiVolumes (partial).** `from_volume()` of a tree of Volumes succeeds and copies it at every level,
priorities included.  Missing: trees with a Volume that cannot be copied (see `C23_copy_partial`). -/
theorem C23_tree_partial (env : Env) (t : VTree) (h : Copyable env t) :
    ∃ w, t.fromVolume env none [] = .ok w ∧ SameTree env t w := by
  induction h with
  | vol v g hg ht hcon =>
    obtain ⟨w, h1, h2, h3, h4⟩ := C23_copy_partial env v g hg ht hcon
    exact ⟨.vol w, by rw [VTree.fromVolume, h1]; rfl, .vol v w h3 h4 h2⟩
  | multi vs pr hd hv ih =>
    have : ∃ ws, VTree.fromVolumeList env none [] vs = .ok ws ∧ List.Forall₂ (SameTree env) vs ws := by
      clear hv
      induction vs with
      | nil => exact ⟨[], by rw [VTree.fromVolumeList], .nil⟩
      | cons v vs ihv =>
        obtain ⟨w, h1, h2⟩ := ih v List.mem_cons_self
        obtain ⟨ws, h3, h4⟩ := ihv fun x hx => ih x (List.mem_cons_of_mem _ hx)
        exact ⟨w :: ws, by rw [VTree.fromVolumeList, h1, h3]; rfl, .cons h2 h4⟩
    obtain ⟨ws, h1, h2⟩ := this
    exact ⟨.multi ws pr none, by rw [VTree.fromVolume, h1]; rfl, .multi _ _ _ _ _ h2⟩

/-- Concrete case: a MultiVolume of priority 7 with one ball. -/
example (env : Env) : Copyable env (.multi [.vol ⟨none, none, none, [.sphere ⟨1, 0, 1⟩], some .null, 2, 1 / 10 ^ 10, none, none⟩] 7 none) := by
  refine .multi _ _ _ fun t ht => ?_
  rw [List.mem_singleton] at ht
  subst ht
  exact .vol _ .null rfl rfl (.inl ⟨rfl, rfl⟩)

/-! ## C26, which sphere is used -/

theorem smallest_le (ss : List Sphere) : ∀ s, ∀ t ∈ s :: ss, (Vol.smallest s ss).radius ≤ t.radius := by
  induction ss with
  | nil => intro s t ht; rw [List.mem_singleton] at ht; subst ht; exact le_rfl
  | cons a as ih =>
    intro s t ht
    unfold Vol.smallest
    split
    · rename_i h
      rcases List.mem_cons.mp ht with rfl | ht
      · exact (ih a a List.mem_cons_self).trans h.le
      · exact ih a t ht
    · rename_i h
      rcases List.mem_cons.mp ht with rfl | ht
      · exact ih t t List.mem_cons_self
      · rcases List.mem_cons.mp ht with rfl | ht
        · exact (ih s s List.mem_cons_self).trans (not_lt.mp h)
        · exact ih s t (List.mem_cons_of_mem _ ht)

theorem sphereBox_width (s : Sphere) (hr : 0 ≤ s.radius) (p : V3 ℝ) (hp : p ∈ Region (Vol.sphereBox s)) :
    |p.x - s.center.x| ≤ s.radius ∧ |p.y - s.center.y| ≤ s.radius ∧ |p.z - s.center.z| ≤ s.radius := by
  have key : ∀ q ∈ Vol.sphereBox s, |q.x - s.center.x| ≤ s.radius ∧ |q.y - s.center.y| ≤ s.radius ∧ |q.z - s.center.z| ≤ s.radius := by
    intro q hq
    unfold Vol.sphereBox at hq
    obtain ⟨c, hc, rfl⟩ := List.mem_map.mp hq
    simp only [Vol.rectPrism, List.mem_cons, List.not_mem_nil, or_false] at hc
    rcases hc with rfl | rfl | rfl | rfl | rfl | rfl | rfl | rfl <;> simp only [V3.add_x, V3.add_y, V3.add_z, V3.sub_x, V3.sub_y,
      V3.sub_z, V3.smul_x, V3.smul_y, V3.smul_z] <;> refine ⟨?_, ?_, ?_⟩ <;> rw [abs_le] <;> constructor <;> linarith
  have up : ∀ f : V3 ℝ → ℝ, (∀ (p q : V3 ℝ) (a b : ℝ), f (a • p + b • q) = a * f p + b * f q) →
      (∀ q ∈ Vol.sphereBox s, |f q - f s.center| ≤ s.radius) → |f p - f s.center| ≤ s.radius := by
    intro f hf hq
    rw [abs_le]
    constructor
    · have := region_le (c := s.radius - f s.center) (fun q => -f q) (fun p q a b => by simp only [hf]; ring)
        (fun q hq' => by have := (abs_le.mp (hq q hq')).1; linarith) hp
      linarith
    · have := region_le (c := s.radius + f s.center) f hf
        (fun q hq' => by have := (abs_le.mp (hq q hq')).2; linarith) hp
      linarith
  exact ⟨up (·.x) (fun _ _ _ _ => rfl) fun q hq => (key q hq).1, up (·.y) (fun _ _ _ _ => rfl) fun q hq => (key q hq).2.1,
    up (·.z) (fun _ _ _ _ => rfl) fun q hq => (key q hq).2.2⟩

/-- **C26 (tightness for spheres).** The bounding box is the cube around a sphere of smallest radius: no point of it is
further from the center of that sphere, along any axis, than the radius of any of the spheres. -/
theorem C26_sphere_box_tight (env : Env) (v : Vol) (hp : v.points = none) (hs : v.spheres ≠ [])
    (hr : ∀ s, Alg.sphere s ∈ v.algs → 0 < s.radius) :
    ∃ box, v.boundingBox env = .ok (.rows box) ∧ ∃ s, Alg.sphere s ∈ v.algs ∧ ∀ p ∈ Region box, ∀ t, Alg.sphere t ∈ v.algs →
      |p.x - s.center.x| ≤ t.radius ∧ |p.y - s.center.y| ≤ t.radius ∧ |p.z - s.center.z| ≤ t.radius := by
  cases h : v.spheres with
  | nil => exact absurd h hs
  | cons s ss =>
    have hm : Vol.smallest s ss ∈ v.spheres := by rw [h]; exact smallest_mem ss s
    refine ⟨_, by unfold Vol.boundingBox; rw [hp, h], _, mem_spheres.mp hm, ?_⟩
    intro p hpb t ht
    have hle : (Vol.smallest s ss).radius ≤ t.radius := smallest_le ss s t (by rw [← h]; exact mem_spheres.mpr ht)
    obtain ⟨h1, h2, h3⟩ := sphereBox_width _ (hr _ (mem_spheres.mp hm)).le p hpb
    exact ⟨h1.trans hle, h2.trans hle, h3.trans hle⟩

/-! ## C81 -/

/-- **C81.** `Volume(..., generator=g, gen_origin=o)`: the volume gets the given crystal with its origin moved to `o`; cell,
structure, strain and post transform are those of `g`.  Without `gen_origin` the generator is taken as it is. -/
theorem C81_generator_origin (env : Env) (points : Option (List (V3 ℝ))) (algs : List Alg) (g : Gen ℝ) (x : Voxel ℝ)
    (hx : g.voxel = some x) (pr : ℤ) (tol : ℝ) (o : Option (V3 ℝ)) (v : Vol)
    (h : Vol.make env points algs (some (.crystal g)) pr tol o = .ok v) :
    ∃ c y, v.gen = some (.crystal c) ∧ c.voxel = some y ∧ y.origin = o.getD x.origin ∧ y.bases = x.bases ∧
      y.scale = x.scale ∧ c.struct = g.struct ∧ c.strain = g.strain ∧ c.post = g.post := by
  have hf : ∀ (as : List Alg) (w : Vol), (as.foldl Vol.addAlg w).gen = w.gen := by
    intro as
    induction as with
    | nil => intro w; rfl
    | cons a as ih => intro w; rw [List.foldl_cons, ih]; rfl
  obtain ⟨c, y, hadd, hc⟩ : ∃ c y, (∀ w : Vol, w.addGenerator (some (.crystal g)) o =
      ({ w with gen := (some (.crystal c) : Option GenObj) }, .ok ())) ∧ c.voxel = some y ∧ y.origin = o.getD x.origin ∧
      y.bases = x.bases ∧ y.scale = x.scale ∧ c.struct = g.struct ∧ c.strain = g.strain ∧ c.post = g.post := by
    cases o with
    | none => exact ⟨g, x, fun w => rfl, hx, rfl, rfl, rfl, rfl, rfl, rfl⟩
    | some o =>
      refine ⟨{ g with voxel := some { x with origin := o } }, { x with origin := o }, fun w => ?_, rfl, rfl, rfl, rfl, rfl, rfl, rfl⟩
      simp only [Vol.addGenerator, hx]
  refine ⟨c, y, ?_, hc⟩
  unfold Vol.make at h
  simp only [bind, Except.bind, pure, Except.pure, hadd] at h
  cases points with
  | none =>
    simp only at h
    rw [← Except.ok.inj h, hf]
  | some ps =>
    simp only at h
    split at h
    · rw [← Except.ok.inj h, hf]
    · cases h

/-- Concrete case: a ball filled by a crystal placed at (1,2,3). -/
example (env : Env) : ∃ v, Vol.make env none [.sphere ⟨1, 0, 1⟩] (some (.crystal ⟨none, some ⟨1, .scalar 1, 0⟩, none, none⟩)) 0 1
    (some ⟨1, 2, 3⟩) = .ok v := ⟨_, rfl⟩

/-! ## C82 -/

theorem prism_region (a b c : ℝ) (ha : 0 ≤ a) (hb : 0 ≤ b) (hc : 0 ≤ c) (d p : V3 ℝ) :
    p ∈ Region ((Vol.rectPrism a b c).map (· + d)) ↔
      (d.x ≤ p.x ∧ p.x ≤ d.x + a) ∧ (d.y ≤ p.y ∧ p.y ≤ d.y + b) ∧ (d.z ≤ p.z ∧ p.z ≤ d.z + c) := by
  constructor
  · intro hp
    have key : ∀ q ∈ (Vol.rectPrism a b c).map (· + d),
        (d.x ≤ q.x ∧ q.x ≤ d.x + a) ∧ (d.y ≤ q.y ∧ q.y ≤ d.y + b) ∧ (d.z ≤ q.z ∧ q.z ≤ d.z + c) := by
      intro q hq
      obtain ⟨e, he, rfl⟩ := List.mem_map.mp hq
      simp only [Vol.rectPrism, List.mem_cons, List.not_mem_nil, or_false] at he
      rcases he with rfl | rfl | rfl | rfl | rfl | rfl | rfl | rfl <;> simp only [V3.add_x, V3.add_y, V3.add_z] <;>
        refine ⟨⟨?_, ?_⟩, ⟨?_, ?_⟩, ?_, ?_⟩ <;> linarith
    have lo : ∀ f : V3 ℝ → ℝ, (∀ (p q : V3 ℝ) (a b : ℝ), f (a • p + b • q) = a * f p + b * f q) → ∀ l u : ℝ,
        (∀ q ∈ (Vol.rectPrism a b c).map (· + d), l ≤ f q ∧ f q ≤ u) → l ≤ f p ∧ f p ≤ u := by
      intro f hf l u hq
      constructor
      · have := region_le (c := -l) (fun q => -f q) (fun p q a b => by simp only [hf]; ring)
          (fun q hq' => by have := (hq q hq').1; linarith) hp
        linarith
      · exact region_le f hf (fun q hq' => (hq q hq').2) hp
    exact ⟨lo (·.x) (fun _ _ _ _ => rfl) _ _ fun q hq => (key q hq).1, lo (·.y) (fun _ _ _ _ => rfl) _ _ fun q hq => (key q hq).2.1,
      lo (·.z) (fun _ _ _ _ => rfl) _ _ fun q hq => (key q hq).2.2⟩
  · rintro ⟨⟨x1, x2⟩, ⟨y1, y2⟩, z1, z2⟩
    have hS := region_convex ((Vol.rectPrism a b c).map (· + d))
    have key : ∀ i j k : ℝ, (i = 0 ∨ i = a) → (j = 0 ∨ j = b) → (k = 0 ∨ k = c) →
        (⟨i, j, k⟩ : V3 ℝ) + d ∈ Region ((Vol.rectPrism a b c).map (· + d)) := by
      intro i j k hi hj hk
      apply region_mem
      refine List.mem_map.mpr ⟨_, ?_, rfl⟩
      rcases hi with rfl | rfl <;> rcases hj with rfl | rfl <;> rcases hk with rfl | rfl <;> simp [Vol.rectPrism]
    have frac : ∀ w s t : ℝ, 0 ≤ w → s ≤ t → t ≤ s + w → |(t - s - w / 2) / (w / 2)| ≤ 1 ∧ (t - s - w / 2) / (w / 2) * (w / 2) = t - s - w / 2 := by
      intro w s t hw h1 h2
      rcases hw.eq_or_lt with rfl | hw
      · have : t = s := by linarith
        subst this
        simp
      · constructor
        · rw [abs_le, le_div_iff₀ (by linarith), div_le_iff₀ (by linarith)]
          constructor <;> linarith
        · field_simp
    have := parallelepiped_mem hS (c := ⟨a / 2, b / 2, c / 2⟩ + d) (u := ⟨a / 2, 0, 0⟩) (v := ⟨0, b / 2, 0⟩) (w := ⟨0, 0, c / 2⟩)
      (r := (p.x - d.x - a / 2) / (a / 2)) (s := (p.y - d.y - b / 2) / (b / 2)) (t := (p.z - d.z - c / 2) / (c / 2))
      ?_ ?_ ?_ ?_ ?_ ?_ ?_ ?_ (frac a d.x p.x ha x1 x2).1 (frac b d.y p.y hb y1 y2).1 (frac c d.z p.z hc z1 z2).1
    · convert this using 1
      have e1 := (frac a d.x p.x ha x1 x2).2
      have e2 := (frac b d.y p.y hb y1 y2).2
      have e3 := (frac c d.z p.z hc z1 z2).2
      ext <;> simp only [V3.add_x, V3.add_y, V3.add_z, V3.smul_x, V3.smul_y, V3.smul_z, mul_zero, add_zero] <;> linarith
    · convert key a b c (.inr rfl) (.inr rfl) (.inr rfl) using 1; ext <;> simp <;> ring
    · convert key 0 b c (.inl rfl) (.inr rfl) (.inr rfl) using 1; ext <;> simp <;> ring
    · convert key a 0 c (.inr rfl) (.inl rfl) (.inr rfl) using 1; ext <;> simp <;> ring
    · convert key 0 0 c (.inl rfl) (.inl rfl) (.inr rfl) using 1; ext <;> simp <;> ring
    · convert key a b 0 (.inr rfl) (.inr rfl) (.inl rfl) using 1; ext <;> simp <;> ring
    · convert key 0 b 0 (.inl rfl) (.inr rfl) (.inl rfl) using 1; ext <;> simp <;> ring
    · convert key a 0 0 (.inr rfl) (.inl rfl) (.inl rfl) using 1; ext <;> simp <;> ring
    · convert key 0 0 0 (.inl rfl) (.inl rfl) (.inl rfl) using 1; ext <;> simp <;> ring

/-- **C82.** The hull of `makeRectPrism(a, b, c)` is the box from the origin to (a,b,c); with a center it is the box with
these side lengths around the center. -/
theorem C82_rect_prism (a b c : ℝ) (ha : 0 ≤ a) (hb : 0 ≤ b) (hc : 0 ≤ c) (p : V3 ℝ) :
    (p ∈ Region (Vol.rectPrismAt a b c none) ↔ (0 ≤ p.x ∧ p.x ≤ a) ∧ (0 ≤ p.y ∧ p.y ≤ b) ∧ (0 ≤ p.z ∧ p.z ≤ c)) ∧
    ∀ ctr : V3 ℝ, p ∈ Region (Vol.rectPrismAt a b c (some ctr)) ↔
      |p.x - ctr.x| ≤ a / 2 ∧ |p.y - ctr.y| ≤ b / 2 ∧ |p.z - ctr.z| ≤ c / 2 := by
  constructor
  · have := prism_region a b c ha hb hc 0 p
    simp only [add_zero, List.map_id', V3.zero_x, V3.zero_y, V3.zero_z, zero_add] at this
    exact this
  · intro ctr
    have hm : mean3 (Vol.rectPrism a b c) = ⟨a / 2, b / 2, c / 2⟩ := by
      ext <;> simp [mean3, Vol.rectPrism] <;> ring
    unfold Vol.rectPrismAt
    simp only
    rw [prism_region a b c ha hb hc, hm]
    simp only [V3.sub_x, V3.sub_y, V3.sub_z, abs_le]
    constructor
    · rintro ⟨⟨h1, h2⟩, ⟨h3, h4⟩, h5, h6⟩
      refine ⟨⟨?_, ?_⟩, ⟨?_, ?_⟩, ?_, ?_⟩ <;> linarith
    · rintro ⟨⟨h1, h2⟩, ⟨h3, h4⟩, h5, h6⟩
      refine ⟨⟨?_, ?_⟩, ⟨?_, ?_⟩, ?_, ?_⟩ <;> linarith

/-- Concrete case: the unit-side box around (5,5,5). -/
example : (⟨11 / 2, 5, 9 / 2⟩ : V3 ℝ) ∈ Region (Vol.rectPrismAt 1 1 1 (some ⟨5, 5, 5⟩)) :=
  ((C82_rect_prism 1 1 1 zero_le_one zero_le_one zero_le_one _).2 _).mpr (by norm_num)

end

end CZ
