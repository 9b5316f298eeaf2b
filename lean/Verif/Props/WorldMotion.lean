import Verif.Props.World
import Verif.Props.VolumeCylinder

/-!
# Property C96: moving every object of a scene moves the whole picture
-/

namespace CZ
open Spec

/-- Positions mapped, species kept. -/
def movePos (φ : V3 ℝ → V3 ℝ) (a : V3 ℝ × ℤ) : V3 ℝ × ℤ := (φ a.1, a.2)

theorem movePos_id : movePos id = id := rfl

/-- Contents of bodies all moved by the same map. -/
theorem contents_image {α : Type} (φ : V3 ℝ → V3 ℝ) (l : List α) (f g : α → Body (V3 ℝ) ℤ)
    (hp : ∀ a ∈ l, (g a).priority = (f a).priority) (hi : ∀ a ∈ l, ∀ x, (g a).inside (φ x) ↔ (f a).inside x)
    (hs : ∀ a ∈ l, ((g a).sites).Perm ((f a).sites.map (movePos φ))) :
    (contents (l.map g)).Perm ((contents (l.map f)).map (movePos φ)) := by
  classical
  rw [contents_eq, contents_eq, List.flatMap_map, List.flatMap_map, List.map_flatMap]
  have hk : ∀ a ∈ l, ∀ x, keepCount (l.map g) (g a) (φ x) = keepCount (l.map f) (f a) x := by
    intro a ha x
    unfold keepCount
    rw [List.countP_map, List.countP_map]
    have e1 : l.countP ((fun c : Body (V3 ℝ) ℤ => decide (c.priority ≤ (g a).priority ∧ c.inside (φ x))) ∘ g) =
        l.countP ((fun c : Body (V3 ℝ) ℤ => decide (c.priority ≤ (f a).priority ∧ c.inside x)) ∘ f) := by
      apply List.countP_congr
      intro b hb
      simp only [Function.comp, decide_eq_true_eq, hp a ha, hp b hb, hi b hb]
    rw [e1]
    simp only [hi a ha]
  apply List.Perm.flatMap_left
  intro a ha
  refine ((hs a ha).filter _).trans ?_
  rw [List.filter_map]
  have : ((fun q : V3 ℝ × ℤ => keepCount (l.map g) (g a) q.1) ∘ movePos φ) = fun q => keepCount (l.map f) (f a) q.1 := by
    funext q; exact hk a ha q.1
  rw [this]

/-- A list whose image under `f` is a rearrangement of `m` can be rearranged so that its image is `m`. -/
theorem perm_lift {α β : Type} (f : α → β) (l : List α) (m : List β) (h : (l.map f).Perm m) : ∃ l' : List α, l'.Perm l ∧ l'.map f = m := by
  have h2 : List.Forall₂ (fun b a => f a = b) (l.map f) l := by
    induction l with
    | nil => exact .nil
    | cons a l ih => exact .cons rfl (by
        clear h ih
        induction l with
        | nil => exact .nil
        | cons b l ih => exact .cons rfl ih)
  obtain ⟨l', h3, h4⟩ := List.perm_comp_forall₂ h.symm h2
  refine ⟨l', h4, ?_⟩
  clear h h2 h4
  induction h3 with
  | nil => rfl
  | cons h _ ih => simp [h, ih]

/-- `Image env φ t t'`: the volume (tree) `t'` is the image of `t` under `φ`, in region, contents and precedence; members may be
held in another order. -/
inductive Image (env : Env) (φ : V3 ℝ → V3 ℝ) : VTree → VTree → Prop
  | vol (v v' : Vol) (hp : v'.priority = v.priority) (hi : ∀ p, Inside env (.vol v') (φ p) ↔ Inside env (.vol v) p)
      (hf : ∀ cs cs', Fills env (.vol v) cs → Fills env (.vol v') cs' → cs'.Perm (cs.map (movePos φ))) : Image env φ (.vol v) (.vol v')
  | multi (pairs : List (VTree × VTree)) (pr : ℤ) (h h' : Option (List (V3 ℝ) × List ℤ)) (vs' : List VTree)
      (hv : vs'.Perm (pairs.map Prod.snd)) (hi : ∀ x ∈ pairs, Image env φ x.1 x.2) :
      Image env φ (.multi (pairs.map Prod.fst) pr h) (.multi vs' pr h')

theorem Image.priority {env : Env} {φ : V3 ℝ → V3 ℝ} {t t' : VTree} (h : Image env φ t t') : t'.priority = t.priority := by
  cases h with
  | vol v v' hp => exact hp
  | multi => rfl

theorem inside_multi {env : Env} {vs : List VTree} {pr : ℤ} {h : Option (List (V3 ℝ) × List ℤ)} {p : V3 ℝ} :
    Inside env (.multi vs pr h) p ↔ ∃ v ∈ vs, Inside env v p := by
  constructor
  · intro hh
    cases hh with
    | multi _ _ _ v _ hv hi => exact ⟨v, hv, hi⟩
  · rintro ⟨v, hv, hi⟩
    exact .multi _ _ _ v _ hv hi

theorem Image.inside {env : Env} {φ : V3 ℝ → V3 ℝ} {t t' : VTree} (h : Image env φ t t') : ∀ p, Inside env t' (φ p) ↔ Inside env t p := by
  induction h with
  | vol v v' hp hi hf => exact hi
  | multi pairs pr h h' vs' hv hi ih =>
    intro p
    rw [inside_multi, inside_multi]
    constructor
    · rintro ⟨v, hv', hin⟩
      obtain ⟨x, hx, rfl⟩ := List.mem_map.mp (hv.mem_iff.mp hv')
      exact ⟨x.1, List.mem_map.mpr ⟨x, hx, rfl⟩, (ih x hx p).mp hin⟩
    · rintro ⟨v, hv', hin⟩
      obtain ⟨x, hx, rfl⟩ := List.mem_map.mp hv'
      exact ⟨x.2, hv.mem_iff.mpr (List.mem_map.mpr ⟨x, hx, rfl⟩), (ih x hx p).mpr hin⟩

theorem fills_multi {env : Env} {vs : List VTree} {pr : ℤ} {h : Option (List (V3 ℝ) × List ℤ)} {cs : List (V3 ℝ × ℤ)}
    (hf : Fills env (.multi vs pr h) cs) : ∃ parts : List (VTree × List (V3 ℝ × ℤ)), parts.map Prod.fst = vs ∧ (∀ x ∈ parts, Fills env x.1 x.2) ∧
      cs = contents (parts.map fun x => ⟨x.1.priority, x.2, Inside env x.1⟩) := by
  generalize ht : VTree.multi vs pr h = t at hf
  cases hf with
  | vol v cs h => cases ht
  | multi parts pr' held hh =>
    injection ht with h1 h2 h3
    exact ⟨parts, h1.symm, hh, rfl⟩

/-- Parts of two aligned lists of objects. -/
theorem align {α β : Type} (A B : α → β → Prop) : ∀ (pairs : List (α × α)) (P Q : List (α × β)), P.map Prod.fst = pairs.map Prod.fst → Q.map Prod.fst = pairs.map Prod.snd →
    (∀ x ∈ P, A x.1 x.2) → (∀ x ∈ Q, B x.1 x.2) →
    ∃ L : List ((α × α) × β × β), (L.map fun x => x.1) = pairs ∧ (L.map fun x => (x.1.1, x.2.1)) = P ∧ (L.map fun x => (x.1.2, x.2.2)) = Q ∧
      ∀ x ∈ L, A x.1.1 x.2.1 ∧ B x.1.2 x.2.2 := by
  intro pairs
  induction pairs with
  | nil =>
    intro P Q hP hQ _ _
    simp only [List.map_nil, List.map_eq_nil_iff] at hP hQ
    exact ⟨[], rfl, hP.symm, hQ.symm, by simp⟩
  | cons x pairs ih =>
    intro P Q hP hQ hA hB
    cases P with
    | nil => simp at hP
    | cons p P =>
      cases Q with
      | nil => simp at hQ
      | cons q Q =>
        simp only [List.map_cons, List.cons.injEq] at hP hQ
        obtain ⟨L, h1, h2, h3, h4⟩ := ih P Q hP.2 hQ.2 (fun y hy => hA y (List.mem_cons_of_mem _ hy)) (fun y hy => hB y (List.mem_cons_of_mem _ hy))
        have ep : (x.1, p.2) = p := Prod.ext hP.1.symm rfl
        have eq : (x.2, q.2) = q := Prod.ext hQ.1.symm rfl
        refine ⟨(x, p.2, q.2) :: L, by simp [h1], by simp [h2, ep], by simp [h3, eq], ?_⟩
        intro y hy
        rcases List.mem_cons.mp hy with rfl | hy
        · refine ⟨?_, ?_⟩
          · have := hA p List.mem_cons_self; rw [hP.1] at this; exact this
          · have := hB q List.mem_cons_self; rw [hQ.1] at this; exact this
        · exact h4 y hy

/-- The contents of an image are the image of the contents. -/
theorem Image.fills {env : Env} {φ : V3 ℝ → V3 ℝ} {t t' : VTree} (h : Image env φ t t') : ∀ cs cs', Fills env t cs → Fills env t' cs' →
    cs'.Perm (cs.map (movePos φ)) := by
  induction h with
  | vol v v' hp hi hf => exact hf
  | multi pairs pr h h' vs' hv hi ih =>
    intro cs cs' hc hc'
    obtain ⟨P, hP, hPf, rfl⟩ := fills_multi hc
    obtain ⟨Q0, hQ0, hQf, rfl⟩ := fills_multi hc'
    obtain ⟨Q, hQp, hQ⟩ := perm_lift Prod.fst Q0 (pairs.map Prod.snd) (by rw [hQ0]; exact hv)
    refine (contents_perm (hQp.symm.map _)).trans ?_
    obtain ⟨L, h1, rfl, rfl, h4⟩ := align (Fills env) (Fills env) pairs P Q hP hQ hPf (fun x hx => hQf x (hQp.mem_iff.mp hx))
    subst h1
    rw [List.map_map, List.map_map]
    apply contents_image
    · intro a ha; exact (hi a.1 (List.mem_map.mpr ⟨a, ha, rfl⟩)).priority
    · intro a ha; exact (hi a.1 (List.mem_map.mpr ⟨a, ha, rfl⟩)).inside
    · intro a ha; exact ih a.1 (List.mem_map.mpr ⟨a, ha, rfl⟩) _ _ (h4 a ha).1 (h4 a ha).2

/-- The same for what a scene holds. -/
inductive ItemImage (env : Env) (φ : V3 ℝ → V3 ℝ) : Item → Item → Prop
  | vol (t t' : VTree) (h : Image env φ t t') : ItemImage env φ (.vol t) (.vol t')
  | mol (m m' : Mol ℝ) (hp : m'.priority = m.priority) (hs : m'.species = m.species) (ha : m'.atoms = m.atoms.map φ) :
      ItemImage env φ (.mol m) (.mol m')

theorem ItemImage.priority {env : Env} {φ : V3 ℝ → V3 ℝ} {t t' : Item} (h : ItemImage env φ t t') : t'.priority = t.priority := by
  cases h with
  | vol t t' h => exact h.priority
  | mol m m' hp => exact hp

theorem ItemImage.occupies {env : Env} {φ : V3 ℝ → V3 ℝ} {t t' : Item} (h : ItemImage env φ t t') (p : V3 ℝ) :
    Occupies env t' (φ p) ↔ Occupies env t p := by
  cases h with
  | vol t t' h => exact h.inside p
  | mol m m' hp => exact Iff.rfl

theorem ItemImage.holds {env : Env} {φ : V3 ℝ → V3 ℝ} {t t' : Item} (h : ItemImage env φ t t') {cs cs' : List (V3 ℝ × ℤ)}
    (hc : Holds env t cs) (hc' : Holds env t' cs') : cs'.Perm (cs.map (movePos φ)) := by
  cases h with
  | vol t t' h =>
    cases hc with
    | vol _ _ hf =>
      cases hc' with
      | vol _ _ hf' => exact h.fills _ _ hf hf'
  | mol m m' hp hs ha =>
    cases hc with
    | mol =>
      cases hc' with
      | mol =>
        rw [hs, ha, List.zip_map_left]
        exact .refl _

/-- **C96 (images).** If the objects of one scene are, up to order, the images of those of another, the populated scenes are
images of one another. -/
theorem C96_images (env : Env) (φ : V3 ℝ → V3 ℝ) (pairs : List (Item × Item)) (hi : ∀ x ∈ pairs, ItemImage env φ x.1 x.2)
    (w1 w2 w1' w2' : World) (n1 n2 n1' n2' : ℕ) (ys : List Item) (hx : w1.objects = some (pairs.map Prod.fst)) (hy : w2.objects = some ys)
    (hys : ys.Perm (pairs.map Prod.snd)) (hm : Balanced (pairs.map Prod.fst)) (hm2 : Balanced ys)
    (h1 : w1.populate env n1 = (w1', n1', .ok ())) (h2 : w2.populate env n2 = (w2', n2', .ok ())) :
    ∃ as ss as' ss', w1'.allAtoms env = .ok as ∧ w1'.allSpecies env = .ok ss ∧ w2'.allAtoms env = .ok as' ∧ w2'.allSpecies env = .ok ss' ∧
      as.length = ss.length ∧ as'.length = ss'.length ∧ (as'.zip ss').Perm ((as.zip ss).map (movePos φ)) := by
  obtain ⟨as, ss, a1, a2, a3, P, p1, p2, p3⟩ := C95_scene_contents env w1 w1' n1 n1' _ hx hm h1
  obtain ⟨as', ss', b1, b2, b3, Q0, q1, q2, q3⟩ := C95_scene_contents env w2 w2' n2 n2' _ hy hm2 h2
  refine ⟨as, ss, as', ss', a1, a2, b1, b2, a3, b3, ?_⟩
  obtain ⟨Q, hQp, hQ⟩ := perm_lift Prod.fst Q0 (pairs.map Prod.snd) (by rw [q1]; exact hys)
  obtain ⟨L, l1, rfl, rfl, l4⟩ := align (Holds env) (Holds env) pairs P Q p1 hQ p2 (fun x hx => q2 x (hQp.mem_iff.mp hx))
  subst l1
  refine q3.trans ((contents_perm (hQp.symm.map _)).trans ?_)
  refine List.Perm.trans ?_ (p3.symm.map (movePos φ))
  rw [List.map_map, List.map_map]
  apply contents_image
  · intro a ha; exact (hi a.1 (List.mem_map.mpr ⟨a, ha, rfl⟩)).priority
  · intro a ha; exact (hi a.1 (List.mem_map.mpr ⟨a, ha, rfl⟩)).occupies
  · intro a ha; exact (hi a.1 (List.mem_map.mpr ⟨a, ha, rfl⟩)).holds (l4 a ha).1 (l4 a ha).2

/-! ## bodies bounded by balls or by rods, filled by crystals -/

/-- Directions the axes of cylinders may have; none lies along the space diagonal (a cylinder along it has no bounding box, C26). -/
structure Axes where
  dirs : Set (V3 ℝ)
  clear : ∀ d ∈ dirs, ¬ Parallel d ⟨1, 1, 1⟩

/-- No cylinders. -/
def Axes.none : Axes := ⟨∅, fun _ h => h.elim⟩

/-- The motion turns the directions `D` into directions of `D'`. -/
def Axes.Turned (D : Axes) (t : Tr ℝ) (D' : Axes) : Prop := ∀ d ∈ D.dirs, t.apply d - t.apply 0 ∈ D'.dirs

theorem Axes.none_turned (t : Tr ℝ) (D : Axes) : Axes.none.Turned t D := fun _ h => h.elim

/-- A Volume without points, bounded by well-formed algebraic objects and filled by an unstrained crystal. -/
structure CrystalBody (v : Vol) (c : Gen ℝ) (x : Voxel ℝ) (sites : List (V3 ℝ × ℤ)) : Prop where
  points : v.points = none
  tri : v.tri = none
  wf : ∀ a ∈ v.algs, a.WF
  gen : v.gen = some (.crystal c)
  plain : Gen.Plain c x sites
  scale : ColumnScale x.scale
  det : x.sbases.det ≠ 0
  frac : FracNearCell sites

/-- Such a Volume among whose surfaces there are spheres; no site lies in the tolerance shell outside a ball. -/
structure BallCrystal (env : Env) (v : Vol) (c : Gen ℝ) (x : Voxel ℝ) (sites : List (V3 ℝ × ℤ)) : Prop where
  body : CrystalBody v c x sites
  spheres : v.spheres ≠ []
  radii : ∀ s, Alg.sphere s ∈ v.algs → 0 < s.radius
  shell : ∀ a ∈ Crystal x.sbases x.origin sites, Inside env (.vol v) a.1 → ∀ s, Alg.sphere s ∈ v.algs → Spec.dist a.1 s.center ≤ s.radius

/-- Such a Volume without spheres but with cylinders (and at most three planes); no site lies in the tolerance shell of a cylinder. -/
structure RodCrystal (env : Env) (D : Axes) (v : Vol) (c : Gen ℝ) (x : Voxel ℝ) (sites : List (V3 ℝ × ℤ)) : Prop where
  body : CrystalBody v c x sites
  spheres : v.spheres = []
  planes : v.planes.length ≤ 3
  cylinders : v.cylinders ≠ []
  axes : ∀ c, Alg.cyl c ∈ v.algs → c.axis ∈ D.dirs
  shell : ∀ a ∈ Crystal x.sbases x.origin sites, Inside env (.vol v) a.1 →
    ∀ c, Alg.cyl c ∈ v.algs → Tube c.point c.axis c.radius (c.length / 2) a.1

/-- A bounding box of the Volume that contains all sites inside. -/
structure Boxed (env : Env) (v : Vol) (x : Voxel ℝ) (sites : List (V3 ℝ × ℤ)) (box : List (V3 ℝ)) : Prop where
  bbox : v.boundingBox env = .ok (.rows box)
  ne : box ≠ []
  sites : ∀ a ∈ Crystal x.sbases x.origin sites, Inside env (.vol v) a.1 → a.1 ∈ Region box

theorem BallCrystal.boxed {env : Env} {v : Vol} {c : Gen ℝ} {x : Voxel ℝ} {sites : List (V3 ℝ × ℤ)} (h : BallCrystal env v c x sites) :
    ∃ box, Boxed env v x sites box := by
  obtain ⟨s1, hm1, hb⟩ := sphere_boundingBox (env := env) h.body.points h.spheres
  have hm' := mem_spheres.mp hm1
  exact ⟨_, hb, by simp [Vol.sphereBox, Vol.rectPrism], fun a ha hi => ball_in_box s1 (h.radii s1 hm') _ (h.shell a ha hi s1 hm')⟩

theorem RodCrystal.boxed {env : Env} {D : Axes} {v : Vol} {c : Gen ℝ} {x : Voxel ℝ} {sites : List (V3 ℝ × ℤ)} (h : RodCrystal env D v c x sites) :
    ∃ box, Boxed env v x sites box := by
  have heps : (0 : ℝ) < machEps := by unfold machEps; positivity
  obtain ⟨box, hbb, hne, hin⟩ := cylinder_box env v h.body.points h.spheres h.planes h.cylinders fun c hm =>
    ⟨(h.body.wf _ hm).1, heps.trans_le (h.body.wf _ hm).2.1, heps.trans_le (h.body.wf _ hm).2.2.1, D.clear _ (h.axes c hm)⟩
  exact ⟨box, hbb, hne, fun a ha hi => hin _ (h.shell a ha hi)⟩

/-- What such a Volume contains, read off its bounding box. -/
theorem CrystalBody.fills {env : Env} {v : Vol} {c : Gen ℝ} {x : Voxel ℝ} {sites : List (V3 ℝ × ℤ)} (h : CrystalBody v c x sites)
    {cs : List (V3 ℝ × ℤ)} (hf : Fills env (.vol v) cs) {box : List (V3 ℝ)} (hb : v.boundingBox env = .ok (.rows box)) {lo hi : V3 ℤ}
    (he : x.getExtents box = .ok (lo, hi)) :
    cs = ((Gen.cells lo hi).flatMap (inCell (v.interior env) x sites)).map fun a => (a.pos, a.Z) := by
  classical
  cases hf with
  | vol _ ds hd =>
    obtain ⟨n, b, g, ps, zs, h1, h2, h3, h4, rfl⟩ := hd
    rw [hb] at h1; injection h1 with h1; subst h1
    rw [h.gen] at h2; injection h2 with h2; subst h2
    simp only [GenObj.supply, h.plain.1, Gen.supply_plain h.plain, Gen.rawAtoms_eq _ _ _ _ _ he, Except.map] at h3
    injection h3 with h3
    injection h3 with h5 h6
    subst h5 h6
    rw [List.zip_map', List.filter_map]
    have : ((fun a : V3 ℝ × ℤ => decide (Inside env (.vol v) a.1)) ∘ fun a : Atom ℝ => (a.pos, a.Z)) = fun a : Atom ℝ => v.interior env a.pos := by
      funext a
      simp only [Function.comp]
      rw [Bool.eq_iff_iff, Vol.interior_iff, decide_eq_true_eq]
    rw [this, List.filter_flatMap]
    rfl

theorem CrystalBody.supplying {env : Env} {v : Vol} {c : Gen ℝ} {x : Voxel ℝ} {sites : List (V3 ℝ × ℤ)} (h : CrystalBody v c x sites)
    {box : List (V3 ℝ)} (hb : Boxed env v x sites box) : Supplying env (.vol v) :=
  supplying_crystal hb.bbox hb.ne h.gen h.plain h.det

/-- `populate_atoms` on such a Volume changes only the arrays held. -/
theorem CrystalBody.populate {env : Env} {v : Vol} {c : Gen ℝ} {x : Voxel ℝ} {sites : List (V3 ℝ × ℤ)} (h : CrystalBody v c x sites)
    {box : List (V3 ℝ)} (hb : Boxed env v x sites box) (n : ℕ) :
    ∃ as zs, v.populate env n = ({ v with atoms := as, species := zs }, .ok ()) ∧
      Image env id (.vol v) (.vol { v with atoms := as, species := zs }) := by
  obtain ⟨⟨lo1, hi1⟩, he1⟩ := Voxel.getExtents_ok (box := box) h.det hb.ne
  have hpop := populate_crystal hb.bbox h.gen h.plain he1 n
  refine ⟨_, _, hpop, .vol _ _ rfl ?_ ?_⟩
  · intro p; rw [← Vol.interior_iff, ← Vol.interior_iff]; rfl
  · intro cs cs' h1 h2
    have h' : ∀ as zs, CrystalBody { v with atoms := as, species := zs } c x sites := fun as zs =>
      ⟨h.points, h.tri, h.wf, h.gen, h.plain, h.scale, h.det, h.frac⟩
    rw [h.fills h1 hb.bbox he1, (h' _ _).fills h2 hb.bbox he1, movePos_id, List.map_id]
    exact .refl _

/-- A locked rigid motion of such a Volume: its surfaces and its crystal are moved, and the result is the image of the Volume as soon as it
again has a bounding box that contains all sites inside. -/
theorem CrystalBody.transform {env : Env} {v : Vol} {c : Gen ℝ} {x : Voxel ℝ} {sites : List (V3 ℝ × ℤ)} (h : CrystalBody v c x sites)
    {box : List (V3 ℝ)} (hbox : Boxed env v x sites box) {t : Tr ℝ} (ht : RigidMotion t) (hl : t.locked = true) (hb : t.basisOnly = false) :
    ∃ bs c' y, Vol.transformAlgs t v.algs = (bs, .ok ()) ∧
      v.transform env t = ({ v with algs := bs, gen := some (.crystal c') }, .ok ()) ∧
      CrystalBody { v with algs := bs, gen := some (.crystal c') } c' y sites ∧
      (∀ p, Inside env (.vol { v with algs := bs, gen := some (.crystal c') }) (t.apply p) ↔ Inside env (.vol v) p) ∧
      (∀ a ∈ Crystal y.sbases y.origin sites, ∃ b ∈ Crystal x.sbases x.origin sites, a.1 = t.apply b.1) ∧
      ∀ box', Boxed env { v with algs := bs, gen := some (.crystal c') } y sites box' →
        Image env t.apply (.vol v) (.vol { v with algs := bs, gen := some (.crystal c') }) := by
  obtain ⟨bs, h4, h5, h6, h7⟩ := transformAlgs_rigid ht v.algs h.wf
  obtain ⟨L, hL, hLb, hLa⟩ := (rigid_invertible ht).linearPart
  have hset : Voxel.basesSet (t.bases x.bases) = .ok (L * x.bases) := by
    rw [hLb]; exact basesSet_of_det (by rw [M3.det_mul]; exact mul_ne_zero hL (bases_det_ne h.scale h.det))
  let y : Voxel ℝ := ⟨L * x.bases, x.scale, t.apply x.origin⟩
  have hy : y.sbases = L * x.sbases := sbases_mul h.scale L _
  let c' : Gen ℝ := { c with voxel := some y }
  have hct : c.transform t = (c', .ok ()) := by
    unfold Gen.transform
    rw [h.plain.1]; simp only [hset, hb]; rfl
  have hP' : Gen.Plain c' y sites := ⟨rfl, h.plain.2.1, h.plain.2.2.1, h.plain.2.2.2⟩
  let v2 : Vol := { v with algs := bs, gen := some (.crystal c') }
  have htrans : Vol.transform env v t = (v2, .ok ()) := by
    unfold Vol.transform Vol.transformRest
    simp only [h.points, h4, hl, if_true, h.gen, GenObj.transform, hct]
    simp only [v2, ← h.points]
  have hd' : y.sbases.det ≠ 0 := by rw [hy, M3.det_mul]; exact mul_ne_zero hL h.det
  have hsite : ∀ m f, siteAt y.sbases y.origin m f = t.apply (siteAt x.sbases x.origin m f) := by
    intro m f; rw [hy]; exact siteAt_affine hLa m f
  have hint : ∀ p, v2.interior env (t.apply p) = v.interior env p := by
    intro p
    simp only [Vol.interior, v2, h.tri, h7]
  have hins : ∀ p, Inside env (.vol v2) (t.apply p) ↔ Inside env (.vol v) p := by
    intro p; rw [← Vol.interior_iff, ← Vol.interior_iff, hint]
  have hB : CrystalBody v2 c' y sites := ⟨h.points, h.tri, h6, rfl, hP', h.scale, hd', h.frac⟩
  refine ⟨bs, c', y, h4, htrans, hB, hins, ?_, ?_⟩
  · rintro _ ⟨m, f, hf, rfl⟩
    exact ⟨_, ⟨m, f, hf, rfl⟩, hsite _ _⟩
  intro box' hbox'
  refine .vol _ _ rfl hins ?_
  obtain ⟨⟨lo, hi⟩, he⟩ := Voxel.getExtents_ok (box := box) h.det hbox.ne
  obtain ⟨⟨lo', hi'⟩, he'⟩ := Voxel.getExtents_ok (box := box') hd' hbox'.ne
  intro cs cs' h1 h2
  rw [h.fills h1 hbox.bbox he, hB.fills h2 hbox'.bbox he']
  have hcell : ∀ m, inCell (v2.interior env) y sites m =
      (inCell (v.interior env) x sites m).map fun a => ⟨t.apply a.pos, a.Z⟩ := by
    intro m
    unfold inCell
    rw [List.filter_map, List.filter_map, List.map_map]
    simp only [Function.comp_def, hsite, hint]
  have hsame : (Gen.cells lo' hi').flatMap (inCell (v.interior env) x sites) =
      (Gen.cells lo hi).flatMap (inCell (v.interior env) x sites) := by
    have hne : ∀ m, inCell (v.interior env) x sites m ≠ [] → ∃ f ∈ sites, v.interior env (siteAt x.sbases x.origin m f.1) = true := by
      intro m hm
      obtain ⟨a, ha⟩ := List.exists_mem_of_ne_nil _ hm
      obtain ⟨⟨f, hf, rfl⟩, hi⟩ := mem_inCell.mp ha
      exact ⟨f, hf, hi⟩
    apply flatMap_cells
    · intro m hm
      obtain ⟨f, hf, hi⟩ := hne m hm
      refine cell_mem he' (h.frac f hf) (hbox'.sites _ ⟨m, f, hf, rfl⟩ ?_)
      simp only
      rw [hsite, hins]
      exact (Vol.interior_iff env v _).mp hi
    · intro m hm
      obtain ⟨f, hf, hi⟩ := hne m hm
      exact cell_mem he (h.frac f hf) (hbox.sites _ ⟨m, f, hf, rfl⟩ ((Vol.interior_iff env v _).mp hi))
  have hflat : (Gen.cells lo' hi').flatMap (inCell (v2.interior env) y sites) =
      ((Gen.cells lo hi).flatMap (inCell (v.interior env) x sites)).map fun a => ⟨t.apply a.pos, a.Z⟩ := by
    rw [← hsame, List.map_flatMap]
    congr 1
    funext m
    exact hcell m
  rw [show ((Gen.cells lo' hi').flatMap (inCell (Vol.interior env { v with algs := bs, gen := some (.crystal c') }) y sites)) = _ from hflat,
    List.map_map, List.map_map]
  exact .refl _

/-- Balls and rods of crystal. -/
inductive SolidCrystal (env : Env) (D : Axes) (v : Vol) (c : Gen ℝ) (x : Voxel ℝ) (sites : List (V3 ℝ × ℤ)) : Prop
  | ball (h : BallCrystal env v c x sites)
  | rod (h : RodCrystal env D v c x sites)

theorem SolidCrystal.body {env : Env} {D : Axes} {v : Vol} {c : Gen ℝ} {x : Voxel ℝ} {sites : List (V3 ℝ × ℤ)} (h : SolidCrystal env D v c x sites) :
    CrystalBody v c x sites ∧ ∃ box, Boxed env v x sites box := by
  cases h with
  | ball h => exact ⟨h.body, h.boxed⟩
  | rod h => exact ⟨h.body, h.boxed⟩

theorem SolidCrystal.mono {env : Env} {D D' : Axes} (hD : D.dirs ⊆ D'.dirs) {v : Vol} {c : Gen ℝ} {x : Voxel ℝ} {sites : List (V3 ℝ × ℤ)}
    (h : SolidCrystal env D v c x sites) : SolidCrystal env D' v c x sites := by
  cases h with
  | ball h => exact .ball h
  | rod h => exact .rod ⟨h.body, h.spheres, h.planes, h.cylinders, fun c hc => hD (h.axes c hc), h.shell⟩

theorem SolidCrystal.supplying {env : Env} {D : Axes} {v : Vol} {c : Gen ℝ} {x : Voxel ℝ} {sites : List (V3 ℝ × ℤ)}
    (h : SolidCrystal env D v c x sites) : Supplying env (.vol v) := by
  obtain ⟨hb, box, hx⟩ := h.body
  exact hb.supplying hx

/-- `populate_atoms` on such a Volume changes only the arrays held. -/
theorem SolidCrystal.populate {env : Env} {D : Axes} {v : Vol} {c : Gen ℝ} {x : Voxel ℝ} {sites : List (V3 ℝ × ℤ)}
    (h : SolidCrystal env D v c x sites) (n : ℕ) :
    ∃ v', v.populate env n = (v', .ok ()) ∧ SolidCrystal env D v' c x sites ∧ Image env id (.vol v) (.vol v') := by
  obtain ⟨hb, box, hx⟩ := h.body
  obtain ⟨as, zs, h1, h2⟩ := hb.populate hx n
  refine ⟨_, h1, ?_, h2⟩
  have hin : ∀ p, Inside env (.vol { v with atoms := as, species := zs }) p ↔ Inside env (.vol v) p := by
    intro p; rw [← Vol.interior_iff, ← Vol.interior_iff]; rfl
  have hb' : CrystalBody { v with atoms := as, species := zs } c x sites := ⟨hb.points, hb.tri, hb.wf, hb.gen, hb.plain, hb.scale, hb.det, hb.frac⟩
  cases h with
  | ball h => exact .ball ⟨hb', h.spheres, h.radii, fun a ha hi s hs => h.shell a ha ((hin _).mp hi) s hs⟩
  | rod h => exact .rod ⟨hb', h.spheres, h.planes, h.cylinders, h.axes, fun a ha hi s hs => h.shell a ha ((hin _).mp hi) s hs⟩

/-- A locked rigid motion takes such a Volume to another one, its image. -/
theorem SolidCrystal.transform {env : Env} {D D' : Axes} {v : Vol} {c : Gen ℝ} {x : Voxel ℝ} {sites : List (V3 ℝ × ℤ)}
    (h : SolidCrystal env D v c x sites) {t : Tr ℝ} (ht : RigidMotion t) (hl : t.locked = true) (hb : t.basisOnly = false) (hD : D.Turned t D') :
    ∃ v' c' y, v.transform env t = (v', .ok ()) ∧ SolidCrystal env D' v' c' y sites ∧ Image env t.apply (.vol v) (.vol v') := by
  obtain ⟨hbody, box, hbox⟩ := h.body
  obtain ⟨bs, c', y, h1, h2, h3, h4, h5, h6⟩ := hbody.transform hbox ht hl hb
  have hsph := transformAlgs_spheres ht v.algs bs h1
  suffices hS : SolidCrystal env D' { v with algs := bs, gen := some (.crystal c') } c' y sites by
    obtain ⟨-, box', hb'⟩ := hS.body
    exact ⟨_, c', y, h2, hS, h6 box' hb'⟩
  cases h with
  | ball h =>
    refine .ball ⟨h3, ?_, ?_, ?_⟩
    · obtain ⟨s, hm⟩ := List.exists_mem_of_ne_nil _ h.spheres
      exact List.ne_nil_of_mem (mem_spheres.mpr ((hsph _).mpr ⟨s, mem_spheres.mp hm, rfl⟩))
    · intro s' hs'
      obtain ⟨s0, hs0, rfl⟩ := (hsph s').mp hs'
      exact h.radii s0 hs0
    · intro a ha hi s' hs'
      obtain ⟨s0, hs0, rfl⟩ := (hsph s').mp hs'
      obtain ⟨b, hb', e⟩ := h5 a ha
      rw [e] at hi ⊢
      simp only
      rw [C39_distances_preserved t (.motion t ht)]
      exact h.shell b hb' ((h4 _).mp hi) s0 hs0
  | rod h =>
    obtain ⟨L, ho, hLa, hLc⟩ := rigid_cylinder ht
    obtain ⟨e1, e2⟩ := transformAlgs_cylinders ht hLc v.algs bs hbody.wf h1 v { v with algs := bs, gen := some (.crystal c') } rfl rfl
    have hcyl : ∀ d, Alg.cyl d ∈ bs → ∃ c, Alg.cyl c ∈ v.algs ∧ d = { c with point := t.apply c.point, axis := L.mulVec c.axis } := by
      intro d hd
      have := mem_cylinders (v := { v with algs := bs, gen := some (.crystal c') }).mpr hd
      rw [e2, List.mem_map] at this
      obtain ⟨c, hc, rfl⟩ := this
      exact ⟨c, mem_cylinders.mp hc, rfl⟩
    refine .rod ⟨h3, ?_, e1.trans_le h.planes, ?_, ?_, ?_⟩
    · rw [List.eq_nil_iff_forall_not_mem]
      intro s hs
      obtain ⟨s0, h0, -⟩ := (hsph s).mp (mem_spheres.mp hs)
      have := mem_spheres.mpr h0
      rw [h.spheres] at this
      cases this
    · rw [e2]; intro h0; exact h.cylinders (List.map_eq_nil_iff.mp h0)
    · intro d hd
      obtain ⟨c, hm, rfl⟩ := hcyl d hd
      have := hD _ (h.axes c hm)
      rw [hLa, sub_zero] at this
      exact this
    · intro a ha hi d hd
      obtain ⟨c, hm, rfl⟩ := hcyl d hd
      obtain ⟨b, hb', e⟩ := h5 a ha
      rw [e] at hi ⊢
      exact tube_moves ho hLa (h.shell b hb' ((h4 _).mp hi) c hm)

/-! ## nested volumes -/

/-- A Volume as above, or a non-empty MultiVolume of such, arbitrarily nested. -/
inductive SolidTree (env : Env) (D : Axes) : VTree → Prop
  | vol (v : Vol) (c : Gen ℝ) (x : Voxel ℝ) (sites : List (V3 ℝ × ℤ)) (h : SolidCrystal env D v c x sites) : SolidTree env D (.vol v)
  | multi (vs : List VTree) (pr : ℤ) (h : Option (List (V3 ℝ) × List ℤ)) (hne : vs ≠ []) (hv : ∀ t ∈ vs, SolidTree env D t) :
      SolidTree env D (.multi vs pr h)

theorem SolidTree.mono {env : Env} {D D' : Axes} (hD : D.dirs ⊆ D'.dirs) {t : VTree} (h : SolidTree env D t) : SolidTree env D' t := by
  induction h with
  | vol v c x sites h => exact .vol v c x sites (h.mono hD)
  | multi vs pr h hne hv ih => exact .multi vs pr h hne ih

theorem SolidTree.supplying {env : Env} {D : Axes} {t : VTree} (h : SolidTree env D t) : Supplying env t := by
  induction h with
  | vol v c x sites h => exact h.supplying
  | multi vs pr h hne hv ih => exact .multi vs pr h hne ih

/-- Populating changes nothing but the arrays held and the order of members. -/
theorem SolidTree.populate {env : Env} {D : Axes} {t : VTree} (h : SolidTree env D t) : ∀ n t' n', t.populate env n = (t', n', .ok ()) →
    SolidTree env D t' ∧ Image env id t t' := by
  induction h with
  | vol v c x sites h =>
    intro n t' n' hp
    obtain ⟨v', h1, h2, h3⟩ := h.populate n
    rw [VTree.populate, h1] at hp
    simp only [Prod.mk.injEq] at hp
    obtain ⟨rfl, -, -⟩ := hp
    exact ⟨.vol _ _ _ _ h2, h3⟩
  | multi vs pr hd hne hv ih =>
    have loop : ∀ ws : List VTree, (∀ t ∈ ws, ∀ n t' n', VTree.populate env t n = (t', n', .ok ()) → SolidTree env D t' ∧ Image env id t t') →
        ∀ n ws' n', VTree.populateList env ws n = (ws', n', .ok ()) → ∃ pairs : List (VTree × VTree), pairs.map Prod.fst = ws ∧
          pairs.map Prod.snd = ws' ∧ ∀ x ∈ pairs, SolidTree env D x.2 ∧ Image env id x.1 x.2 := by
      intro ws hws
      induction ws with
      | nil =>
        intro n ws' n' h
        rw [VTree.populateList] at h
        simp only [Prod.mk.injEq] at h
        exact ⟨[], rfl, h.1, by simp⟩
      | cons w ws ihw =>
        intro n ws' n' h
        rw [VTree.populateList] at h
        rcases hp : w.populate env n with ⟨w', m, r⟩
        rw [hp] at h
        cases r with
        | error e => simp at h
        | ok u =>
          simp only [Prod.mk.injEq] at h
          obtain ⟨rfl, h2⟩ := h
          obtain ⟨pairs, h3, h4, h5⟩ := ihw (fun t ht => hws t (List.mem_cons_of_mem _ ht)) m
            (VTree.populateList env ws m).1 n' (Prod.ext rfl h2)
          refine ⟨(w, w') :: pairs, by simp [h3], by simp [h4], ?_⟩
          intro x hx
          rcases List.mem_cons.mp hx with rfl | hx
          · exact hws w List.mem_cons_self n w' m hp
          · exact h5 x hx
    intro n t' n' hp
    rw [VTree.populate] at hp
    rcases hl : VTree.populateList env vs n with ⟨vs', m, r⟩
    rw [hl] at hp
    cases r with
    | error e => simp at hp
    | ok u =>
      obtain ⟨pairs, rfl, rfl, h3⟩ := loop vs ih n vs' m hl
      have hperm := stableSort_perm VTree.priority (pairs.map Prod.snd)
      simp only at hp
      cases hr : VTree.resolve env (stableSort VTree.priority (pairs.map Prod.snd)) with
      | error e => rw [hr] at hp; simp at hp
      | ok r =>
        rw [hr] at hp
        simp only [Prod.mk.injEq] at hp
        obtain ⟨rfl, -, -⟩ := hp
        refine ⟨.multi _ _ _ ?_ ?_, .multi pairs pr _ _ _ hperm fun x hx => (h3 x hx).2⟩
        · intro h0
          rw [h0] at hperm
          apply hne
          simpa using hperm.symm.eq_nil
        · intro t ht
          obtain ⟨x, hx, rfl⟩ := List.mem_map.mp (hperm.mem_iff.mp ht)
          exact (h3 x hx).1

/-- A locked rigid motion takes a nested volume to its image. -/
theorem SolidTree.transform {env : Env} {D D' : Axes} {t : Tr ℝ} (ht : RigidMotion t) (hl : t.locked = true) (hb : t.basisOnly = false) (hD : D.Turned t D') {u : VTree}
    (h : SolidTree env D u) : ∃ u', u.transform env t = (u', .ok ()) ∧ SolidTree env D' u' ∧ Image env t.apply u u' := by
  induction h with
  | vol v c x sites h =>
    obtain ⟨v', c', y, h1, h2, h3⟩ := h.transform ht hl hb hD
    exact ⟨.vol v', by rw [VTree.transform, h1], .vol _ _ _ _ h2, h3⟩
  | multi vs pr hd hne hv ih =>
    have loop : ∀ ws : List VTree, (∀ u ∈ ws, ∃ u', u.transform env t = (u', .ok ()) ∧ SolidTree env D' u' ∧ Image env t.apply u u') →
        ∃ pairs : List (VTree × VTree), pairs.map Prod.fst = ws ∧ VTree.transformList env t ws = (pairs.map Prod.snd, .ok ()) ∧
          ∀ x ∈ pairs, SolidTree env D' x.2 ∧ Image env t.apply x.1 x.2 := by
      intro ws hws
      induction ws with
      | nil => exact ⟨[], rfl, by rw [VTree.transformList]; rfl, by simp⟩
      | cons w ws ihw =>
        obtain ⟨w', h1, h2⟩ := hws w List.mem_cons_self
        obtain ⟨pairs, h3, h4, h5⟩ := ihw fun u hu => hws u (List.mem_cons_of_mem _ hu)
        refine ⟨(w, w') :: pairs, by simp [h3], by rw [VTree.transformList, h1]; simp [h4], ?_⟩
        intro x hx
        rcases List.mem_cons.mp hx with rfl | hx
        · exact h2
        · exact h5 x hx
    obtain ⟨pairs, rfl, h2, h3⟩ := loop vs ih
    refine ⟨.multi (pairs.map Prod.snd) pr hd, by rw [VTree.transform, h2], .multi _ _ _ (by simpa using hne) ?_,
      .multi pairs pr _ _ _ (.refl _) fun x hx => (h3 x hx).2⟩
    intro u hu
    obtain ⟨x, hx, rfl⟩ := List.mem_map.mp hu
    exact (h3 x hx).1

/-! ## scenes -/

/-- Objects of a scene that can be moved: molecules whose origin can be read, nested volumes of balls and rods of crystal. -/
inductive Movable (env : Env) (D : Axes) : Item → Prop
  | vol (t : VTree) (h : SolidTree env D t) : Movable env D (.vol t)
  | mol (m : Mol ℝ) (o : V3 ℝ) (h : m.species.length = m.atoms.length) (ho : m.origin = .ok o) : Movable env D (.mol m)

theorem Movable.mono {env : Env} {D D' : Axes} (hD : D.dirs ⊆ D'.dirs) {x : Item} (h : Movable env D x) : Movable env D' x := by
  cases h with
  | vol t h => exact .vol t (h.mono hD)
  | mol m o h ho => exact .mol m o h ho

theorem Movable.balanced {env : Env} {D : Axes} {xs : List Item} (h : ∀ x ∈ xs, Movable env D x) : Balanced xs := by
  intro m hm
  cases h _ hm with
  | mol _ o h ho => exact h

theorem Movable.supplying {env : Env} {D : Axes} {xs : List Item} (h : ∀ x ∈ xs, Movable env D x) : ∀ t, Item.vol t ∈ xs → Supplying env t := by
  intro t ht
  cases h _ ht with
  | vol _ h => exact h.supplying

theorem Movable.populate {env : Env} {D : Axes} {x : Item} (h : Movable env D x) {n : ℕ} {x' : Item} {n' : ℕ} (hp : x.populate env n = (x', n', .ok ())) :
    Movable env D x' ∧ ItemImage env id x x' := by
  cases h with
  | vol t h =>
    simp only [Item.populate] at hp
    rcases hp' : t.populate env n with ⟨t', m, r⟩
    rw [hp'] at hp
    simp only [Prod.mk.injEq] at hp
    obtain ⟨rfl, rfl, rfl⟩ := hp
    obtain ⟨h1, h2⟩ := h.populate n t' m hp'
    exact ⟨.vol _ h1, .vol _ _ h2⟩
  | mol m o h ho =>
    simp only [Item.populate, Prod.mk.injEq] at hp
    obtain ⟨rfl, -, -⟩ := hp
    exact ⟨.mol m o h ho, .mol _ _ rfl rfl (by simp)⟩

theorem Movable.transform {env : Env} {D D' : Axes} {t : Tr ℝ} (ht : RigidMotion t) (hl : t.locked = true) (hb : t.basisOnly = false) (hD : D.Turned t D') {x : Item}
    (h : Movable env D x) : ∃ x', x.transform env t = (x', .ok ()) ∧ Movable env D' x' ∧ ItemImage env t.apply x x' := by
  cases h with
  | vol u h =>
    obtain ⟨u', h1, h2, h3⟩ := h.transform ht hl hb hD
    exact ⟨.vol u', by simp [Item.transform, h1], .vol _ h2, .vol _ _ h3⟩
  | mol m o h ho =>
    obtain ⟨m', h1, h2, h3, h4, h5, h6⟩ := Mol.C75_origin_moves m h o ho t
    exact ⟨.mol m', by simp [Item.transform, h1], .mol m' _ (by rw [h2, h3, h]; simp) h6, .mol _ _ h4 h3 h2⟩

/-- The scene after populating: its objects are those before, in another order and with other arrays. -/
theorem World.populate_movable {env : Env} {D : Axes} {w w' : World} {n n' : ℕ} {xs : List Item} (hx : w.objects = some xs) (hm : ∀ x ∈ xs, Movable env D x)
    (h : w.populate env n = (w', n', .ok ())) : ∃ (pairs : List (Item × Item)) (ys : List Item), pairs.map Prod.fst = xs ∧ w'.objects = some ys ∧
      ys.Perm (pairs.map Prod.snd) ∧ ∀ x ∈ pairs, Movable env D x.2 ∧ ItemImage env id x.1 x.2 := by
  have loop : ∀ ws : List Item, (∀ x ∈ ws, Movable env D x) → ∀ n ws' n', Item.populateList env ws n = (ws', n', .ok ()) →
      ∃ pairs : List (Item × Item), pairs.map Prod.fst = ws ∧ pairs.map Prod.snd = ws' ∧ ∀ x ∈ pairs, Movable env D x.2 ∧ ItemImage env id x.1 x.2 := by
    intro ws hws
    induction ws with
    | nil =>
      intro n ws' n' h
      simp only [Item.populateList, Prod.mk.injEq] at h
      exact ⟨[], rfl, h.1, by simp⟩
    | cons w ws ihw =>
      intro n ws' n' h
      rw [Item.populateList] at h
      rcases hp : w.populate env n with ⟨w', m, r⟩
      rw [hp] at h
      cases r with
      | error e => simp at h
      | ok u =>
        simp only [Prod.mk.injEq] at h
        obtain ⟨rfl, h2⟩ := h
        obtain ⟨pairs, h3, h4, h5⟩ := ihw (fun t ht => hws t (List.mem_cons_of_mem _ ht)) m (Item.populateList env ws m).1 n' (Prod.ext rfl h2)
        refine ⟨(w, w') :: pairs, by simp [h3], by simp [h4], ?_⟩
        intro x hx
        rcases List.mem_cons.mp hx with rfl | hx
        · exact (hws w List.mem_cons_self).populate hp
        · exact h5 x hx
  unfold World.populate at h
  rw [hx] at h
  simp only at h
  rcases hl : Item.populateList env xs n with ⟨xs', m, r⟩
  rw [hl] at h
  cases r with
  | error e => simp at h
  | ok u =>
    obtain ⟨pairs, h1, rfl, h3⟩ := loop xs hm n xs' m hl
    simp only at h
    split at h
    · simp at h
    · simp only [Prod.mk.injEq] at h
      obtain ⟨rfl, -, -⟩ := h
      exact ⟨pairs, _, h1, rfl, stableSort_perm _ _, h3⟩

theorem World.transform_movable {env : Env} {D D' : Axes} {t : Tr ℝ} (ht : RigidMotion t) (hl : t.locked = true) (hb : t.basisOnly = false) (hD : D.Turned t D') {w : World}
    {xs : List Item} (hx : w.objects = some xs) (hm : ∀ x ∈ xs, Movable env D x) :
    ∃ (w' : World) (pairs : List (Item × Item)), w.transform env t = (w', .ok ()) ∧ pairs.map Prod.fst = xs ∧ w'.objects = some (pairs.map Prod.snd) ∧
      ∀ x ∈ pairs, Movable env D' x.2 ∧ ItemImage env t.apply x.1 x.2 := by
  have loop : ∀ ws : List Item, (∀ x ∈ ws, Movable env D x) → ∃ pairs : List (Item × Item), pairs.map Prod.fst = ws ∧
      Item.transformList env t ws = (pairs.map Prod.snd, .ok ()) ∧ ∀ x ∈ pairs, Movable env D' x.2 ∧ ItemImage env t.apply x.1 x.2 := by
    intro ws hws
    induction ws with
    | nil => exact ⟨[], rfl, rfl, by simp⟩
    | cons w ws ihw =>
      obtain ⟨w', h1, h2⟩ := (hws w List.mem_cons_self).transform ht hl hb hD
      obtain ⟨pairs, h3, h4, h5⟩ := ihw fun u hu => hws u (List.mem_cons_of_mem _ hu)
      refine ⟨(w, w') :: pairs, by simp [h3], by rw [Item.transformList, h1]; simp [h4], ?_⟩
      intro x hx
      rcases List.mem_cons.mp hx with rfl | hx
      · exact h2
      · exact h5 x hx
  obtain ⟨pairs, h1, h2, h3⟩ := loop xs hm
  refine ⟨{ w with objects := some (pairs.map Prod.snd) }, pairs, ?_, h1, rfl, h3⟩
  unfold World.transform
  rw [hx]
  simp only [h2]

/-- **C96.** A scene of molecules and of nested volumes of balls and rods of crystal: `populate()`, then `ob.transform(T)` on every object for
a locked rigid motion `T` that puts no axis of a rod along the space diagonal, then `populate()` again.  All succeed, and the scene then shows the image of what it showed before: the
same atoms, moved, with the same species. -/
theorem C96_scene_moves_rigidly_partial (env : Env) (D D' : Axes) (w : World) (xs : List Item) (hx : w.objects = some xs) (hm : ∀ x ∈ xs, Movable env D x)
    (t : Tr ℝ) (ht : RigidMotion t) (hl : t.locked = true) (hb : t.basisOnly = false) (hD : D.Turned t D') (n n' : ℕ) :
    ∃ w1 w2 w3 n1 n3 as ss as' ss', w.populate env n = (w1, n1, .ok ()) ∧ w1.allAtoms env = .ok as ∧ w1.allSpecies env = .ok ss ∧
      w1.transform env t = (w2, .ok ()) ∧ w2.populate env n' = (w3, n3, .ok ()) ∧ w3.allAtoms env = .ok as' ∧ w3.allSpecies env = .ok ss' ∧
      as.length = ss.length ∧ as'.length = ss'.length ∧ (as'.zip ss').Perm ((as.zip ss).map fun a => (t.apply a.1, a.2)) := by
  obtain ⟨w1, n1, hp1⟩ := C95_populate_succeeds env w n xs hx (Movable.balanced hm) (Movable.supplying hm)
  obtain ⟨pairs, ys, rfl, hy, hys, hpairs⟩ := World.populate_movable hx hm hp1
  have hmy : ∀ y ∈ ys, Movable env D y := by
    intro y hy'
    obtain ⟨x, hx', rfl⟩ := List.mem_map.mp (hys.mem_iff.mp hy')
    exact (hpairs x hx').1
  obtain ⟨w2, q, ht1, hq, hw2, hqp⟩ := World.transform_movable ht hl hb hD hy hmy
  have hm2 : ∀ z ∈ q.map Prod.snd, Movable env D' z := by
    intro z hz
    obtain ⟨x, hx', rfl⟩ := List.mem_map.mp hz
    exact (hqp x hx').1
  obtain ⟨w3, n3, hp3⟩ := C95_populate_succeeds env w2 n' _ hw2 (Movable.balanced hm2) (Movable.supplying hm2)
  -- the scene populated twice, as an intermediate step
  obtain ⟨w1', n1', hp1'⟩ := C95_populate_succeeds env w1 n1 ys hy (Movable.balanced hmy) (Movable.supplying hmy)
  obtain ⟨as, ss, bs, rs, a1, a2, b1, b2, a3, b3, hab⟩ := C96_images env id pairs (fun x hx => (hpairs x hx).2) w w1 w1 w1' n n1 n1 n1' ys hx hy hys
    (Movable.balanced hm) (Movable.balanced hmy) hp1 hp1'
  obtain ⟨bs', rs', as', ss', b1', b2', c1, c2, -, c3, hbc⟩ := C96_images env t.apply q (fun x hx => (hqp x hx).2) w1 w2 w1' w3 n1 n' n1' n3 _ (by rw [hq]; exact hy) hw2
    (.refl _) (by rw [hq]; exact Movable.balanced hmy) (Movable.balanced hm2) hp1' hp3
  rw [b1] at b1'; injection b1' with b1'; subst b1'
  rw [b2] at b2'; injection b2' with b2'; subst b2'
  refine ⟨w1, w2, w3, n1, n3, as, ss, as', ss', hp1, a1, a2, ht1, hp3, c1, c2, a3, c3, ?_⟩
  rw [movePos_id, List.map_id] at hab
  exact hbc.trans (hab.map _)

/-- **C96 (history).** Populating such a scene again changes nothing. -/
theorem C96_repopulate (env : Env) (D : Axes) (w : World) (xs : List Item) (hx : w.objects = some xs) (hm : ∀ x ∈ xs, Movable env D x) (n n' : ℕ) :
    ∃ w1 w2 n1 n2 as ss as' ss', w.populate env n = (w1, n1, .ok ()) ∧ w1.allAtoms env = .ok as ∧ w1.allSpecies env = .ok ss ∧
      w1.populate env n' = (w2, n2, .ok ()) ∧ w2.allAtoms env = .ok as' ∧ w2.allSpecies env = .ok ss' ∧
      as.length = ss.length ∧ as'.length = ss'.length ∧ (as'.zip ss').Perm (as.zip ss) := by
  obtain ⟨w1, n1, hp1⟩ := C95_populate_succeeds env w n xs hx (Movable.balanced hm) (Movable.supplying hm)
  obtain ⟨pairs, ys, rfl, hy, hys, hpairs⟩ := World.populate_movable hx hm hp1
  have hmy : ∀ y ∈ ys, Movable env D y := by
    intro y hy'
    obtain ⟨x, hx', rfl⟩ := List.mem_map.mp (hys.mem_iff.mp hy')
    exact (hpairs x hx').1
  obtain ⟨w1', n1', hp1'⟩ := C95_populate_succeeds env w1 n' ys hy (Movable.balanced hmy) (Movable.supplying hmy)
  obtain ⟨as, ss, bs, rs, a1, a2, b1, b2, a3, b3, hab⟩ := C96_images env id pairs (fun x hx => (hpairs x hx).2) w w1 w1 w1' n n' n1 n1' ys hx hy hys
    (Movable.balanced hm) (Movable.balanced hmy) hp1 hp1'
  rw [movePos_id, List.map_id] at hab
  exact ⟨w1, w1', n1, n1', as, ss, bs, rs, hp1, a1, a2, hp1', b1, b2, a3, b3, hab⟩

/-- The ball of crystal of C17 meets the conditions. -/
theorem unitBall_crystal (env : Env) : BallCrystal env (unitBall 0) ⟨some ⟨1, [(0, 6)]⟩, some unitVoxel, none, none⟩ unitVoxel [(0, 6)] := by
  refine ⟨⟨rfl, rfl, ?_, rfl, ⟨rfl, ⟨1, rfl⟩, rfl, rfl⟩, trivial, by rw [unitVoxel_sbases, M3.det_one]; norm_num, ?_⟩,
    by simp [unitBall, Vol.spheres], ?_, ?_⟩
  · intro a ha; simp only [unitBall, List.mem_singleton] at ha; subst ha; simp [Alg.WF]
  · intro f hf; simp only [List.mem_singleton] at hf; subst hf; norm_num
  · intro s hs; simp [unitBall] at hs; subst hs; norm_num
  · rintro _ ⟨m, f, hf, rfl⟩ hI s hs
    simp [unitBall] at hs
    subst hs
    simp only [List.mem_singleton] at hf
    subst hf
    rcases hI with ⟨_, _, -, ha⟩ | _
    have := ha (.sphere ⟨1, 0, 1 / 10⟩) (by simp [unitBall])
    simp only at this ⊢
    rw [unitVoxel_sbases, show unitVoxel.origin = 0 from rfl, crystal_one] at *
    simp only [Alg.interior, Sphere.interior, decide_eq_true_eq, V3.normSq, V3.dot] at this
    simp only [Spec.dist]
    norm_num at this ⊢
    have h2 : ((m.x * m.x + m.y * m.y + m.z * m.z : ℤ) : ℝ) < ((2 : ℤ) : ℝ) := by push_cast; linarith
    have h3 : m.x * m.x + m.y * m.y + m.z * m.z < 2 := Int.cast_lt.mp h2
    have h4 : m.x * m.x + m.y * m.y + m.z * m.z ≤ 1 := by omega
    have h5 : ((m.x * m.x + m.y * m.y + m.z * m.z : ℤ) : ℝ) ≤ ((1 : ℤ) : ℝ) := Int.cast_le.mpr h4
    push_cast at h5
    nlinarith

/-- The direction z, which the rod of C17 has. -/
def axisZ : Axes := ⟨{⟨0, 0, 1⟩}, by rintro _ rfl; exact not_diagonal_z⟩

/-- The rod of crystal of C17 meets the conditions. -/
theorem unitRod_crystal (env : Env) : RodCrystal env axisZ unitRod ⟨some ⟨1, [(0, 6)]⟩, some unitVoxel, none, none⟩ unitVoxel [(0, 6)] := by
  refine ⟨⟨rfl, rfl, unitRod_wf, rfl, ⟨rfl, ⟨1, rfl⟩, rfl, rfl⟩, trivial, by rw [unitVoxel_sbases, M3.det_one]; norm_num, ?_⟩,
    by simp [unitRod, Vol.spheres], by simp [unitRod, Vol.planes], by simp [unitRod, Vol.cylinders], ?_, unitRod_shell env⟩
  · intro f hf; simp only [List.mem_singleton] at hf; subst hf; norm_num
  · intro c hc; simp [unitRod] at hc; subst hc; rfl

/-- Concrete case: a ball of crystal, a MultiVolume with the same ball and a rod of crystal inside a MultiVolume, and a molecule, rotated about
an axis through (1, 2, 3). -/
example (env : Env) (b : V3 ℝ × V3 ℝ) (n n' : ℕ) : ∃ w1 w2 w3 n1 n3 as ss as' ss',
    World.populate env ⟨some [.vol (.vol (unitBall 0)), .vol (.multi [.vol (unitBall 0), .multi [.vol unitRod] 2 none] 1 none),
      .mol ⟨[⟨3, 0, 0⟩, ⟨4, 0, 0⟩], [8, 1], 0, 1, true, some 0, none, true⟩], none, b⟩ n = (w1, n1, .ok ()) ∧ w1.allAtoms env = .ok as ∧
      w1.allSpecies env = .ok ss ∧ w1.transform env (.matrix .general rot345 (some ⟨1, 2, 3⟩) true false) = (w2, .ok ()) ∧
      w2.populate env n' = (w3, n3, .ok ()) ∧ w3.allAtoms env = .ok as' ∧ w3.allSpecies env = .ok ss' ∧
      as.length = ss.length ∧ as'.length = ss'.length ∧
      (as'.zip ss').Perm ((as.zip ss).map fun a => (Tr.apply (.matrix .general rot345 (some ⟨1, 2, 3⟩) true false) a.1, a.2)) := by
  have hB : SolidTree env axisZ (.vol (unitBall 0)) := .vol _ _ _ _ (.ball (unitBall_crystal env))
  refine C96_scene_moves_rigidly_partial env axisZ axisZ _ _ rfl ?_ _ (.matrix _ _ _ _ rot345_orth) rfl rfl ?_ n n'
  · intro x hx
    simp only [List.mem_cons, List.not_mem_nil, or_false] at hx
    rcases hx with rfl | rfl | rfl
    · exact .vol _ hB
    · refine .vol _ (.multi _ _ _ (by simp) ?_)
      intro t ht
      simp only [List.mem_cons, List.not_mem_nil, or_false] at ht
      rcases ht with rfl | rfl
      · exact hB
      · refine .multi _ _ _ (by simp) ?_
        intro t ht
        simp only [List.mem_cons, List.not_mem_nil, or_false] at ht
        subst ht
        exact .vol _ _ _ _ (.rod (unitRod_crystal env))
    · exact .mol _ ⟨3, 0, 0⟩ rfl rfl
  · rintro _ rfl
    show _ = _
    ext <;> simp [Tr.apply, Tr.matApply, rot345, M3.mulVec]

/-- Concrete case for C95: a ball of crystal (priority 0) and a molecule (priority 1) with one atom inside the ball and one outside:
the scene has the atom outside and not the one inside. -/
example (env : Env) (b : V3 ℝ × V3 ℝ) (n : ℕ) : ∃ w' n' as ss,
    World.populate env ⟨some [.vol (.vol (unitBall 0)), .mol ⟨[⟨0, 0, 1 / 2⟩, ⟨3, 0, 0⟩], [8, 1], 1, 1, false, none, some 0, true⟩], none, b⟩ n =
      (w', n', .ok ()) ∧ w'.allAtoms env = .ok as ∧ w'.allSpecies env = .ok ss ∧
      ((⟨3, 0, 0⟩, 1) : V3 ℝ × ℤ) ∈ as.zip ss ∧ ((⟨0, 0, 1 / 2⟩, 8) : V3 ℝ × ℤ) ∉ as.zip ss := by
  have hB := unitBall_crystal env
  obtain ⟨w1, n1, as, ss, hp, ha, hs, hl, hin, hall⟩ := C95_crystals env
    ⟨some [.vol (.vol (unitBall 0)), .mol ⟨[⟨0, 0, 1 / 2⟩, ⟨3, 0, 0⟩], [8, 1], 1, 1, false, none, some 0, true⟩], none, b⟩ n
    [(.vol (.vol (unitBall 0)), _, _), (.mol ⟨[⟨0, 0, 1 / 2⟩, ⟨3, 0, 0⟩], [8, 1], 1, 1, false, none, some 0, true⟩, _, _)] (by
      intro x hx
      simp only [List.mem_cons, List.not_mem_nil, or_false] at hx
      rcases hx with rfl | rfl
      · exact .ball _ _ _ _ rfl rfl hB.spheres hB.radii rfl hB.body.plain hB.body.det hB.body.frac
      · exact .mol _ rfl) rfl
  refine ⟨w1, n1, as, ss, hp, ha, hs, ?_, ?_⟩
  · refine hall ⟨1, by simp⟩ _ (List.mem_cons_of_mem _ List.mem_cons_self) trivial ?_
    intro j hj hpr hocc
    have hj0 : j = ⟨0, by simp⟩ := by
      rcases j with ⟨j, hj'⟩
      simp only [List.length_cons, List.length_nil] at hj'
      have : j ≠ 1 := fun e => hj (Fin.ext e)
      exact Fin.ext (by simp; omega)
    subst hj0
    change Inside env (.vol (unitBall 0)) _ at hocc
    cases hocc with
    | vol _ _ _ hal =>
      have := hal (.sphere ⟨1, 0, 1 / 10⟩) (by simp [unitBall])
      rw [show (Alg.sphere ⟨1, 0, 1 / 10⟩).interior _ = decide _ from rfl, decide_eq_true_iff] at this
      simp [V3.normSq, V3.dot] at this
      norm_num at this
  · intro h
    obtain ⟨i, h1, h2, h3⟩ := hin _ h
    rcases i with ⟨_ | _ | i, hi⟩
    · obtain ⟨m, f, hf, he⟩ := h1
      rw [List.mem_singleton] at hf
      subst hf
      have := congrArg Prod.snd he
      simp at this
    · refine h3 ⟨0, by simp⟩ (by simp) (by simp [Item.priority, VTree.priority, unitBall]) ?_
      change Inside env (.vol (unitBall 0)) _
      refine .vol _ _ (by simp [unitBall]) ?_
      intro a ha
      simp only [unitBall, List.mem_singleton] at ha
      subst ha
      simp [Alg.interior, Sphere.interior, V3.normSq, V3.dot]
      norm_num
    · simp at hi

end CZ
