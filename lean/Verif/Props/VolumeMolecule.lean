import Verif.Props.WorldHistory
import Verif.Props.WorldShift
import Verif.Props.MoleculeExtra
import Verif.Props.VolumeExtra

/-!
# Property C133: Volumes and the Molecules made of their atoms

`Molecule(vol.species, vol.atoms)` freezes what a Volume, or a whole scene, holds.  The same motions are then applied to both sides.
-/

namespace CZ
open Spec

/-- Points carried along by a sequence of motions. -/
noncomputable def carry (ts : List (Tr ℝ)) (p : V3 ℝ) : V3 ℝ := ts.foldl (fun q t => t.apply q) p

/-- The motions among the operations of a caller. -/
def motions : List WOp → List (Tr ℝ)
  | [] => []
  | .add _ :: ops => motions ops
  | .populate _ :: ops => motions ops
  | .move t :: ops => t :: motions ops

theorem placed_carry : ∀ (ops : List WOp), (∀ o ∈ ops, ∀ x, o ≠ .add x) → ∀ L, placed L ops = L.map fun x => (x.1, carry (motions ops) ∘ x.2) := by
  intro ops
  induction ops with
  | nil => intro _ L; simp [placed, motions, carry, Function.comp_def]
  | cons o ops ih =>
    intro ha L
    have ih := ih fun o ho => ha o (List.mem_cons_of_mem _ ho)
    cases o with
    | add x => exact absurd rfl (ha _ List.mem_cons_self x)
    | populate n => rw [placed, ih]; rfl
    | move t => rw [placed, ih, List.map_map]; rfl

theorem fair_injective {env : Env} : ∀ (ops : List WOp) (D : Axes), Fair env D ops → Function.Injective (carry (motions ops)) := by
  intro ops
  induction ops with
  | nil => intro D _ p q h; exact h
  | cons o ops ih =>
    intro D hf
    cases hf with
    | add _ D' x _ _ _ hf => exact ih _ hf
    | populate _ n _ hf => exact ih _ hf
    | move _ D' t _ ht _ _ _ hf =>
      intro p q h
      exact apply_injective ht (ih _ hf h)

theorem Reached.start {env : Env} {D : Axes} {w : World} {xs : List Item} (hx : w.objects = some xs) (hm : ∀ x ∈ xs, Movable env D x) :
    Reached env D (xs.map fun x => (x, id)) w := by
  refine ⟨?_, xs.map fun x => ((x, id), x), by simp [Function.comp_def], by simp [hx, Function.comp_def], ?_, by rw [hx]; intro e; cases e⟩
  · intro y hy
    obtain ⟨x, hx', rfl⟩ := List.mem_map.mp hy
    exact ⟨⟨D, hm x hx'⟩, Function.surjective_id⟩
  · intro y hy
    obtain ⟨x, hx', rfl⟩ := List.mem_map.mp hy
    exact ⟨hm x hx', seen_self (hm x hx')⟩

/-- A Molecule of given atoms, moved. -/
theorem frozen (as : List (V3 ℝ)) (ss : List ℤ) (hl : as.length = ss.length) (ts : List (Tr ℝ)) :
    ∃ m m', Mol.make ss (flat3 as) .none none = .ok m ∧ m.atoms = as ∧ m.species = ss ∧ m.fromMolecule ts = .ok m' ∧ m'.atoms = as.map (carry ts) ∧ m'.species = ss := by
  obtain ⟨m, h1, h2, h3, h4⟩ := Mol.C85_construction ss as hl .none
  obtain ⟨m', k1, k2, k3, -⟩ := Mol.C84_from_molecule m (by rw [h3, h4, hl]) _ h2 ts
  exact ⟨m, m', h1, h3, h4, k1, by rw [k2, h3]; rfl, by rw [k3, h4]⟩

theorem zip_carry (φ : V3 ℝ → V3 ℝ) (as : List (V3 ℝ)) (ss : List ℤ) : (as.map φ).zip ss = (as.zip ss).map (movePos φ) := by
  rw [List.zip_map_left]; rfl

/-- **C133 (scenes).** A scene of molecules and of nested volumes of balls and rods of crystal is populated, and its atoms are put into a Molecule.
Every object of the scene is then moved by locked rigid motions, with further calls of `populate()` in between as one likes; `from_molecule` is given
the same motions.  After a last `populate()` scene and Molecule hold the same atoms. -/
theorem C133_scene_moves_partial (env : Env) (D : Axes) (w : World) (xs : List Item) (hx : w.objects = some xs) (hne : xs ≠ [])
    (hm : ∀ x ∈ xs, Movable env D x) (ops : List WOp) (hf : Fair env D ops) (ha : ∀ o ∈ ops, ∀ x, o ≠ .add x) (n n2 : ℕ) :
    ∃ w1 n1 as ss m w2 n2' as' ss' m', w.populate env n = (w1, n1, .ok ()) ∧ w1.allAtoms env = .ok as ∧ w1.allSpecies env = .ok ss ∧
      Mol.make ss (flat3 as) .none none = .ok m ∧
      (w1.run env ops).populate env n2 = (w2, n2', .ok ()) ∧ w2.allAtoms env = .ok as' ∧ w2.allSpecies env = .ok ss' ∧
      m.fromMolecule (motions ops) = .ok m' ∧ as'.length = ss'.length ∧ (as'.zip ss').Perm (m'.atoms.zip m'.species) := by
  have hR := Reached.start hx hm
  have hne' : (xs.map fun x => ((x, id) : Item × (V3 ℝ → V3 ℝ))) ≠ [] := by simpa using hne
  obtain ⟨w1, n1, as, ss, h1, h2, h3, h4, P, p1, p2, p3⟩ := hR.contents hne' n
  obtain ⟨D', hR2⟩ := Reached.run (.populate n :: ops) D (.populate _ _ _ hf) _ _ hR
  have hrun : World.run env w (.populate n :: ops) = World.run env w1 ops := by
    show World.run env ((w.populate env n).1) ops = _
    rw [h1]
  rw [hrun, placed, placed_carry ops ha] at hR2
  obtain ⟨w2, n2', as', ss', k1, k2, k3, k4, Q, q1, q2, q3⟩ := hR2.contents (by simpa using hne) n2
  obtain ⟨m, m', f1, -, -, f4, f5, f6⟩ := frozen as ss h4 (motions ops)
  refine ⟨w1, n1, as, ss, m, w2, n2', as', ss', m', h1, h2, h3, f1, k1, k2, k3, f4, k4, ?_⟩
  rw [f5, f6, zip_carry]
  set φ := carry (motions ops) with hφ
  have hinj : Function.Injective φ := fair_injective ops D hf
  obtain ⟨R, r1, r2, r3⟩ := zip_of_map (fun x : (Item × (V3 ℝ → V3 ℝ)) × List (V3 ℝ × ℤ) => ((x.1.1, φ) : Item × (V3 ℝ → V3 ℝ)))
    (fun x : (Item × (V3 ℝ → V3 ℝ)) × List (V3 ℝ × ℤ) => x.1) P Q (by
      rw [show Q.map (fun x => x.1) = Q.map Prod.fst from rfl, q1, show P.map (fun x => ((x.1.1, φ) : Item × (V3 ℝ → V3 ℝ))) = (P.map Prod.fst).map (fun y => (y.1, φ)) by
        rw [List.map_map]; rfl, p1, List.map_map, List.map_map]; rfl)
  have hid : ∀ x ∈ P, x.1.2 = id ∧ Movable env D x.1.1 := by
    intro x hx'
    have : x.1 ∈ P.map Prod.fst := List.mem_map.mpr ⟨x, hx', rfl⟩
    rw [p1] at this
    obtain ⟨y, hy, e⟩ := List.mem_map.mp this
    rw [← e]
    exact ⟨rfl, hm y hy⟩
  refine q3.trans (List.Perm.trans ?_ (p3.symm.map _))
  rw [← r1, ← r2, List.map_map, List.map_map]
  apply contents_image
  · intro a ha'
    exact (congrArg (fun y : Item × (V3 ℝ → V3 ℝ) => y.1.priority) (r3 a ha')).symm
  · intro a ha' x
    have e := r3 a ha'
    have m1 : a.1 ∈ P := by rw [← r1]; exact List.mem_map.mpr ⟨a, ha', rfl⟩
    simp only [Function.comp, ← e, (hid _ m1).1, id]
    constructor
    · rintro ⟨q, hq, hqe⟩; exact ⟨q, hq, hinj hqe⟩
    · rintro ⟨q, hq, rfl⟩; exact ⟨_, hq, rfl⟩
  · intro a ha'
    have e := r3 a ha'
    have m1 : a.1 ∈ P := by rw [← r1]; exact List.mem_map.mpr ⟨a, ha', rfl⟩
    have m2 : a.2 ∈ Q := by rw [← r2]; exact List.mem_map.mpr ⟨a, ha', rfl⟩
    have h5 := p2 _ m1
    have h6 := q2 _ m2
    simp only [Function.comp, ← e, (hid _ m1).1, id] at h6 ⊢
    have h7 := (seen_self (hid _ m1).2).holds _ _ h5 h6
    rw [movePos_id, List.map_id] at h7
    rw [List.map_id']
    exact h7.map _

/-- Concrete case: a scene with a ball of crystal, populated, shifted, populated again and rotated. -/
example (env : Env) (b : V3 ℝ × V3 ℝ) : ∃ w1 n1 as ss m w2 n2' as' ss' m',
    World.populate env ⟨some [.vol (.vol (unitBall 0))], none, b⟩ 0 = (w1, n1, .ok ()) ∧ w1.allAtoms env = .ok as ∧ w1.allSpecies env = .ok ss ∧
      Mol.make ss (flat3 as) .none none = .ok m ∧
      (w1.run env [.move (.translation ⟨1, 1, 1⟩ true false), .populate 3, .move (.matrix .general rot345 none true false)]).populate env 5 = (w2, n2', .ok ()) ∧
      w2.allAtoms env = .ok as' ∧ w2.allSpecies env = .ok ss' ∧
      m.fromMolecule [.translation ⟨1, 1, 1⟩ true false, .matrix .general rot345 none true false] = .ok m' ∧ as'.length = ss'.length ∧
      (as'.zip ss').Perm (m'.atoms.zip m'.species) :=
  C133_scene_moves_partial env Axes.none _ _ rfl (by simp) (by
    intro x hx
    rw [List.mem_singleton] at hx
    subst hx
    exact .vol _ (.vol _ _ _ _ (.ball (unitBall_crystal env)))) _
    (.move _ Axes.none _ _ (.translation _ _ _) rfl rfl (Axes.none_turned _ _) (.populate _ _ _
      (.move _ Axes.none _ _ (.matrix _ _ _ _ rot345_orth) rfl rfl (Axes.none_turned _ _) (.nil _)))) (by simp) 0 5

/-! ## copies of a volume -/

theorem Image.trans {env : Env} {φ ψ : V3 ℝ → V3 ℝ} {v v' v'' : Vol} (hs : Supplying env (.vol v')) (h1 : Image env φ (.vol v) (.vol v'))
    (h2 : Image env ψ (.vol v') (.vol v'')) : Image env (ψ ∘ φ) (.vol v) (.vol v'') := by
  refine .vol _ _ (h2.priority.trans h1.priority) (fun p => (h2.inside (φ p)).trans (h1.inside p)) ?_
  intro cs cs' hc hc'
  obtain ⟨t', n', hp⟩ := C12_populate_succeeds env _ hs 0
  obtain ⟨ds, hd⟩ := VTree.populate_spec env _ 0 t' n' hp
  refine (h2.fills ds cs' hd.fills hc').trans (((h1.fills cs ds hc hd.fills).map _).trans ?_)
  rw [List.map_map]
  exact .refl _

theorem Image.self {env : Env} {D : Axes} {v : Vol} {c : Gen ℝ} {x : Voxel ℝ} {sites : List (V3 ℝ × ℤ)} (h : SolidCrystal env D v c x sites)
    {v' : Vol} (ha : v'.algs = v.algs) (hg : v'.gen = v.gen) (hp : v'.points = v.points) (ht : v'.tri = v.tri) (hr : v'.priority = v.priority) :
    SolidCrystal env D v' c x sites ∧ Image env id (.vol v) (.vol v') := by
  have hin : ∀ p, Inside env (.vol v') p ↔ Inside env (.vol v) p := by
    intro p
    rw [← Vol.interior_iff, ← Vol.interior_iff]
    have h0 : v.tri = none := h.body.1.tri
    simp [Vol.interior, ht, ha, h0]
  have hS : SolidCrystal env D v' c x sites := by
    have hbody : CrystalBody v' c x sites := by
      have := h.body.1
      exact ⟨by rw [hp]; exact this.points, by rw [ht]; exact this.tri, by rw [ha]; exact this.wf, by rw [hg]; exact this.gen, this.plain, this.scale, this.det, this.frac⟩
    cases h with
    | ball h =>
      exact .ball ⟨hbody, by unfold Vol.spheres at *; rw [ha]; exact h.spheres, by rw [ha]; exact h.radii,
        fun a h1 h2 => by rw [ha]; exact h.shell a h1 ((hin _).mp h2)⟩
    | rod h =>
      exact .rod ⟨hbody, by unfold Vol.spheres at *; rw [ha]; exact h.spheres, by unfold Vol.planes at *; rw [ha]; exact h.planes,
        by unfold Vol.cylinders at *; rw [ha]; exact h.cylinders, by rw [ha]; exact h.axes, fun a h1 h2 => by rw [ha]; exact h.shell a h1 ((hin _).mp h2)⟩
  refine ⟨hS, .vol _ _ hr hin ?_⟩
  intro cs cs' hc hc'
  rw [movePos_id, List.map_id]
  obtain ⟨hb, box, hbox⟩ := h.body
  obtain ⟨⟨lo, hi⟩, he⟩ := Voxel.getExtents_ok (box := box) hb.det hbox.ne
  have hbb : v'.boundingBox env = .ok (.rows box) := by
    rw [← hbox.bbox]
    clear hS hin hc'
    cases v'
    simp only at ha hp
    subst ha hp
    rfl
  have hint : v'.interior env = v.interior env := by
    funext p
    rw [Bool.eq_iff_iff, Vol.interior_iff, Vol.interior_iff]
    exact hin p
  rw [hb.fills hc hbox.bbox he, hS.body.1.fills hc' hbb he, hint]

/-- `transform` called for one motion after the other. -/
theorem SolidCrystal.transformAll {env : Env} : ∀ (ts : List (Tr ℝ)) (D : Axes), Fair env D (ts.map .move) → ∀ (v : Vol) (c : Gen ℝ) (x : Voxel ℝ)
    (sites : List (V3 ℝ × ℤ)), SolidCrystal env D v c x sites →
    ∃ D' v' c' y, v.transformAll env ts = (v', .ok ()) ∧ SolidCrystal env D' v' c' y sites ∧ Image env (carry ts) (.vol v) (.vol v') := by
  intro ts
  induction ts with
  | nil =>
    intro D _ v c x sites h
    exact ⟨D, v, c, x, rfl, h, (Image.self h rfl rfl rfl rfl rfl).2⟩
  | cons t ts ih =>
    intro D hf v c x sites h
    cases hf with
    | move _ D' _ _ ht hl hb hD hf =>
      obtain ⟨v1, c1, y1, h1, h2, h3⟩ := h.transform ht hl hb hD
      obtain ⟨D2, v2, c2, y2, k1, k2, k3⟩ := ih D' hf v1 c1 y1 sites h2
      refine ⟨D2, v2, c2, y2, by rw [Vol.transformAll, h1]; exact k1, k2, ?_⟩
      exact Image.trans h2.supplying h3 k3

/-- `from_volume(transformation=ts)` of nested volumes. -/
theorem SolidTree.copy {env : Env} {D : Axes} (ts : List (Tr ℝ)) (hf : Fair env D (ts.map .move)) {t : VTree} (h : SolidTree env D t) :
    ∃ t', t.fromVolume env none ts = .ok t' ∧ Supplying env t' ∧ Image env (carry ts) t t' := by
  induction h with
  | vol v c x sites h =>
    have hw := Image.self (v' := ⟨none, none, none, v.algs, v.gen, v.priority, 1 / 10 ^ 10, none, none⟩) h rfl rfl h.body.1.points.symm h.body.1.tri.symm rfl
    obtain ⟨D2, v2, c2, y2, k1, k2, k3⟩ := SolidCrystal.transformAll ts D hf _ _ _ _ hw.1
    refine ⟨.vol v2, ?_, k2.supplying, Image.trans hw.1.supplying hw.2 k3⟩
    have hg := h.body.1.gen
    simp only [VTree.fromVolume, Vol.fromVolume, h.body.1.points, make_surfaces, bind, Except.bind, pure, Except.pure, Option.getD_none, hg, Vol.addGenerator]
    rw [hg] at k1
    rw [k1]
    rfl
  | multi vs pr hd hne hv ih =>
    have loop : ∀ ws : List VTree, (∀ u ∈ ws, ∃ u', u.fromVolume env none ts = .ok u' ∧ Supplying env u' ∧ Image env (carry ts) u u') →
        ∃ pairs : List (VTree × VTree), pairs.map Prod.fst = ws ∧ VTree.fromVolumeList env none ts ws = .ok (pairs.map Prod.snd) ∧
          ∀ x ∈ pairs, Supplying env x.2 ∧ Image env (carry ts) x.1 x.2 := by
      intro ws hws
      induction ws with
      | nil => exact ⟨[], rfl, by rw [VTree.fromVolumeList]; rfl, by simp⟩
      | cons w ws ihw =>
        obtain ⟨w', h1, h2⟩ := hws w List.mem_cons_self
        obtain ⟨pairs, h3, h4, h5⟩ := ihw fun u hu => hws u (List.mem_cons_of_mem _ hu)
        refine ⟨(w, w') :: pairs, by simp [h3], by rw [VTree.fromVolumeList, h1, h4]; rfl, ?_⟩
        intro x hx
        rcases List.mem_cons.mp hx with rfl | hx
        · exact h2
        · exact h5 x hx
    obtain ⟨pairs, rfl, h2, h3⟩ := loop vs ih
    refine ⟨.multi (pairs.map Prod.snd) pr none, by rw [VTree.fromVolume, h2]; rfl, .multi _ _ _ (by simpa using hne) ?_,
      .multi pairs pr _ _ _ (.refl _) fun x hx => (h3 x hx).2⟩
    intro u hu
    obtain ⟨x, hx, rfl⟩ := List.mem_map.mp hu
    exact (h3 x hx).1

/-- **C133 (copies).** A Volume or MultiVolume of balls and rods of crystal is populated.  `from_volume(vol, transformation=ts)` with locked rigid motions
returns a volume that, populated, holds the atoms of `Molecule.from_molecule(Molecule(vol.species, vol.atoms), transformation=ts)`. -/
theorem C133_copies_partial (env : Env) (D : Axes) (t : VTree) (h : SolidTree env D t) (ts : List (Tr ℝ)) (hf : Fair env D (ts.map .move)) (n n2 : ℕ) :
    ∃ t1 n1 as ss m m' t2 t3 n3 as' ss', t.populate env n = (t1, n1, .ok ()) ∧ t1.held = some (as, ss) ∧
      Mol.make ss (flat3 as) .none none = .ok m ∧ m.fromMolecule ts = .ok m' ∧
      t1.fromVolume env none ts = .ok t2 ∧ t2.populate env n2 = (t3, n3, .ok ()) ∧ t3.held = some (as', ss') ∧ as'.length = ss'.length ∧
      (as'.zip ss').Perm (m'.atoms.zip m'.species) := by
  obtain ⟨t1, n1, h1⟩ := C12_populate_succeeds env t h.supplying n
  obtain ⟨cs, hc⟩ := VTree.populate_spec env t n t1 n1 h1
  obtain ⟨as, ss, a1, a2, a3⟩ := hc.held
  obtain ⟨hs1, hi1⟩ := h.populate n t1 n1 h1
  obtain ⟨t2, k1, k2, k3⟩ := SolidTree.copy ts hf hs1
  obtain ⟨t3, n3, k4⟩ := C12_populate_succeeds env t2 k2 n2
  obtain ⟨cs', hc'⟩ := VTree.populate_spec env t2 n2 t3 n3 k4
  obtain ⟨as', ss', b1, b2, b3⟩ := hc'.held
  obtain ⟨m, m', f1, -, -, f4, f5, f6⟩ := frozen as ss a2 ts
  refine ⟨t1, n1, as, ss, m, m', t2, t3, n3, as', ss', h1, a1, f1, f4, k1, k4, b1, b2, ?_⟩
  rw [f5, f6, zip_carry]
  obtain ⟨t1', n1', hq⟩ := C12_populate_succeeds env t1 hs1.supplying 0
  obtain ⟨ds, hd⟩ := VTree.populate_spec env t1 0 t1' n1' hq
  have e1 := hi1.fills cs ds hc.fills hd.fills
  rw [movePos_id, List.map_id] at e1
  exact b3.trans ((k3.fills ds cs' hd.fills hc'.fills).trans (((e1.trans a3.symm)).map _))

/-- Concrete case: a ball of crystal. -/
example (env : Env) : ∃ t1 n1 as ss m m' t2 t3 n3 as' ss', VTree.populate env (.vol (unitBall 0)) 0 = (t1, n1, .ok ()) ∧ t1.held = some (as, ss) ∧
      Mol.make ss (flat3 as) .none none = .ok m ∧ m.fromMolecule [.matrix .general rot345 none true false] = .ok m' ∧
      t1.fromVolume env none [.matrix .general rot345 none true false] = .ok t2 ∧ t2.populate env 1 = (t3, n3, .ok ()) ∧ t3.held = some (as', ss') ∧
      as'.length = ss'.length ∧ (as'.zip ss').Perm (m'.atoms.zip m'.species) :=
  C133_copies_partial env Axes.none _ (.vol _ _ _ _ (.ball (unitBall_crystal env))) _
    (.move _ Axes.none _ _ (.matrix _ _ _ _ rot345_orth) rfl rfl (Axes.none_turned _ _) (.nil _)) 0 1

/-- **C133 (false in general).** A ball of crystal with a site in its tolerance shell: after a rotation the ball has an atom that the Molecule, rotated
likewise, does not have. -/
theorem C133_shell_refuted (env : Env) (n n' : ℕ) : ∃ t v1 v2 v3 ps qs, RigidMotion t ∧ t.locked = true ∧ t.basisOnly = false ∧
      (unitBall ⟨99 / 100, 0, 0⟩).populate env n = (v1, .ok ()) ∧ v1.atoms = some ps ∧
      v1.transform env t = (v2, .ok ()) ∧ v2.populate env n' = (v3, .ok ()) ∧ v3.atoms = some qs ∧
      ∀ ss : List ℤ, ss.length = ps.length → ∃ m m', Mol.make ss (flat3 ps) .none none = .ok m ∧ m.fromMolecule [t] = .ok m' ∧ ∃ r ∈ qs, r ∉ m'.atoms := by
  obtain ⟨t, v1, v2, v3, ps, qs, h1, h2, h3, h4, h5, h6, h7, h8, p, h9, h10⟩ := C17_tolerance_shell_refuted env n n'
  refine ⟨t, v1, v2, v3, ps, qs, h1, h2, h3, h4, h5, h6, h7, h8, fun ss hs => ?_⟩
  obtain ⟨m, m', f1, -, -, f4, f5, -⟩ := frozen ps ss hs.symm [t]
  refine ⟨m, m', f1, f4, _, h10, ?_⟩
  rw [f5]
  intro hm
  obtain ⟨q, hq, e⟩ := List.mem_map.mp hm
  exact h9 (apply_injective h1 e ▸ hq)

/-! ## a Molecule in place of a Volume -/

/-- A body that no longer blocks anything, where it blocked nothing before. -/
theorem contents_unblocked (b b' : Body (V3 ℝ) ℤ) (l : List (Body (V3 ℝ) ℤ)) (hp : b'.priority = b.priority) (hs : b'.sites.Perm b.sites) (hi : ∀ x, ¬ b'.inside x)
    (hn : ∀ c ∈ l, ∀ a ∈ c.sites, b.priority ≤ c.priority → ¬ b.inside a.1) : (contents (b' :: l)).Perm (contents (b :: l)) := by
  classical
  rw [contents_eq, contents_eq, List.flatMap_cons, List.flatMap_cons]
  refine List.Perm.append ?_ ?_
  · have : (fun q : V3 ℝ × ℤ => keepCount (b' :: l) b' q.1) = fun q => keepCount (b :: l) b q.1 := by
      funext q
      unfold keepCount
      rw [List.countP_cons, List.countP_cons, hp]
      by_cases hq : b.inside q.1
      · simp [hi, hq]
      · simp [hi, hq]
    rw [this]
    exact hs.filter _
  · apply List.Perm.of_eq
    apply List.flatMap_congr
    intro c hc
    apply List.filter_congr
    intro q hq
    have h1 : ¬ (b.priority ≤ c.priority ∧ b.inside q.1) := fun h => hn c hc q hq h.1 h.2
    unfold keepCount
    rw [List.countP_cons, List.countP_cons]
    simp [hi, h1]

/-- **C133 (in place of a Volume).** In a scene a Volume (or MultiVolume) is replaced by the Molecule of its atoms, with its priority.  The scene
shows the same atoms, provided that no atom of an object with the same or a larger priority number lies in the Volume. -/
theorem C133_in_place_partial (env : Env) (D : Axes) (w w' : World) (t : VTree) (h : SolidTree env D t) (xs ys : List Item)
    (hx : w.objects = some (xs ++ .vol t :: ys)) (hm : ∀ x ∈ xs ++ ys, Movable env D x)
    (hfree : ∀ x ∈ xs ++ ys, t.priority ≤ x.priority → ∀ cs, Holds env x cs → ∀ a ∈ cs, ¬ Inside env t a.1) (n n1 n2 : ℕ) :
    ∃ t1 k as ss m, t.populate env n = (t1, k, .ok ()) ∧ t1.held = some (as, ss) ∧ Mol.make ss (flat3 as) .none none = .ok m ∧
      (w'.objects = some (xs ++ .mol { m with priority := t.priority } :: ys) →
        ∃ v v' k1 k2 bs zs bs' zs', w.populate env n1 = (v, k1, .ok ()) ∧ w'.populate env n2 = (v', k2, .ok ()) ∧
          v.allAtoms env = .ok bs ∧ v.allSpecies env = .ok zs ∧ v'.allAtoms env = .ok bs' ∧ v'.allSpecies env = .ok zs' ∧
          bs.length = zs.length ∧ bs'.length = zs'.length ∧ (bs'.zip zs').Perm (bs.zip zs)) := by
  obtain ⟨t1, k, h1⟩ := C12_populate_succeeds env t h.supplying n
  obtain ⟨cs, hc⟩ := VTree.populate_spec env t n t1 k h1
  obtain ⟨as, ss, a1, a2, a3⟩ := hc.held
  obtain ⟨m, m', f1, f2, f3, -⟩ := frozen as ss a2 []
  refine ⟨t1, k, as, ss, m, h1, a1, f1, fun hx' => ?_⟩
  have hm1 : ∀ x ∈ xs ++ .vol t :: ys, Movable env D x := by
    intro x hx
    simp only [List.mem_append, List.mem_cons] at hx hm
    rcases hx with hx | rfl | hx
    · exact hm x (.inl hx)
    · exact .vol t h
    · exact hm x (.inr hx)
  have ho : ∃ o, m.origin = .ok o := by
    obtain ⟨m2, e1, e2, -⟩ := Mol.C85_construction ss as a2 .none
    rw [f1] at e1; injection e1 with e1; subst e1
    exact ⟨_, e2⟩
  have hm2 : ∀ x ∈ xs ++ .mol { m with priority := t.priority } :: ys, Movable env D x := by
    intro x hx
    simp only [List.mem_append, List.mem_cons] at hx hm
    rcases hx with hx | rfl | hx
    · exact hm x (.inl hx)
    · obtain ⟨o, ho⟩ := ho
      exact .mol _ o (by show m.species.length = m.atoms.length; rw [f2, f3, a2]) ho
    · exact hm x (.inr hx)
  obtain ⟨v, k1, p1⟩ := C95_populate_succeeds env w n1 _ hx (Movable.balanced hm1) (Movable.supplying hm1)
  obtain ⟨v', k2, p2⟩ := C95_populate_succeeds env w' n2 _ hx' (Movable.balanced hm2) (Movable.supplying hm2)
  obtain ⟨bs, zs, q1, q2, q3, P, r1, r2, r3⟩ := C95_scene_contents env w v n1 k1 _ hx (Movable.balanced hm1) p1
  obtain ⟨bs', zs', q1', q2', q3', P', r1', r2', r3'⟩ := C95_scene_contents env w' v' n2 k2 _ hx' (Movable.balanced hm2) p2
  refine ⟨v, v', k1, k2, bs, zs, bs', zs', p1, p2, q1, q2, q1', q2', q3, q3', r3'.trans (List.Perm.trans ?_ r3.symm)⟩
  obtain ⟨A, B, rfl, hA, hB⟩ := List.map_eq_append_iff.mp r1
  obtain ⟨b, B, rfl, hb, hB2⟩ := List.map_eq_cons_iff.mp hB
  obtain ⟨A', B', rfl, hA', hB'⟩ := List.map_eq_append_iff.mp r1'
  obtain ⟨b', B', rfl, hb', hB2'⟩ := List.map_eq_cons_iff.mp hB'
  obtain ⟨bi, bc⟩ := b
  obtain ⟨bi', bc'⟩ := b'
  simp only at hb hb'
  subst hb hb'
  rw [List.map_append, List.map_append, List.map_cons, List.map_cons]
  refine (contents_perm List.perm_middle).trans (List.Perm.trans ?_ (contents_perm List.perm_middle).symm)
  rw [← List.map_append, ← List.map_append]
  have hsites : bc'.Perm bc := by
    have e1 := r2 (.vol t, bc) (by simp)
    have e2 := r2' (.mol { m with priority := t.priority }, bc') (by simp)
    cases e2
    simp only [f2, f3]
    have := (seen_self (Movable.vol t h : Movable env D _)).holds bc cs e1 (.vol t cs hc.fills)
    rw [movePos_id, List.map_id] at this
    exact a3.trans this
  refine List.Perm.trans (contents_unblocked ⟨t.priority, bc, Inside env t⟩ _ _ rfl hsites (fun x hx => hx) ?_) ?_
  · intro c hc' a ha hpr
    obtain ⟨x, hx1, rfl⟩ := List.mem_map.mp hc'
    have hx2 : x.1 ∈ xs ++ ys := by
      rw [← hA', ← hB2', ← List.map_append]; exact List.mem_map.mpr ⟨x, hx1, rfl⟩
    refine hfree x.1 hx2 hpr x.2 (r2' x ?_) a ha
    simp only [List.mem_append, List.mem_cons] at hx1 ⊢
    tauto
  · obtain ⟨R, s1, s2, s3⟩ := zip_of_map (fun x : Item × List (V3 ℝ × ℤ) => x.1) (fun x : Item × List (V3 ℝ × ℤ) => x.1) (A' ++ B') (A ++ B) (by
      show List.map Prod.fst _ = List.map Prod.fst _
      rw [List.map_append, List.map_append, hA, hB2, hA', hB2'])
    rw [← s1, ← s2, List.map_map, List.map_map]
    have := contents_congr (none :: R.map some) (fun x : Option ((Item × List (V3 ℝ × ℤ)) × Item × List (V3 ℝ × ℤ)) => match x with
      | none => (⟨t.priority, bc, Inside env t⟩ : Body (V3 ℝ) ℤ) | some x => ⟨x.1.1.priority, x.1.2, Occupies env x.1.1⟩)
      (fun x => match x with | none => ⟨t.priority, bc, Inside env t⟩ | some x => ⟨x.2.1.priority, x.2.2, Occupies env x.2.1⟩) ?_ ?_ ?_
    · rw [List.map_cons, List.map_cons, List.map_map, List.map_map] at this
      exact this
    · rintro (_ | x) hx
      · rfl
      · simp only [List.mem_cons, reduceCtorEq, List.mem_map, Option.some.injEq, exists_eq_right, false_or] at hx
        simp only [s3 x hx]
    · rintro (_ | x) hx p
      · rfl
      · simp only [List.mem_cons, reduceCtorEq, List.mem_map, Option.some.injEq, exists_eq_right, false_or] at hx
        simp only [s3 x hx]
    · rintro (_ | x) hx
      · exact .refl _
      · simp only [List.mem_cons, reduceCtorEq, List.mem_map, Option.some.injEq, exists_eq_right, false_or] at hx
        simp only
        have m1 : x.1 ∈ A' ++ B' := by rw [← s1]; exact List.mem_map.mpr ⟨x, hx, rfl⟩
        have m2 : x.2 ∈ A ++ B := by rw [← s2]; exact List.mem_map.mpr ⟨x, hx, rfl⟩
        have e1 := r2' x.1 (by simp only [List.mem_append, List.mem_cons] at m1 ⊢; tauto)
        have e2 := r2 x.2 (by simp only [List.mem_append, List.mem_cons] at m2 ⊢; tauto)
        have hmv : Movable env D x.2.1 := hm _ (by rw [← hA, ← hB2, ← List.map_append]; exact List.mem_map.mpr ⟨x.2, m2, rfl⟩)
        rw [s3 x hx] at e1
        have := (seen_self hmv).holds _ _ e2 e1
        rwa [movePos_id, List.map_id] at this

/-- Concrete case: a ball of crystal about the origin and a molecule away from it, same priority. -/
example (env : Env) (b : V3 ℝ × V3 ℝ) (w' : World) : ∃ t1 k as ss m, VTree.populate env (.vol (unitBall 0)) 0 = (t1, k, .ok ()) ∧ t1.held = some (as, ss) ∧
      Mol.make ss (flat3 as) .none none = .ok m ∧
      (w'.objects = some ([] ++ .mol { m with priority := 0 } :: [.mol ⟨[⟨3, 0, 0⟩], [8], 0, 1, true, some 0, none, true⟩]) →
        ∃ v v' k1 k2 bs zs bs' zs',
          World.populate env ⟨some ([] ++ .vol (.vol (unitBall 0)) :: [.mol ⟨[⟨3, 0, 0⟩], [8], 0, 1, true, some 0, none, true⟩]), none, b⟩ 0 = (v, k1, .ok ()) ∧
          w'.populate env 0 = (v', k2, .ok ()) ∧
          v.allAtoms env = .ok bs ∧ v.allSpecies env = .ok zs ∧ v'.allAtoms env = .ok bs' ∧ v'.allSpecies env = .ok zs' ∧
          bs.length = zs.length ∧ bs'.length = zs'.length ∧ (bs'.zip zs').Perm (bs.zip zs)) := by
  refine C133_in_place_partial env Axes.none _ w' (.vol (unitBall 0)) (.vol _ _ _ _ (.ball (unitBall_crystal env))) [] _ rfl ?_ ?_ 0 0 0
  · intro x hx
    simp only [List.nil_append, List.mem_singleton] at hx
    subst hx
    exact .mol _ ⟨3, 0, 0⟩ rfl rfl
  · intro x hx _ cs hcs a ha
    simp only [List.nil_append, List.mem_singleton] at hx
    subst hx
    cases hcs
    simp only [List.zip_cons_cons, List.zip_nil_left, List.mem_singleton] at ha
    subst ha
    rw [← Vol.interior_iff]
    simp [Vol.interior, unitBall, Alg.interior, Sphere.interior, V3.normSq, V3.dot]
    norm_num

/-- **C133 (in place of a Volume, false in general).** A ball of crystal and a molecule with an oxygen atom in it: the oxygen atom is not shown.  With
the Molecule of the atoms of the ball in its place it is. -/
theorem C133_in_place_refuted (env : Env) (n n1 n2 : ℕ) (b : V3 ℝ × V3 ℝ) :
    ∃ (q m : Mol ℝ) (t1 : VTree) (k : ℕ) (as : List (V3 ℝ)) (ss : List ℤ) (v v' : World) (k1 k2 : ℕ) (bs bs' : List (V3 ℝ)) (zs zs' : List ℤ),
      VTree.populate env (.vol (unitBall 0)) n = (t1, k, .ok ()) ∧ t1.held = some (as, ss) ∧ Mol.make ss (flat3 as) .none none = .ok m ∧
      World.populate env ⟨some [.vol (.vol (unitBall 0)), .mol q], none, b⟩ n1 = (v, k1, .ok ()) ∧
      World.populate env ⟨some [.mol m, .mol q], none, b⟩ n2 = (v', k2, .ok ()) ∧
      v.allAtoms env = .ok bs ∧ v.allSpecies env = .ok zs ∧ v'.allAtoms env = .ok bs' ∧ v'.allSpecies env = .ok zs' ∧
      8 ∉ zs ∧ 8 ∈ zs' := by
  have hS : SolidTree env Axes.none (.vol (unitBall 0)) := .vol _ _ _ _ (.ball (unitBall_crystal env))
  obtain ⟨t1, k, h1⟩ := C12_populate_succeeds env _ hS.supplying n
  obtain ⟨cs, hc⟩ := VTree.populate_spec env _ n t1 k h1
  obtain ⟨as, ss, a1, a2, a3⟩ := hc.held
  obtain ⟨m, -, f1, f2, f3, -⟩ := frozen as ss a2 []
  have ho : ∃ o, m.origin = .ok o := by
    obtain ⟨m2, e1, e2, -⟩ := Mol.C85_construction ss as a2 .none
    rw [f1] at e1; injection e1 with e1; subst e1
    exact ⟨_, e2⟩
  obtain ⟨o, ho⟩ := ho
  have hq : Movable env Axes.none (.mol ⟨[0], [8], 0, 1, true, some 0, none, true⟩) := .mol _ 0 rfl rfl
  have hm1 : ∀ x ∈ [Item.vol (.vol (unitBall 0)), .mol ⟨[0], [8], 0, 1, true, some 0, none, true⟩], Movable env Axes.none x := by
    intro x hx
    simp only [List.mem_cons, List.not_mem_nil, or_false] at hx
    rcases hx with rfl | rfl
    · exact .vol _ hS
    · exact hq
  have hm2 : ∀ x ∈ [Item.mol m, .mol ⟨[0], [8], 0, 1, true, some 0, none, true⟩], Movable env Axes.none x := by
    intro x hx
    simp only [List.mem_cons, List.not_mem_nil, or_false] at hx
    rcases hx with rfl | rfl
    · exact .mol _ o (by rw [f2, f3, a2]) ho
    · exact hq
  obtain ⟨v, k1, p1⟩ := C95_populate_succeeds env ⟨some [.vol (.vol (unitBall 0)), .mol ⟨[0], [8], 0, 1, true, some 0, none, true⟩], none, b⟩ n1 _ rfl
    (Movable.balanced hm1) (Movable.supplying hm1)
  obtain ⟨v', k2, p2⟩ := C95_populate_succeeds env ⟨some [.mol m, .mol ⟨[0], [8], 0, 1, true, some 0, none, true⟩], none, b⟩ n2 _ rfl
    (Movable.balanced hm2) (Movable.supplying hm2)
  obtain ⟨bs, zs, q1, q2, q3, P, r1, r2, r3⟩ := C95_scene_contents env _ v n1 k1 _ rfl (Movable.balanced hm1) p1
  obtain ⟨bs', zs', q1', q2', q3', P', r1', r2', r3'⟩ := C95_scene_contents env _ v' n2 k2 _ rfl (Movable.balanced hm2) p2
  refine ⟨_, m, t1, k, as, ss, v, v', k1, k2, bs, bs', zs, zs', h1, a1, f1, p1, p2, q1, q2, q1', q2', ?_, ?_⟩
  · obtain ⟨⟨x, c1⟩, B, rfl, rfl, hB⟩ := List.map_eq_cons_iff.mp r1
    obtain ⟨⟨y, c2⟩, C, rfl, rfl, hC⟩ := List.map_eq_cons_iff.mp hB
    obtain rfl := List.map_eq_nil_iff.mp hC
    have e1 := r2 (.vol (.vol (unitBall 0)), c1) (by simp)
    have e2 := r2 (.mol ⟨[0], [8], 0, 1, true, some 0, none, true⟩, c2) (by simp)
    cases e2
    have hball : ∀ a ∈ c1, a.2 = 6 := by
      cases e1 with
      | vol _ _ e1 =>
        have hbc := (unitBall_crystal env)
        obtain ⟨box, hbox⟩ := hbc.boxed
        obtain ⟨⟨lo, hi⟩, he⟩ := Voxel.getExtents_ok (box := box) hbc.body.det hbox.ne
        have e3 : c1 = _ := hbc.body.fills e1 hbox.bbox he
        intro a ha
        rw [e3] at ha
        obtain ⟨c, hc', rfl⟩ := List.mem_map.mp ha
        obtain ⟨l, -, hl⟩ := List.mem_flatMap.mp hc'
        obtain ⟨⟨f, hf, rfl⟩, -⟩ := mem_inCell.mp hl
        rw [List.mem_singleton] at hf
        rw [hf]
    intro hz
    obtain ⟨i, hi, hz⟩ := List.mem_iff_getElem.mp hz
    have hmem : ((bs[i]'(by omega), 8) : V3 ℝ × ℤ) ∈ bs.zip zs := by
      rw [List.mem_iff_getElem]
      exact ⟨i, by simp; omega, by simp [hz]⟩
    rw [r3.mem_iff, contents_eq] at hmem
    simp only [List.map_cons, List.map_nil, List.flatMap_cons, List.flatMap_nil, List.append_nil, List.mem_append, List.mem_filter] at hmem
    rcases hmem with ⟨h5, -⟩ | ⟨h5, h6⟩
    · exact absurd (hball _ h5) (by norm_num)
    · have h0 : Inside env (.vol (unitBall 0)) 0 := by
        rw [← Vol.interior_iff]
        simp [Vol.interior, unitBall, Alg.interior, Sphere.interior, V3.normSq, V3.dot]
        try norm_num
      have h7 : bs[i]'(by omega) = 0 := by simpa using h5
      rw [h7] at h6
      have hp : (Item.vol (.vol (unitBall 0))).priority = 0 := rfl
      simp [keepCount, Occupies, h0, hp, show ∀ q : Mol ℝ, (Item.mol q).priority = q.priority from fun _ => rfl] at h6
  · obtain ⟨⟨x, c1⟩, B, rfl, rfl, hB⟩ := List.map_eq_cons_iff.mp r1'
    obtain ⟨⟨y, c2⟩, C, rfl, rfl, hC⟩ := List.map_eq_cons_iff.mp hB
    obtain rfl := List.map_eq_nil_iff.mp hC
    have e2 := r2' (.mol ⟨[0], [8], 0, 1, true, some 0, none, true⟩, c2) (by simp)
    cases e2
    have hmem : ((0, 8) : V3 ℝ × ℤ) ∈ bs'.zip zs' := by
      rw [r3'.mem_iff, contents_eq]
      simp [keepCount, Occupies]
    exact (List.of_mem_zip hmem).2

end CZ
