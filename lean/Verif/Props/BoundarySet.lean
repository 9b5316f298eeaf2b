import Verif.BoundarySet
import Verif.Props.Boundary

/-!
# Property C127: zone axes assigned to a grain boundary builder
-/

namespace CZ
open Spec

noncomputable section
open Classical

namespace Prefab

/-- Operations that may change the first zone axis: an accepted assignment, or a change of an entry of an array. -/
def Touches1 (o : BOp) : Prop :=
  (∃ z, o = .setZ1 (.vec z) ∨ o = .setZ1 (.row z)) ∨ ∃ k x, o = .poke1 k x ∨ o = .poke2 k x

/-- The same for the second zone axis, where None is accepted. -/
def Touches2 (o : BOp) : Prop :=
  (∃ z, o = .setZ2 (.vec z) ∨ o = .setZ2 (.row z)) ∨ o = .setZ2 .none ∨ ∃ k x, o = .poke1 k x ∨ o = .poke2 k x

/-- The last zone axis assigned to the first grain in a history is `z`. -/
def LastZ1 (os : List BOp) (z : V3 ℝ) : Prop :=
  ∃ pre post, os = pre ++ .setZ1 (.vec z) :: post ∧ ∀ o ∈ post, ¬ Touches1 o

/-- The last zone axis assigned to the second grain is `z`, either as such or as None while `z` was the one of the first grain. -/
def LastZ2 (os : List BOp) (z : V3 ℝ) : Prop :=
  ∃ pre post, (os = pre ++ .setZ2 (.vec z) :: post ∨ os = pre ++ .setZ2 .none :: post ∧ LastZ1 pre z) ∧ ∀ o ∈ post, ¬ Touches2 o

theorem run_append (b : BState) (os ps : List BOp) : b.run (os ++ ps) = (b.run os).run ps := by
  induction os generalizing b with
  | nil => rfl
  | cons o os ih => exact ih _

theorem step_axis1 (b : BState) (o : BOp) (h : ¬ Touches1 o) : (b.step o).1.axis1 = b.axis1 := by
  cases o with
  | setZ1 a =>
    cases a with
    | vec z => exact absurd (.inl ⟨z, .inl rfl⟩) h
    | row z => exact absurd (.inl ⟨z, .inr rfl⟩) h
    | none => rfl
    | other => rfl
  | setZ2 a => cases a <;> rfl
  | poke1 k x => exact absurd (.inr ⟨k, x, .inl rfl⟩) h
  | poke2 k x => exact absurd (.inr ⟨k, x, .inr rfl⟩) h
  | _ => rfl

theorem step_axis2 (b : BState) (o : BOp) (h : ¬ Touches2 o) : (b.step o).1.axis2 = b.axis2 := by
  cases o with
  | setZ2 a =>
    cases a with
    | vec z => exact absurd (.inl ⟨z, .inl rfl⟩) h
    | row z => exact absurd (.inl ⟨z, .inr rfl⟩) h
    | none => exact absurd (.inr (.inl rfl)) h
    | other => rfl
  | setZ1 a => cases a <;> rfl
  | poke1 k x => exact absurd (.inr (.inr ⟨k, x, .inl rfl⟩)) h
  | poke2 k x => exact absurd (.inr (.inr ⟨k, x, .inr rfl⟩)) h
  | _ => rfl

theorem run_axis1 (b : BState) (os : List BOp) (h : ∀ o ∈ os, ¬ Touches1 o) : (b.run os).axis1 = b.axis1 := by
  induction os generalizing b with
  | nil => rfl
  | cons o os ih =>
    show (BState.run (b.step o).1 os).axis1 = _
    rw [ih _ fun o' ho' => h o' (List.mem_cons_of_mem _ ho'), step_axis1 b o (h o List.mem_cons_self)]

theorem run_axis2 (b : BState) (os : List BOp) (h : ∀ o ∈ os, ¬ Touches2 o) : (b.run os).axis2 = b.axis2 := by
  induction os generalizing b with
  | nil => rfl
  | cons o os ih =>
    show (BState.run (b.step o).1 os).axis2 = _
    rw [ih _ fun o' ho' => h o' (List.mem_cons_of_mem _ ho'), step_axis2 b o (h o List.mem_cons_self)]

/-- **C127 (attributes).** After any history of assignments, changes in place and calls, `z1` is the last zone axis assigned to it, and
`z2` the last one assigned to it, where None stands for the `z1` of that moment. -/
theorem C127_last (b : BState) (os : List BOp) (z : V3 ℝ) :
    (LastZ1 os z → (b.run os).axis1 = ⟨z, true⟩) ∧ (LastZ2 os z → (b.run os).axis2 = ⟨z, true⟩) := by
  have h1 : ∀ os, LastZ1 os z → (b.run os).axis1 = ⟨z, true⟩ := by
    rintro os ⟨pre, post, rfl, hp⟩
    rw [run_append]
    exact run_axis1 _ post hp
  refine ⟨h1 os, ?_⟩
  rintro ⟨pre, post, rfl | ⟨rfl, hl⟩, hp⟩
  · rw [run_append]
    exact run_axis2 _ post hp
  · rw [run_append]
    refine (run_axis2 _ post hp).trans ?_
    exact h1 pre hl

theorem step_others (b : BState) (o : BOp) : ((∀ p, o ≠ .setPlane p) → (b.step o).1.plane = b.plane) ∧
    ((∀ v, o ≠ .setVolume v) → (b.step o).1.vol = b.vol) ∧ ((∀ g, o ≠ .setGenerator g) → (b.step o).1.gen = b.gen) := by
  have hz (a : ZArg) : (b.step (.setZ1 a)).1.plane = b.plane ∧ (b.step (.setZ1 a)).1.vol = b.vol ∧ (b.step (.setZ1 a)).1.gen = b.gen := by
    cases a <;> exact ⟨rfl, rfl, rfl⟩
  have hz2 (a : ZArg) : (b.step (.setZ2 a)).1.plane = b.plane ∧ (b.step (.setZ2 a)).1.vol = b.vol ∧ (b.step (.setZ2 a)).1.gen = b.gen := by
    cases a <;> exact ⟨rfl, rfl, rfl⟩
  cases o with
  | setZ1 a => exact ⟨fun _ => (hz a).1, fun _ => (hz a).2.1, fun _ => (hz a).2.2⟩
  | setZ2 a => exact ⟨fun _ => (hz2 a).1, fun _ => (hz2 a).2.1, fun _ => (hz2 a).2.2⟩
  | poke1 k x => exact ⟨fun _ => rfl, fun _ => rfl, fun _ => rfl⟩
  | poke2 k x => exact ⟨fun _ => rfl, fun _ => rfl, fun _ => rfl⟩
  | setPlane p => exact ⟨fun h => absurd rfl (h p), fun _ => rfl, fun _ => rfl⟩
  | setVolume v => exact ⟨fun _ => rfl, fun h => absurd rfl (h v), fun _ => rfl⟩
  | setGenerator g => exact ⟨fun _ => rfl, fun _ => rfl, fun h => absurd rfl (h g)⟩
  | phase => exact ⟨fun _ => rfl, fun _ => rfl, fun _ => rfl⟩
  | build => exact ⟨fun _ => rfl, fun _ => rfl, fun _ => rfl⟩

theorem run_others (os : List BOp) : ∀ b : BState, ((∀ p, .setPlane p ∉ os) → (b.run os).plane = b.plane) ∧
    ((∀ v, .setVolume v ∉ os) → (b.run os).vol = b.vol) ∧ ((∀ g, .setGenerator g ∉ os) → (b.run os).gen = b.gen) := by
  induction os with
  | nil => exact fun b => ⟨fun _ => rfl, fun _ => rfl, fun _ => rfl⟩
  | cons o os ih =>
    intro b
    obtain ⟨h1, h2, h3⟩ := step_others b o
    obtain ⟨k1, k2, k3⟩ := ih (b.step o).1
    refine ⟨fun h => ?_, fun h => ?_, fun h => ?_⟩
    · exact (k1 fun p hp => h p (List.mem_cons_of_mem _ hp)).trans (h1 fun p hp => h p (hp ▸ List.mem_cons_self))
    · exact (k2 fun p hp => h p (List.mem_cons_of_mem _ hp)).trans (h2 fun p hp => h p (hp ▸ List.mem_cons_self))
    · exact (k3 fun p hp => h p (List.mem_cons_of_mem _ hp)).trans (h3 fun p hp => h p (hp ▸ List.mem_cons_self))

/-- **C127 (other attributes).** Plane, volume and generator are the ones assigned last, those from the beginning if none was; no other
assignment changes them. -/
theorem C127_others (b : BState) (pre post : List BOp) :
    (∀ p, (∀ p', .setPlane p' ∉ post) → (b.run (pre ++ .setPlane p :: post)).plane = p) ∧
    (∀ v, (∀ v', .setVolume v' ∉ post) → (b.run (pre ++ .setVolume v :: post)).vol = v) ∧
    (∀ g, (∀ g', .setGenerator g' ∉ post) → (b.run (pre ++ .setGenerator g :: post)).gen = g) ∧
    ((∀ p', .setPlane p' ∉ post) → (b.run post).plane = b.plane) ∧ ((∀ v', .setVolume v' ∉ post) → (b.run post).vol = b.vol) ∧
    ((∀ g', .setGenerator g' ∉ post) → (b.run post).gen = b.gen) := by
  refine ⟨fun p h => ?_, fun v h => ?_, fun g h => ?_, (run_others post b).1, (run_others post b).2.1, (run_others post b).2.2⟩
  · rw [run_append]; exact (run_others post _).1 h
  · rw [run_append]; exact (run_others post _).2.1 h
  · rw [run_append]; exact (run_others post _).2.2 h

/-- A volume assigned, then a zone axis that is refused. -/
example (b : BState) (v : VTree) : (b.run [.setVolume (some v), .setZ1 .other]).vol = some v :=
  (C127_others b [] [.setZ1 .other]).2.1 _ (by simp)

/-- **C127.** Whatever was assigned to a SimpleGrainBoundary before: `build_object` turns the first grain so that the zone axis last
assigned to `z1` points along z, and the second one so that the zone axis last assigned to `z2` does (up to twice the machine
precision). -/
theorem C127_grains (env : Env) (b : BState) (os : List BOp) (z1 z2 : V3 ℝ) (h1 : LastZ1 os z1) (h2 : LastZ2 os z2) (pl : Plane) (v : Vol)
    (g : Gen ℝ) (x : Voxel ℝ) (hpl : (b.run os).plane = .plane pl) (hv : (b.run os).vol = some (.vol v))
    (hg : (b.run os).gen = some (.crystal g)) (hx : g.voxel = some x) (hs : ColumnScale x.scale) (hd : x.sbases.det ≠ 0)
    (hi : Intact env v) (g1 : GoodAxis x.sbases z1) (g2 : GoodAxis x.sbases z2) :
    ∃ (w1 w2 : Vol) (c1 c2 : Gen ℝ) (R1 R2 : M3 ℝ), (b.run os).build env = .ok (.multi [.vol w1, .vol w2] 0 none) ∧
      w1.gen = some (.crystal c1) ∧ w2.gen = some (.crystal c2) ∧ ProperRotation R1 ∧ ProperRotation R2 ∧ Turned R1 g c1 ∧ Turned R2 g c2 ∧
      Spec.dist ((len (cart x.sbases 0 z1))⁻¹ • cart R1 0 (cart x.sbases 0 z1)) ⟨0, 0, 1⟩ < 2 * machEps ∧
      Spec.dist ((len (cart x.sbases 0 z2))⁻¹ • cart R2 0 (cart x.sbases 0 z2)) ⟨0, 0, 1⟩ < 2 * machEps := by
  have a1 := (C127_last b os z1).1 h1
  have a2 := (C127_last b os z2).2 h2
  obtain ⟨ws, c1, c2, R1, R2, k1, k2, k3, k4, k5, k6, k7, k8, k9, -⟩ :=
    C71_split env ⟨z1, z2, (b.run os).plane, (b.run os).vol, (b.run os).gen⟩ g v x pl hg hv hpl hx hs hd hi g1 g2
  refine ⟨ws 0, ws 1, c1, c2, R1, R2, ?_, k2, k3, k4, k5, k6, k7, k8, k9⟩
  unfold BState.build
  simp only [hg, hx, a1, a2, and_self, if_true]
  rw [← hg]
  exact k1

/-- **C127 (constructor).** A builder that was made behaves like any other whose `z1` and `z2` are assigned in this order. -/
theorem C127_constructor (z1 z2 : ZArg) (plane : BoundaryPlane) (vol : Option VTree) (gen : Option GenObj) (b b0 : BState)
    (h : BState.make z1 z2 plane vol gen = .ok b) (hp : b0.plane = plane) (hv : b0.vol = vol) (hg : b0.gen = gen) (os : List BOp) :
    b.run os = b0.run (.setZ1 z1 :: .setZ2 z2 :: os) := by
  subst hp hv hg
  have : b = b0.run [.setZ1 z1, .setZ2 z2] := by
    cases z1 <;> cases z2 <;> cases h <;> rfl
  rw [this]
  rfl

/-- **C127 (refusals).** What raises changes nothing, only assignments of zone axes raise, and they raise AssertionError. -/
theorem C127_refused (b : BState) (o : BOp) (e : PyErr) (h : (b.step o).2 = .error e) :
    (b.step o).1 = b ∧ e = .assertion ∧ (o = .setZ1 .none ∨ o = .setZ1 .other ∨ o = .setZ2 .other) := by
  cases o with
  | setZ1 a => cases a <;> cases h <;> simp [BState.step, axisSet]
  | setZ2 a => cases a <;> cases h <;> simp [BState.step, axisSet]
  | _ => cases h

/-- **C127 (None is not a link).** Refuted: a builder made without `z2` does not keep turning both grains the same way: after `z1` is
assigned anew the second grain still has the old zone axis. -/
theorem C127_none_follows_refuted : ¬ ∀ (z1 z : V3 ℝ) (b : BState), BState.make (.vec z1) .none .other none none = .ok b →
    (b.run [.setZ1 (.vec z)]).axis2 = (b.run [.setZ1 (.vec z)]).axis1 := by
  intro h
  have := h ⟨0, 0, 1⟩ ⟨1, 1, 1⟩ _ rfl
  have := congrArg (fun a : Axis => a.z.x) this
  simp [BState.run, BState.step, axisSet] at this

/-- **C127 (one array).** In a builder made without `z2` the two axes are one array: changing an entry of `z1` in place changes `z2` as
well, until either is assigned again.  With a `z2` of its own, even an equal one, the second grain keeps its axis. -/
theorem C127_one_array (z1 z2 : V3 ℝ) (plane : BoundaryPlane) (vol : Option VTree) (gen : Option GenObj) (b : BState) (k : Fin 3) (x : ℤ) :
    (BState.make (.vec z1) .none plane vol gen = .ok b →
      (b.run [.poke1 k x]).axis2 = (b.run [.poke1 k x]).axis1 ∧ (b.run [.poke2 k x]).axis1 = (b.run [.poke2 k x]).axis2) ∧
    (BState.make (.vec z1) (.vec z2) plane vol gen = .ok b →
      (b.run [.poke1 k x]).axis2 = ⟨z2, true⟩ ∧ (b.run [.poke2 k x]).axis1 = ⟨z1, true⟩) := by
  constructor <;> intro h <;> cases h <;> exact ⟨rfl, rfl⟩

/-- The k-th entry of a vector. -/
def entry (v : V3 ℝ) : Fin 3 → ℝ := ![v.x, v.y, v.z]

/-- **C127 (changes in place).** A change of one entry of `z1` or of `z2` changes that entry and no other. -/
theorem C127_in_place (b : BState) (k : Fin 3) (x : ℤ) :
    (entry (b.run [.poke1 k x]).axis1.z k = x ∧ ∀ j, j ≠ k → entry (b.run [.poke1 k x]).axis1.z j = entry b.axis1.z j) ∧
    (entry (b.run [.poke2 k x]).axis2.z k = x ∧ ∀ j, j ≠ k → entry (b.run [.poke2 k x]).axis2.z j = entry b.axis2.z j) := by
  fin_cases k <;> refine ⟨⟨rfl, fun j hj => ?_⟩, rfl, fun j hj => ?_⟩ <;> fin_cases j <;> first | rfl | exact absurd rfl hj

/-- **C127 (shape).** Refuted: an accepted zone axis need not be usable.  Three numbers of shape (1,3) are stored, as first or as second
axis, and `build_object` then raises ValueError for every crystal. -/
theorem C127_accepted_usable_refuted (env : Env) (z z2 : V3 ℝ) (plane : BoundaryPlane) (vol : Option VTree) (g : Gen ℝ) (x : Voxel ℝ)
    (hx : g.voxel = some x) :
    (∃ b, BState.make (.row z) (.vec z2) plane vol (some (.crystal g)) = .ok b ∧ b.build env = .error .value) ∧
    (∃ b, BState.make (.vec z2) (.row z) plane vol (some (.crystal g)) = .ok b ∧ b.build env = .error .value) := by
  refine ⟨⟨_, rfl, ?_⟩, ⟨_, rfl, ?_⟩⟩ <;>
  · unfold BState.build
    simp [hx]

/-- Concrete case of C127: made with [0,0,1] and no second axis, then `z1` is set to [1,1,1], refused values in between.  The grains are
turned with [1,1,1] and [0,0,1]. -/
example (env : Env) : ∃ (b : BState) (w1 w2 : Vol) (c1 c2 : Gen ℝ) (R1 R2 : M3 ℝ),
    BState.make (.vec ⟨0, 0, 1⟩) .none (.plane ⟨⟨1, 0, 0⟩, 0, 1 / 10 ^ 5⟩)
      (some (.vol ⟨none, none, none, [.sphere ⟨5, 0, 1 / 10 ^ 5⟩], none, 0, 1 / 10 ^ 10, none, none⟩)) (some (.crystal (cellGen 1 0 none))) = .ok b ∧
    (b.run [.setZ1 .none, .setZ1 (.vec ⟨1, 1, 1⟩), .setZ2 .other, .build]).build env = .ok (.multi [.vol w1, .vol w2] 0 none) ∧
    w1.gen = some (.crystal c1) ∧ w2.gen = some (.crystal c2) ∧ Turned R1 (cellGen 1 0 none) c1 ∧ Turned R2 (cellGen 1 0 none) c2 ∧
    Spec.dist ((len ⟨1, 1, 1⟩)⁻¹ • cart R1 0 ⟨1, 1, 1⟩) ⟨0, 0, 1⟩ < 2 * machEps ∧
    Spec.dist ((len ⟨0, 0, 1⟩)⁻¹ • cart R2 0 ⟨0, 0, 1⟩) ⟨0, 0, 1⟩ < 2 * machEps := by
  have hsb := cellGen_sbases 1 0
  have gd : ∀ z : V3 ℝ, 0 < z.z → GoodAxis (1 : M3 ℝ) z := by
    intro z hz
    unfold GoodAxis
    rw [cart_eq, add_zero, M3.mulVec_one]
    refine ⟨fun h => by rw [h] at hz; simp at hz, ?_⟩
    rintro ⟨c, hc, rfl⟩
    simp only at hz; linarith
  obtain ⟨w1, w2, c1, c2, R1, R2, k1, k2, k3, -, -, k6, k7, k8, k9⟩ :=
    C127_grains env ⟨⟨⟨0, 0, 1⟩, true⟩, ⟨⟨0, 0, 1⟩, true⟩, true, .plane ⟨⟨1, 0, 0⟩, 0, 1 / 10 ^ 5⟩,
      some (.vol ⟨none, none, none, [.sphere ⟨5, 0, 1 / 10 ^ 5⟩], none, 0, 1 / 10 ^ 10, none, none⟩), some (.crystal (cellGen 1 0 none))⟩
      [.setZ1 (.vec ⟨0, 0, 1⟩), .setZ2 .none, .setZ1 .none, .setZ1 (.vec ⟨1, 1, 1⟩), .setZ2 .other, .build] ⟨1, 1, 1⟩ ⟨0, 0, 1⟩
      ⟨[.setZ1 (.vec ⟨0, 0, 1⟩), .setZ2 .none, .setZ1 .none], [.setZ2 .other, .build], rfl, by simp [Touches1]⟩
      ⟨[.setZ1 (.vec ⟨0, 0, 1⟩)], [.setZ1 .none, .setZ1 (.vec ⟨1, 1, 1⟩), .setZ2 .other, .build],
        .inr ⟨rfl, ⟨[], [], rfl, by simp⟩⟩, by simp [Touches2]⟩
      _ _ _ _ rfl rfl rfl rfl (by trivial) (by rw [hsb, M3.det_one]; norm_num) ⟨rfl, .inl ⟨rfl, rfl⟩⟩
      (by rw [hsb]; exact gd _ (by norm_num)) (by rw [hsb]; exact gd _ (by norm_num))
  refine ⟨_, w1, w2, c1, c2, R1, R2, rfl, k1, k2, k3, k6, k7, ?_, ?_⟩
  · simpa only [hsb, cart_eq, M3.mulVec_one, add_zero] using k8
  · simpa only [hsb, cart_eq, M3.mulVec_one, add_zero] using k9

end Prefab
end
end CZ
