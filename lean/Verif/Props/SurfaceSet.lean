import Verif.SurfaceSet
import Verif.Props.Algebraic

/-!
# Property C124: the parameters of a surface can be assigned at any time
-/

namespace CZ
open Spec
namespace SurfSet
noncomputable section
open Classical

/-! ## Specification -/

/-- The value of the last step that gives one, or the initial one. -/
def latest {α β : Type} (f : α → Option β) (l : List α) (init : β) : β := ((l.filterMap f).getLast?).getD init

/-- A positive number, possibly infinite. -/
def Pos? : Num → Option Num
  | .fin x => if 0 < x then some (.fin x) else none
  | .inf => some .inf
  | _ => none

/-- A number of at least the machine precision, possibly infinite. -/
def Size? : Num → Option Num
  | .fin x => if machEps ≤ x then some (.fin x) else none
  | .inf => some .inf
  | _ => none

/-- The number a value is or spells. -/
def number? : Val → Option Num
  | .num x => some x
  | .str o => o
  | .other => none

/-- Distance `d` is below the sum of two positive numbers. -/
def Reach (d : ℝ) : Num → Num → Prop
  | .fin r, .fin t => d < r + t
  | _, _ => True

/-- The three components, whatever the shape. -/
def three? : Arr → Option (V3 ℝ)
  | .vec v | .col v | .row v => some v
  | _ => none

namespace SphereObj
/-- Radius, centre and tolerance that an assignment gives to a Sphere. -/
def radius? : Op → Option Num
  | .radius (.num x) => Pos? x
  | _ => none
/-- See `radius?`. -/
def center? : Op → Option (V3 ℝ)
  | .center (.vec v) => some v
  | _ => none
/-- See `radius?`. -/
def tol? : Op → Option Num
  | .tol x => (number? x).bind Pos?
  | _ => none
end SphereObj

namespace PlaneObj
/-- Normal of a Plane after an assignment. -/
def normalAfter (n : V3 ℝ) : Op → V3 ℝ
  | .flip => -n
  | .normal x => match three? x with
    | some v => if machEps < len v then (len v)⁻¹ • v else n
    | none => n
  | _ => n
/-- The point an assignment gives to a Plane. -/
def point? : Op → Option (V3 ℝ)
  | .point x => three? x
  | _ => none
/-- The tolerance. -/
def tol? : Op → Option Num
  | .tol x => (number? x).bind Pos?
  | _ => none
end PlaneObj

namespace CylObj
/-- Axis, point, radius, length and tolerance that an assignment gives to a Cylinder. -/
def axis? : Op → Option (V3 ℝ)
  | .axis x => (three? x).bind fun v => if machEps < len v then some ((len v)⁻¹ • v) else none
  | _ => none
/-- See `axis?`. -/
def point? : Op → Option (V3 ℝ)
  | .point x => three? x
  | _ => none
/-- See `axis?`. -/
def radius? : Op → Option Num
  | .radius x => (number? x).bind Size?
  | _ => none
/-- See `axis?`. -/
def length? : Op → Option Num
  | .length x => (number? x).bind Size?
  | _ => none
/-- See `axis?`. -/
def tol? : Op → Option Num
  | .tol x => (number? x).bind Pos?
  | _ => none
end CylObj

/-! ## Lemmas -/

theorem latest_nil {α β : Type} (f : α → Option β) (init : β) : latest f [] init = init := rfl

theorem latest_cons {α β : Type} (f : α → Option β) (a : α) (l : List α) (init : β) :
    latest f (a :: l) init = latest f l ((f a).getD init) := by
  unfold latest
  cases h : f a with
  | none => rw [List.filterMap_cons_none h]; rfl
  | some b =>
    rw [List.filterMap_cons_some h]
    cases h' : l.filterMap f with
    | nil => simp
    | cons c cs => simp [List.getLast?_cons_cons, List.getLast?_eq_some_getLast (List.cons_ne_nil c cs)]

theorem tolStore_eq (v : Val) : (∃ e, tolStore v = .error e ∧ (number? v).bind Pos? = none) ∨ ∃ x, tolStore v = .ok x ∧ (number? v).bind Pos? = some x := by
  rcases v with x | (_ | x) | _
  · cases x <;> simp [tolStore, Val.toFloat, Num.positive, number?, Pos?, bind, Except.bind]
    split_ifs with h
    · simpa using h
    · simp [not_lt.mp h]
  · simp [tolStore, Val.toFloat, number?, bind, Except.bind]
  · cases x <;> simp [tolStore, Val.toFloat, Num.positive, number?, Pos?, bind, Except.bind]
    split_ifs with h
    · simpa using h
    · simp [not_lt.mp h]
  · simp [tolStore, Val.toFloat, number?, bind, Except.bind]

theorem sizeStore_eq (v : Val) (h : number? v ≠ some .nan) :
    (∃ e, sizeStore v = .error e ∧ (number? v).bind Size? = none) ∨ ∃ x, sizeStore v = .ok x ∧ (number? v).bind Size? = some x := by
  rcases v with x | (_ | x) | _
  · cases x <;> simp [sizeStore, Val.toFloat, Num.tiny, number?, Size?, bind, Except.bind] at h ⊢
    split_ifs <;> simp_all
  · simp [sizeStore, Val.toFloat, number?, bind, Except.bind]
  · cases x <;> simp [sizeStore, Val.toFloat, Num.tiny, number?, Size?, bind, Except.bind] at h ⊢
    split_ifs <;> simp_all
  · simp [sizeStore, Val.toFloat, number?, bind, Except.bind]

/-- The number is positive. -/
def IsPos : Num → Prop
  | .fin x => 0 < x
  | .inf => True
  | _ => False

theorem isPos_of {x y : Num} (h : Pos? x = some y) : IsPos y := by
  cases x <;> simp [Pos?] at h
  · obtain ⟨h1, rfl⟩ := h; exact h1
  · subst h; trivial

theorem machEps_pos : 0 < machEps := by unfold machEps; positivity

theorem isPos_of_size {x y : Num} (h : Size? x = some y) : IsPos y := by
  cases x <;> simp [Size?] at h
  · obtain ⟨h1, rfl⟩ := h; exact machEps_pos.trans_le h1
  · subst h; trivial

theorem isPos_bind {f : Num → Option Num} (hf : ∀ {x y}, f x = some y → IsPos y) {o : Option Num} {y : Num} (h : o.bind f = some y) : IsPos y := by
  obtain ⟨x, -, hx⟩ := Option.bind_eq_some_iff.mp h
  exact hf hx

theorem above_add {r t : Num} (hr : IsPos r) (ht : IsPos t) (d : ℝ) : Num.above d (r.add t) = true ↔ Reach d r t := by
  cases r <;> cases t <;> simp_all [IsPos, Num.add, Num.above, Reach]

theorem above_half {r t : Num} (hr : IsPos r) (ht : IsPos t) (d : ℝ) : Num.above d (r.half.add t) = true ↔ Reach d r.half t := by
  cases r <;> cases t <;> simp_all [IsPos, Num.add, Num.above, Reach, Num.half]

theorem above_sq {r t : Num} (hr : IsPos r) (ht : IsPos t) (p c : V3 ℝ) : Num.above ((p - c).normSq) (r.add t).sq = true ↔ Reach (dist p c) r t := by
  cases r <;> cases t <;> simp_all [IsPos, Num.add, Num.above, Reach, Num.sq]
  rename_i x y
  have h : Ball c (x + y) p ↔ _ := Iff.rfl
  unfold Spec.dist
  rw [Real.sqrt_lt' (by linarith)]
  simp only [V3.normSq, V3.dot, V3.sub_x, V3.sub_y, V3.sub_z, sq]

/-! ## Spheres -/

namespace SphereObj

theorem step_cases (o : SphereObj) (op : Op) (h : ∀ x, op = .center x → x ≠ .nan ∧ ∀ v, x ≠ .col v) (c : V3 ℝ) (hc : o.center = .vec c) :
    (o.step op).1 = ⟨(radius? op).getD o.radius, .vec ((center? op).getD c), (tol? op).getD o.tol⟩ := by
  obtain ⟨r, c', t⟩ := o
  simp only at hc
  subst hc
  cases op with
  | radius x =>
    rcases x with x | _ | _
    · cases x <;> simp [step, store, radiusStore, Num.positive, radius?, center?, tol?, Pos?]
      split_ifs <;> simp
    all_goals simp [step, store, radiusStore, radius?, center?, tol?]
  | center x =>
    cases x <;> simp [step, store, centerStore, radius?, center?, tol?]
    · exact absurd rfl (h _ rfl).1
    · rename_i v; exact absurd rfl ((h _ rfl).2 v)
  | tol x =>
    rcases tolStore_eq x with ⟨e, h1, h2⟩ | ⟨y, h1, h2⟩ <;> simp [step, store, h1, radius?, center?, tol?, h2]

theorem run_cases (ops : List Op) : ∀ (o : SphereObj) (c : V3 ℝ), o.center = .vec c →
    (∀ x, .center x ∈ ops → x ≠ .nan ∧ ∀ v, x ≠ .col v) →
    o.run ops = ⟨latest radius? ops o.radius, .vec (latest center? ops c), latest tol? ops o.tol⟩ := by
  induction ops with
  | nil => intro o c hc _; obtain ⟨r, c', t⟩ := o; simp only at hc; subst hc; rfl
  | cons op ops ih =>
    intro o c hc h
    have hs := step_cases o op (fun x hx => h x (hx ▸ List.mem_cons_self)) c hc
    show (o.step op).1.run ops = _
    rw [ih _ ((center? op).getD c) (by rw [hs]) fun x hx => h x (List.mem_cons_of_mem _ hx), latest_cons, latest_cons, latest_cons, hs]

theorem make_pos {a : Val} {b : Arr} {d : Val} {o : SphereObj} (h : make a b d = .ok o) :
    IsPos o.radius ∧ IsPos o.tol ∧ radius? (.radius a) = some o.radius ∧ tol? (.tol d) = some o.tol := by
  unfold make at h
  cases hr : radiusStore a with
  | error e => rw [hr] at h; cases h
  | ok r =>
    cases hc : centerStore b with
    | error e => rw [hr, hc] at h; cases h
    | ok c =>
      rcases tolStore_eq d with ⟨e, h1, -⟩ | ⟨t, h1, h2⟩
      · rw [hr, hc, h1] at h; cases h
      · rw [hr, hc, h1] at h
        obtain rfl : (⟨r, c, t⟩ : SphereObj) = o := Except.ok.inj h
        suffices hs : radius? (.radius a) = some r by
          refine ⟨?_, isPos_bind isPos_of h2, hs, h2⟩
          rcases a with x | _ | _
          · exact isPos_of hs
          · cases hs
          · cases hs
        rcases a with x | _ | _
        · cases x <;> simp [radiusStore, Num.positive] at hr
          · split_ifs at hr with h1
            cases hr
            simp [radius?, Pos?, h1]
          · subst hr; rfl
        · cases hr
        · cases hr

theorem pos_latest {α : Type} {f : α → Option Num} (hf : ∀ a y, f a = some y → IsPos y) (l : List α) : ∀ x, IsPos x → IsPos (latest f l x) := by
  induction l with
  | nil => exact fun x hx => hx
  | cons a l ih =>
    intro x hx
    rw [latest_cons]
    refine ih _ ?_
    cases h : f a with
    | none => exact hx
    | some y => exact hf a y h

end SphereObj
open SphereObj (pos_latest)

/-- **C124 (spheres, partial).** After any history of assignments to a Sphere, radius, centre and tolerance are the last ones that were
accepted - positive numbers, infinity included - and `checkIfInterior` reports the points nearer to the centre than radius plus tolerance.
Missing: centres given as arrays of shape (3,1), for which it is false (`C124_sphere_column_refuted`), or with nan entries. -/
theorem C124_sphere_partial (a : Val) (c : V3 ℝ) (d : Val) (o : SphereObj) (h : SphereObj.make a (.vec c) d = .ok o) (ops : List SphereObj.Op)
    (hops : ∀ x, .center x ∈ ops → x ≠ .nan ∧ ∀ v, x ≠ .col v) (ps : List (V3 ℝ)) :
    SphereObj.radius? (.radius a) = some o.radius ∧ SphereObj.tol? (.tol d) = some o.tol ∧
    (o.run ops).radius = latest SphereObj.radius? ops o.radius ∧ (o.run ops).center = .vec (latest SphereObj.center? ops c) ∧
      (o.run ops).tol = latest SphereObj.tol? ops o.tol ∧
      ∃ bs, (o.run ops).check ps = .ok bs ∧ bs.length = ps.length ∧ ∀ (i : ℕ) (p : V3 ℝ) (b : Bool), ps[i]? = some p → bs[i]? = some b →
        (b = true ↔ Reach (dist p (latest SphereObj.center? ops c)) (latest SphereObj.radius? ops o.radius) (latest SphereObj.tol? ops o.tol)) := by
  have hp := SphereObj.make_pos h
  have hc : o.center = .vec c := by
    unfold SphereObj.make at h
    cases hr : radiusStore a with
    | error e => rw [hr] at h; cases h
    | ok r =>
      cases ht : tolStore d with
      | error e => rw [hr, ht] at h; cases h
      | ok t =>
        rw [hr, ht] at h
        obtain rfl : (⟨r, .vec c, t⟩ : SphereObj) = o := Except.ok.inj h
        rfl
  have hr := SphereObj.run_cases ops o c hc hops
  rw [hr]
  refine ⟨hp.2.2.1, hp.2.2.2, rfl, rfl, rfl, _, rfl, by simp, ?_⟩
  intro i p b hi hb
  rw [List.getElem?_map, hi] at hb
  cases hb
  refine above_sq ?_ ?_ _ _
  · refine pos_latest (fun op y hy => ?_) ops _ hp.1
    cases op with
    | radius x => cases x <;> simp [SphereObj.radius?] at hy; exact isPos_of hy
    | _ => cases hy
  · refine pos_latest (fun op y hy => ?_) ops _ hp.2.1
    cases op with
    | tol x => exact isPos_bind isPos_of hy
    | _ => cases hy

/-- Concrete history: a refused radius, an accepted one, a string as tolerance. -/
example : ∃ o, SphereObj.make (.num (.fin 1)) (.vec 0) (.num (.fin (1 / 10 ^ 5))) = .ok o ∧
    (o.run [.radius (.num (.fin (-1))), .radius (.num (.fin 2)), .radius (.num .nan), .tol (.str (some (.fin 1))), .center (.mat 1)]).radius = .fin 2 ∧
    (o.run [.radius (.num (.fin (-1))), .radius (.num (.fin 2)), .radius (.num .nan), .tol (.str (some (.fin 1))), .center (.mat 1)]).tol = .fin 1 := by
  refine ⟨⟨.fin 1, .vec 0, .fin (1 / 10 ^ 5)⟩, ?_, ?_⟩
  · simp [SphereObj.make, radiusStore, Num.positive, centerStore, tolStore, Val.toFloat, bind, Except.bind, pure, Except.pure]
  · simp [SphereObj.run, SphereObj.step, store, radiusStore, Num.positive, centerStore, tolStore, Val.toFloat, bind, Except.bind]

/-- **C124, finding.** A centre given as an array of shape (3,1) is accepted, for every positive radius and tolerance.  One point then gives three
answers, two points raise ValueError, and of three points the k-th is compared with the point whose coordinates are all the
k-th coordinate of the centre: the centre (0,0,10) of a ball of radius 1 counts as outside when it is the third. -/
theorem C124_sphere_column_refuted (r t : ℝ) (hr : 0 < r) (ht : 0 < t) (c : V3 ℝ) :
    ∃ o, SphereObj.make (.num (.fin r)) (.col c) (.num (.fin t)) = .ok o ∧
      (∀ p, ∃ bs, o.check [p] = .ok bs ∧ bs.length = 3) ∧ (∀ p q, o.check [p, q] = .error .value) ∧
      (∀ p q s, ∃ b₁ b₂ b₃, o.check [p, q, s] = .ok [b₁, b₂, b₃] ∧ (b₁ = true ↔ dist p ⟨c.x, c.x, c.x⟩ < r + t) ∧
        (b₂ = true ↔ dist q ⟨c.y, c.y, c.y⟩ < r + t) ∧ (b₃ = true ↔ dist s ⟨c.z, c.z, c.z⟩ < r + t)) ∧
      (c = ⟨0, 0, 10⟩ → r + t ≤ 2 → ∀ p q, ∃ b₁ b₂, o.check [p, q, c] = .ok [b₁, b₂, false]) := by
  have three : ∀ p q s, ∃ b₁ b₂ b₃, (⟨.fin r, .col c, .fin t⟩ : SphereObj).check [p, q, s] = .ok [b₁, b₂, b₃] ∧ (b₁ = true ↔ dist p ⟨c.x, c.x, c.x⟩ < r + t) ∧
        (b₂ = true ↔ dist q ⟨c.y, c.y, c.y⟩ < r + t) ∧ (b₃ = true ↔ dist s ⟨c.z, c.z, c.z⟩ < r + t) := fun p q s =>
    ⟨_, _, _, rfl, above_sq (r := .fin r) (t := .fin t) hr ht _ _, above_sq (r := .fin r) (t := .fin t) hr ht _ _,
      above_sq (r := .fin r) (t := .fin t) hr ht _ _⟩
  refine ⟨⟨.fin r, .col c, .fin t⟩, ?_, fun p => ⟨_, rfl, rfl⟩, fun p q => rfl, three, ?_⟩
  · simp [SphereObj.make, radiusStore, Num.positive, centerStore, tolStore, Val.toFloat, bind, Except.bind, pure, Except.pure, hr, ht]
  · rintro rfl hrt p q
    obtain ⟨b₁, b₂, b₃, h, -, -, h3⟩ := three p q ⟨0, 0, 10⟩
    refine ⟨b₁, b₂, ?_⟩
    rw [h]
    have : b₃ = false := by
      rw [Bool.eq_false_iff]
      intro hb
      have := h3.mp hb
      unfold Spec.dist at this
      rw [Real.sqrt_lt' (by linarith)] at this
      norm_num at this
      nlinarith
    rw [this]

/-! ## Planes -/

namespace PlaneObj

theorem normalStore_eq (x : Arr) :
    (∃ v, three? x = some v ∧ machEps < len v ∧ normalStore x = .ok ((len v)⁻¹ • v)) ∨
    ((∀ v, three? x = some v → ¬ machEps < len v) ∧ ∃ e, normalStore x = .error e) := by
  have key : ∀ v : V3 ℝ, (machEps < len v ∧ Plane.normalSet v = .ok ((len v)⁻¹ • v)) ∨ (¬ machEps < len v ∧ ∃ e, Plane.normalSet v = .error e) := by
    intro v
    rw [len_eq]
    unfold Plane.normalSet
    by_cases h : norm3 v > machEps
    · exact .inl ⟨h, if_pos h⟩
    · exact .inr ⟨h, _, if_neg h⟩
  cases x with
  | vec v => rcases key v with h | h
             · exact .inl ⟨v, rfl, h⟩
             · exact .inr ⟨fun w hw => by cases hw; exact h.1, h.2⟩
  | col v => rcases key v with h | h
             · exact .inl ⟨v, rfl, h⟩
             · exact .inr ⟨fun w hw => by cases hw; exact h.1, h.2⟩
  | row v => rcases key v with h | h
             · exact .inl ⟨v, rfl, h⟩
             · exact .inr ⟨fun w hw => by cases hw; exact h.1, h.2⟩
  | _ => exact .inr ⟨fun w hw => (by cases hw), _, rfl⟩

theorem step_cases (o : PlaneObj) (op : Op) (hu : norm3 o.normal = 1) (h : ∀ x, op = .point x → x ≠ .nan ∧ ∀ M, x ≠ .mat M) (q : V3 ℝ) (hq : o.point = .vec q) :
    (o.step op).1 = ⟨normalAfter o.normal op, .vec ((point? op).getD q), (tol? op).getD o.tol⟩ := by
  obtain ⟨n, q', t⟩ := o
  simp only at hq hu
  subst hq
  cases op with
  | normal x =>
    rcases normalStore_eq x with ⟨v, h1, h2, h3⟩ | ⟨h1, e, h3⟩
    · simp [step, store, h3, normalAfter, h1, h2, point?, tol?]
    · cases hx : three? x with
      | none => simp [step, store, h3, normalAfter, hx, point?, tol?]
      | some v => simp [step, store, h3, normalAfter, hx, h1 v hx, point?, tol?]
  | point x =>
    cases x <;> simp [step, store, pointStore, normalAfter, point?, tol?, three?]
    · exact absurd rfl (h _ rfl).1
    · rename_i M; exact absurd rfl ((h _ rfl).2 M)
  | tol x =>
    rcases tolStore_eq x with ⟨e, h1, h2⟩ | ⟨y, h1, h2⟩ <;> simp [step, store, h1, normalAfter, point?, tol?, h2]
  | flip =>
    have : normalStore (.vec (-n)) = .ok (-n) := plane_normalSet_unit (by rw [norm3_neg]; exact hu)
    simp [step, store, this, normalAfter, point?, tol?]

theorem normalAfter_unit {n : V3 ℝ} (hu : norm3 n = 1) (op : Op) : norm3 (normalAfter n op) = 1 := by
  cases op with
  | normal x =>
    simp only [normalAfter]
    cases hx : three? x with
    | none => exact hu
    | some v =>
      simp only
      split_ifs with hv
      · rw [len_eq] at hv ⊢
        exact norm3_unit (machEps_pos.trans hv).ne'
      · exact hu
  | flip => rw [normalAfter, norm3_neg]; exact hu
  | _ => exact hu

theorem run_cases (ops : List Op) : ∀ (o : PlaneObj) (q : V3 ℝ), norm3 o.normal = 1 → o.point = .vec q →
    (∀ x, .point x ∈ ops → x ≠ .nan ∧ ∀ M, x ≠ .mat M) →
    o.run ops = ⟨ops.foldl normalAfter o.normal, .vec (latest point? ops q), latest tol? ops o.tol⟩ ∧ norm3 (ops.foldl normalAfter o.normal) = 1 := by
  induction ops with
  | nil => intro o q hu hq _; obtain ⟨r, c', t⟩ := o; simp only at hq; subst hq; exact ⟨rfl, hu⟩
  | cons op ops ih =>
    intro o q hu hq h
    have hs := step_cases o op hu (fun x hx => h x (hx ▸ List.mem_cons_self)) q hq
    have := ih (o.step op).1 ((point? op).getD q) (by rw [hs]; exact normalAfter_unit hu op) (by rw [hs]) fun x hx => h x (List.mem_cons_of_mem _ hx)
    rw [latest_cons, latest_cons, List.foldl_cons]
    rw [hs] at this
    refine ⟨?_, this.2⟩
    show (o.step op).1.run ops = _
    rw [hs]
    exact this.1

end PlaneObj

/-- Less than the tolerance beyond the plane. -/
def Below (n q : V3 ℝ) : Num → V3 ℝ → Prop
  | .fin t, p => HalfSpace n q t p
  | _, _ => True

/-- **C124 (planes, partial).** After any history of assignments and `flip_orientation` calls, a Plane has the unit normal of the last normal
accepted (negated by every later flip), the last point and tolerance accepted, and `checkIfInterior` reports the points on the inner side.
Missing: points given as arrays of shape (3,3), for which it is false (`C124_plane_matrix_refuted`), or with nan entries. -/
theorem C124_plane_partial (a : Arr) (q : V3 ℝ) (d : Val) (o : PlaneObj) (h : PlaneObj.make a (.vec q) d = .ok o) (ops : List PlaneObj.Op)
    (hops : ∀ x, .point x ∈ ops → x ≠ .nan ∧ ∀ M, x ≠ .mat M) (ps : List (V3 ℝ)) :
    (∃ v, three? a = some v ∧ o.normal = (len v)⁻¹ • v) ∧ PlaneObj.tol? (.tol d) = some o.tol ∧
    (o.run ops).normal = ops.foldl PlaneObj.normalAfter o.normal ∧ len (o.run ops).normal = 1 ∧
      (o.run ops).point = .vec (latest PlaneObj.point? ops q) ∧ (o.run ops).tol = latest PlaneObj.tol? ops o.tol ∧
      ∃ bs, (o.run ops).check ps = .ok bs ∧ bs.length = ps.length ∧ ∀ (i : ℕ) (p : V3 ℝ) (b : Bool), ps[i]? = some p → bs[i]? = some b →
        (b = true ↔ Below (ops.foldl PlaneObj.normalAfter o.normal) (latest PlaneObj.point? ops q) (latest PlaneObj.tol? ops o.tol) p) := by
  have hm : (∃ v, three? a = some v ∧ o.normal = (len v)⁻¹ • v) ∧ norm3 o.normal = 1 ∧ o.point = .vec q ∧ IsPos o.tol ∧ PlaneObj.tol? (.tol d) = some o.tol := by
    unfold PlaneObj.make at h
    rcases PlaneObj.normalStore_eq a with ⟨v, h1, h2, h3⟩ | ⟨-, e, h3⟩
    · rcases tolStore_eq d with ⟨e, h4, -⟩ | ⟨t, h4, h5⟩
      · rw [h3, h4] at h; cases h
      · rw [h3, h4] at h
        obtain rfl : (⟨(len v)⁻¹ • v, .vec q, t⟩ : PlaneObj) = o := Except.ok.inj h
        refine ⟨⟨v, h1, rfl⟩, ?_, rfl, isPos_bind isPos_of h5, h5⟩
        rw [len_eq] at h2 ⊢
        exact norm3_unit (machEps_pos.trans h2).ne'
    · rw [h3] at h; cases h
  obtain ⟨hr, hu⟩ := PlaneObj.run_cases ops o q hm.2.1 hm.2.2.1 hops
  have ht : IsPos (latest PlaneObj.tol? ops o.tol) := by
    refine pos_latest (fun op y hy => ?_) ops _ hm.2.2.2.1
    cases op with
    | tol x => exact isPos_bind isPos_of hy
    | _ => cases hy
  rw [hr]
  refine ⟨hm.1, hm.2.2.2.2, rfl, by rw [len_eq]; exact hu, rfl, rfl, _, rfl, by simp, ?_⟩
  intro i p b hi hb
  rw [List.getElem?_map, hi] at hb
  cases hb
  simp only
  generalize latest PlaneObj.tol? ops o.tol = t at ht ⊢
  cases t with
  | fin t =>
    have := plane_interior_iff ⟨ops.foldl PlaneObj.normalAfter o.normal, latest PlaneObj.point? ops q, t⟩ hu p
    simp only [Plane.interior, Plane.sdist] at this
    simp only [Num.above, Below]
    exact this
  | inf => simp [Num.above, Below]
  | _ => exact absurd ht (by simp [IsPos])

/-- Concrete history: a zero normal is refused, a row is accepted, the plane is flipped. -/
example : ∃ o, PlaneObj.make (.vec ⟨0, 0, 2⟩) (.vec 0) (.num (.fin 1)) = .ok o ∧
    [PlaneObj.Op.normal (.vec 0), .flip, .point (.one)].foldl PlaneObj.normalAfter o.normal = ⟨0, 0, -1⟩ := by
  have hn : norm3 (⟨0, 0, 2⟩ : V3 ℝ) = 2 := by
    unfold norm3
    rw [show (⟨0, 0, 2⟩ : V3 ℝ).normSq = 2 ^ 2 by norm_num [V3.normSq, V3.dot]]
    exact Real.sqrt_sq (by norm_num)
  have h2 : (2 : ℝ) > machEps := by unfold machEps; norm_num
  refine ⟨⟨(2 : ℝ)⁻¹ • ⟨0, 0, 2⟩, .vec 0, .fin 1⟩, ?_, ?_⟩
  · simp [PlaneObj.make, normalStore, Plane.normalSet, hn, h2, pointStore, tolStore, Val.toFloat, Num.positive, bind, Except.bind, pure, Except.pure]
  · have h0 : ¬ machEps < len (0 : V3 ℝ) := by
      have : len (0 : V3 ℝ) = 0 := by simp [len]
      rw [this]; exact not_lt.mpr machEps_pos.le
    simp [PlaneObj.normalAfter, three?, h0]
    ext <;> simp

/-- **C124, finding.** A point given as an array of shape (3,3) is accepted: three points are compared each with another plane, one through
every row; one point gives three answers; two points raise ValueError. -/
theorem C124_plane_matrix_refuted (o : PlaneObj) (ho : norm3 o.normal = 1) (t : ℝ) (ht : o.tol = .fin t) (u v w : V3 ℝ) :
    ∃ o', o.step (.point (.mat ⟨u.x, u.y, u.z, v.x, v.y, v.z, w.x, w.y, w.z⟩)) = (o', .ok ()) ∧ (∀ p, ∃ bs, o'.check [p] = .ok bs ∧ bs.length = 3) ∧
      (∀ p q, o'.check [p, q] = .error .value) ∧
      ∀ p q s, ∃ b₁ b₂ b₃, o'.check [p, q, s] = .ok [b₁, b₂, b₃] ∧ (b₁ = true ↔ HalfSpace o.normal u t p) ∧
        (b₂ = true ↔ HalfSpace o.normal v t q) ∧ (b₃ = true ↔ HalfSpace o.normal w t s) := by
  refine ⟨_, rfl, fun p => ⟨_, rfl, rfl⟩, fun p q => rfl, fun p q s => ⟨_, _, _, rfl, ?_, ?_, ?_⟩⟩
  · have := plane_interior_iff ⟨o.normal, u, t⟩ ho p
    simp only [Plane.interior, Plane.sdist] at this
    simp only [Num.above, ht]
    exact this
  · have := plane_interior_iff ⟨o.normal, v, t⟩ ho q
    simp only [Plane.interior, Plane.sdist] at this
    simp only [Num.above, ht]
    exact this
  · have := plane_interior_iff ⟨o.normal, w, t⟩ ho s
    simp only [Plane.interior, Plane.sdist] at this
    simp only [Num.above, ht]
    exact this

/-! ## Cylinders -/

namespace CylObj

theorem axisStore_eq (x : Arr) (h : x ≠ .nan) :
    (∃ v, three? x = some v ∧ machEps < len v ∧ axisStore x = .ok (some ((len v)⁻¹ • v))) ∨
    ((∀ v, three? x = some v → ¬ machEps < len v) ∧ ∃ e, axisStore x = .error e) := by
  have key : ∀ v : V3 ℝ, (machEps < len v ∧ (Cylinder.axisSet v).map some = .ok (some ((len v)⁻¹ • v))) ∨
      (¬ machEps < len v ∧ ∃ e, (Cylinder.axisSet v).map some = .error e) := by
    intro v
    rw [len_eq]
    unfold Cylinder.axisSet
    by_cases h : norm3 v ≤ machEps
    · exact .inr ⟨not_lt.mpr h, _, by rw [if_pos h]; rfl⟩
    · exact .inl ⟨not_le.mp h, by rw [if_neg h]; rfl⟩
  cases x with
  | vec v => rcases key v with h | h
             · exact .inl ⟨v, rfl, h⟩
             · exact .inr ⟨fun w hw => by cases hw; exact h.1, h.2⟩
  | col v => rcases key v with h | h
             · exact .inl ⟨v, rfl, h⟩
             · exact .inr ⟨fun w hw => by cases hw; exact h.1, h.2⟩
  | row v => rcases key v with h | h
             · exact .inl ⟨v, rfl, h⟩
             · exact .inr ⟨fun w hw => by cases hw; exact h.1, h.2⟩
  | nan => exact absurd rfl h
  | _ => exact .inr ⟨fun w hw => (by cases hw), _, rfl⟩

/-- No nan is assigned. -/
def NoNan : Op → Prop
  | .axis x => x ≠ .nan
  | .point x => x ≠ .nan
  | .radius x => number? x ≠ some .nan
  | .length x => number? x ≠ some .nan
  | .tol _ => True

theorem step_cases (o : CylObj) (op : Op) (h : NoNan op) (a q : V3 ℝ) (ha : o.axis = some a) (hq : o.point = .vec q) :
    (o.step op).1 = ⟨some ((axis? op).getD a), .vec ((point? op).getD q), (radius? op).getD o.radius, (length? op).getD o.length, (tol? op).getD o.tol⟩ := by
  obtain ⟨a', q', r, l, t⟩ := o
  simp only at hq ha
  subst hq ha
  cases op with
  | axis x =>
    rcases axisStore_eq x h with ⟨v, h1, h2, h3⟩ | ⟨h1, e, h3⟩
    · simp [step, store, h3, axis?, h1, h2, point?, radius?, length?, tol?]
    · cases hx : three? x with
      | none => simp [step, store, h3, axis?, hx, point?, radius?, length?, tol?]
      | some v => simp [step, store, h3, axis?, hx, h1 v hx, point?, radius?, length?, tol?]
  | point x =>
    cases x <;> simp [step, store, cylPointStore, axis?, point?, radius?, length?, tol?, three?]
    exact absurd rfl h
  | radius x =>
    rcases sizeStore_eq x h with ⟨e, h1, h2⟩ | ⟨y, h1, h2⟩ <;> simp [step, store, h1, axis?, point?, radius?, length?, tol?, h2]
  | length x =>
    rcases sizeStore_eq x h with ⟨e, h1, h2⟩ | ⟨y, h1, h2⟩ <;> simp [step, store, h1, axis?, point?, radius?, length?, tol?, h2]
  | tol x =>
    rcases tolStore_eq x with ⟨e, h1, h2⟩ | ⟨y, h1, h2⟩ <;> simp [step, store, h1, axis?, point?, radius?, length?, tol?, h2]

theorem run_cases (ops : List Op) : ∀ (o : CylObj) (a q : V3 ℝ), o.axis = some a → o.point = .vec q → (∀ op ∈ ops, NoNan op) →
    o.run ops = ⟨some (latest axis? ops a), .vec (latest point? ops q), latest radius? ops o.radius, latest length? ops o.length, latest tol? ops o.tol⟩ := by
  induction ops with
  | nil => intro o a q ha hq _; obtain ⟨a', q', r, l, t⟩ := o; simp only at ha hq; subst ha hq; rfl
  | cons op ops ih =>
    intro o a q ha hq h
    have hs := step_cases o op (h _ List.mem_cons_self) a q ha hq
    show (o.step op).1.run ops = _
    rw [ih _ ((axis? op).getD a) ((point? op).getD q) (by rw [hs]) (by rw [hs]) fun x hx => h x (List.mem_cons_of_mem _ hx)]
    simp only [latest_cons, hs]

theorem unit_latest (ops : List Op) : ∀ a : V3 ℝ, norm3 a = 1 → norm3 (latest axis? ops a) = 1 := by
  induction ops with
  | nil => exact fun a h => h
  | cons op ops ih =>
    intro a ha
    rw [latest_cons]
    refine ih _ ?_
    cases h : axis? op with
    | none => exact ha
    | some b =>
      cases op with
      | axis x =>
        simp only [axis?, Option.bind_eq_some_iff] at h
        obtain ⟨v, -, hv⟩ := h
        split_ifs at hv with h1
        cases hv
        rw [len_eq] at h1
        simp only [Option.getD_some, len_eq]
        exact norm3_unit (machEps_pos.trans h1).ne'
      | _ => cases h

end CylObj

/-- Inside a cylinder with possibly infinite measures, with unit axis `a` and centre `q`: the foot of the perpendicular on the axis is at `q + s a`. -/
def InCylinder (a q : V3 ℝ) (r l t : Num) (p : V3 ℝ) : Prop :=
  ∃ s : ℝ, Perp (p - (q + s • a)) a ∧ Reach |s| l.half t ∧ Reach (dist p (q + s • a)) r t

theorem cross_dist {a q p : V3 ℝ} (ha : norm3 a = 1) (s : ℝ) (hs : Perp (p - (q + s • a)) a) :
    s = (p - q).dot a ∧ dist p (q + s • a) = norm3 ((p - q).cross a) := by
  have h1 : a.normSq = 1 := norm3_eq_one.mp ha
  simp only [V3.normSq, V3.dot] at h1
  have e : s = (p - q).dot a := by
    simp only [Perp, V3.sub_x, V3.sub_y, V3.sub_z, V3.add_x, V3.add_y, V3.add_z, V3.smul_x, V3.smul_y, V3.smul_z] at hs
    simp only [V3.dot, V3.sub_x, V3.sub_y, V3.sub_z]
    linear_combination (-1 : ℝ) * hs - s * h1
  refine ⟨e, ?_⟩
  unfold Spec.dist norm3
  congr 1
  rw [e]
  simp only [V3.normSq, V3.cross, V3.dot, V3.sub_x, V3.sub_y, V3.sub_z, V3.add_x, V3.add_y, V3.add_z, V3.smul_x, V3.smul_y, V3.smul_z]
  have h2 : a.x * a.x = 1 - a.y * a.y - a.z * a.z := by linarith
  linear_combination ((((p.x - q.x) * a.x + (p.y - q.y) * a.y + (p.z - q.z) * a.z) ^ 2) -
    ((p.x - q.x) ^ 2 + (p.y - q.y) ^ 2 + (p.z - q.z) ^ 2)) * h1

/-- **C124 (cylinders, partial).** After any history of assignments to a Cylinder, in which no nan was assigned, the parameters are the last ones accepted,
and `checkIfInterior` reports the points of the cylinder with these parameters.  Missing: nan, which is accepted (`C124_nan_refuted`). -/
theorem C124_cylinder_partial (a b : Arr) (r l t : Val) (o : CylObj) (h : CylObj.make a b r l t = .ok o) (ha : a ≠ .nan) (hb : b ≠ .nan)
    (hr : number? r ≠ some .nan) (hl : number? l ≠ some .nan) (ops : List CylObj.Op) (hops : ∀ op ∈ ops, CylObj.NoNan op) (ps : List (V3 ℝ)) :
    ∃ a0 q0, three? b = some q0 ∧ (∃ v, three? a = some v ∧ a0 = (len v)⁻¹ • v) ∧
    CylObj.radius? (.radius r) = some o.radius ∧ CylObj.length? (.length l) = some o.length ∧ CylObj.tol? (.tol t) = some o.tol ∧
    (o.run ops).axis = some (latest CylObj.axis? ops a0) ∧ len (latest CylObj.axis? ops a0) = 1 ∧ (o.run ops).point = .vec (latest CylObj.point? ops q0) ∧
      (o.run ops).radius = latest CylObj.radius? ops o.radius ∧ (o.run ops).length = latest CylObj.length? ops o.length ∧
      (o.run ops).tol = latest CylObj.tol? ops o.tol ∧
      ∃ bs, (o.run ops).check ps = .ok bs ∧ bs.length = ps.length ∧ ∀ (i : ℕ) (p : V3 ℝ) (b : Bool), ps[i]? = some p → bs[i]? = some b →
        (b = true ↔ InCylinder (latest CylObj.axis? ops a0) (latest CylObj.point? ops q0) (latest CylObj.radius? ops o.radius)
          (latest CylObj.length? ops o.length) (latest CylObj.tol? ops o.tol) p) := by
  have hm : ∃ v q, three? b = some q ∧ three? a = some v ∧ machEps < len v ∧ o.axis = some ((len v)⁻¹ • v) ∧ o.point = .vec q ∧
      IsPos o.radius ∧ IsPos o.length ∧ IsPos o.tol ∧
      CylObj.radius? (.radius r) = some o.radius ∧ CylObj.length? (.length l) = some o.length ∧ CylObj.tol? (.tol t) = some o.tol := by
    unfold CylObj.make at h
    rcases CylObj.axisStore_eq a ha with ⟨v, h1, h2, h3⟩ | ⟨-, e, h3⟩
    · have hq : (∃ q, three? b = some q ∧ cylPointStore b = .ok (.vec q)) ∨ ∃ e, cylPointStore b = .error e := by
        cases b with
        | vec v => exact .inl ⟨v, rfl, rfl⟩
        | col v => exact .inl ⟨v, rfl, rfl⟩
        | row v => exact .inl ⟨v, rfl, rfl⟩
        | nan => exact absurd rfl hb
        | _ => exact .inr ⟨_, rfl⟩
      rcases hq with ⟨q, hq1, hq2⟩ | ⟨e, hq2⟩
      · rcases sizeStore_eq r hr with ⟨e, h4, -⟩ | ⟨r', h4, h4'⟩
        · rw [h3, hq2, h4] at h; cases h
        · rcases sizeStore_eq l hl with ⟨e, h5, -⟩ | ⟨l', h5, h5'⟩
          · rw [h3, hq2, h4, h5] at h; cases h
          · rcases tolStore_eq t with ⟨e, h6, -⟩ | ⟨t', h6, h6'⟩
            · rw [h3, hq2, h4, h5, h6] at h; cases h
            · rw [h3, hq2, h4, h5, h6] at h
              obtain rfl : (⟨some ((len v)⁻¹ • v), .vec q, r', l', t'⟩ : CylObj) = o := Except.ok.inj h
              exact ⟨v, q, hq1, h1, h2, rfl, rfl, isPos_bind isPos_of_size h4', isPos_bind isPos_of_size h5', isPos_bind isPos_of h6',
                h4', h5', h6'⟩
      · rw [h3, hq2] at h; cases h
    · rw [h3] at h; cases h
  obtain ⟨v, q, m1, m2, m3, m4, m5, m6, m7, m8, m9, m10, m11⟩ := hm
  have hrun := CylObj.run_cases ops o _ q m4 m5 hops
  have hu : norm3 (latest CylObj.axis? ops ((len v)⁻¹ • v)) = 1 := by
    refine CylObj.unit_latest ops _ ?_
    rw [len_eq] at m3 ⊢
    exact norm3_unit (machEps_pos.trans m3).ne'
  have p1 : IsPos (latest CylObj.radius? ops o.radius) := by
    refine pos_latest (fun op y hy => ?_) ops _ m6
    cases op with
    | radius x => exact isPos_bind isPos_of_size hy
    | _ => cases hy
  have p2 : IsPos (latest CylObj.length? ops o.length) := by
    refine pos_latest (fun op y hy => ?_) ops _ m7
    cases op with
    | length x => exact isPos_bind isPos_of_size hy
    | _ => cases hy
  have p3 : IsPos (latest CylObj.tol? ops o.tol) := by
    refine pos_latest (fun op y hy => ?_) ops _ m8
    cases op with
    | tol x => exact isPos_bind isPos_of hy
    | _ => cases hy
  refine ⟨_, q, m1, ⟨v, m2, rfl⟩, ?_⟩
  rw [hrun]
  refine ⟨m9, m10, m11, rfl, by rw [len_eq]; exact hu, rfl, rfl, rfl, rfl, _, rfl, by simp, ?_⟩
  intro i p b hi hb
  rw [List.getElem?_map, hi] at hb
  cases hb
  rw [Bool.and_eq_true, above_add p1 p3, above_half p2 p3]
  constructor
  · rintro ⟨h1, h2⟩
    have hperp : Perp (p - (latest CylObj.point? ops q + ((p - latest CylObj.point? ops q).dot (latest CylObj.axis? ops ((len v)⁻¹ • v))) •
        latest CylObj.axis? ops ((len v)⁻¹ • v))) (latest CylObj.axis? ops ((len v)⁻¹ • v)) := by
      generalize latest CylObj.axis? ops ((len v)⁻¹ • v) = a at hu ⊢
      generalize latest CylObj.point? ops q = q
      have h1 : a.normSq = 1 := norm3_eq_one.mp hu
      simp only [V3.normSq, V3.dot] at h1
      simp only [Perp, V3.dot, V3.sub_x, V3.sub_y, V3.sub_z, V3.add_x, V3.add_y, V3.add_z, V3.smul_x, V3.smul_y, V3.smul_z]
      linear_combination (-((p.x - q.x) * a.x + (p.y - q.y) * a.y + (p.z - q.z) * a.z)) * h1
    refine ⟨_, hperp, h2, ?_⟩
    rw [(cross_dist hu _ hperp).2]
    exact h1
  · rintro ⟨s, hs, h1, h2⟩
    obtain ⟨e1, e2⟩ := cross_dist hu s hs
    rw [e2] at h2
    rw [e1] at h1
    exact ⟨h2, h1⟩

/-- Concrete: a cylinder around the z axis, made longer with a string, a negative radius refused. -/
example : ∃ o, CylObj.make (.row ⟨0, 0, 1⟩) (.vec 0) (.num (.fin 1)) (.num (.fin 1)) (.num (.fin 1)) = .ok o ∧
    ∀ op ∈ [CylObj.Op.length (.str (some (.fin 2))), .radius (.num (.fin (-1)))], CylObj.NoNan op := by
  have hn : norm3 (⟨0, 0, 1⟩ : V3 ℝ) = 1 := by simp [norm3, V3.normSq, V3.dot]
  have h2 : ¬ (1 : ℝ) ≤ machEps := by unfold machEps; norm_num
  have h3 : ¬ (1 : ℝ) < machEps := by unfold machEps; norm_num
  refine ⟨⟨some ((1 : ℝ)⁻¹ • ⟨0, 0, 1⟩), .vec 0, .fin 1, .fin 1, .fin 1⟩, ?_, ?_⟩
  · simp [CylObj.make, axisStore, Cylinder.axisSet, hn, h2, h3, cylPointStore, sizeStore, tolStore, Val.toFloat, Num.positive, Num.tiny, bind, Except.bind,
      pure, Except.pure, Except.map]
  · simp [CylObj.NoNan, number?]

/-- **C124, finding.** nan passes the checks of Cylinder: as radius, as length, as a component of axis or point; `checkIfInterior` then reports every point
outside.  A Sphere accepts it in its centre, a Plane in its point.  (Sphere.radius, Plane.normal and tolerances refuse it.) -/
theorem C124_nan_refuted :
    (∀ o : CylObj, ∀ op ∈ [CylObj.Op.radius (.num .nan), .length (.num .nan), .axis .nan, .point .nan], ∃ o', o.step op = (o', .ok ()) ∧
      ∀ q : V3 ℝ, (op = .point .nan ∨ o.point = .vec q) → ∀ ps, o'.check ps = .ok (ps.map fun _ => false)) ∧
    (∀ o : SphereObj, ∃ o', o.step (.center .nan) = (o', .ok ()) ∧ ∀ ps, o'.check ps = .ok (ps.map fun _ => false)) ∧
    (∀ o : PlaneObj, ∃ o', o.step (.point .nan) = (o', .ok ()) ∧ ∀ ps, o'.check ps = .ok (ps.map fun _ => false)) ∧
    (∀ o : SphereObj, o.step (.radius (.num .nan)) = (o, .error .value) ∧ o.step (.tol (.num .nan)) = (o, .error .assertion)) ∧
    (∀ o : PlaneObj, o.step (.normal .nan) = (o, .error .value)) := by
  have add_nan : ∀ x y : Num, Num.add .nan y = .nan ∧ Num.add x .nan = .nan := by
    intro x y; exact ⟨by cases y <;> rfl, by cases x <;> rfl⟩
  refine ⟨?_, fun o => ⟨_, rfl, fun ps => rfl⟩, fun o => ⟨_, rfl, fun ps => rfl⟩, fun o => ⟨rfl, ?_⟩, fun o => rfl⟩
  · intro o op hop
    simp only [List.mem_cons, List.not_mem_nil, or_false] at hop
    obtain ⟨a, q', r, l, t⟩ := o
    rcases hop with rfl | rfl | rfl | rfl
    · refine ⟨⟨a, q', .nan, l, t⟩, rfl, ?_⟩
      rintro q (h | h) ps
      · cases h
      · simp only at h; subst h
        cases a <;> simp [CylObj.check, (add_nan .nan t).1, Num.above]
    · refine ⟨⟨a, q', r, .nan, t⟩, rfl, ?_⟩
      rintro q (h | h) ps
      · cases h
      · simp only at h; subst h
        cases a <;> simp [CylObj.check, Num.half, (add_nan .nan t).1, Num.above]
    · refine ⟨⟨none, q', r, l, t⟩, rfl, ?_⟩
      rintro q (h | h) ps
      · cases h
      · simp only at h; subst h
        rfl
    · refine ⟨⟨a, .nan, r, l, t⟩, rfl, fun q _ ps => ?_⟩
      cases a <;> rfl
  · simp [SphereObj.step, store, tolStore, Val.toFloat, Num.positive, bind, Except.bind]

/-! ## Exceptions -/

/-- **C124 (refused).** An assignment that raises leaves the surface unchanged. -/
theorem C124_refused (e : PyErr) :
    (∀ (o : SphereObj) op, (o.step op).2 = .error e → (o.step op).1 = o) ∧ (∀ (o : PlaneObj) op, (o.step op).2 = .error e → (o.step op).1 = o) ∧
    (∀ (o : CylObj) op, (o.step op).2 = .error e → (o.step op).1 = o) := by
  have key : ∀ {α β : Type} (o : α) (r : Py β) (f : β → α), (store o r f).2 = .error e → (store o r f).1 = o := by
    intro α β o r f h
    cases r with
    | ok x => cases h
    | error e => rfl
  refine ⟨fun o op => ?_, fun o op => ?_, fun o op => ?_⟩ <;> cases op <;> exact key _ _ _

/-- **C124 (which exception).** Radii that are no positive numbers: ValueError for a Sphere, and for a Cylinder below the machine precision; strings are
compared as they are by a Sphere (TypeError) and read as numbers by a Cylinder and as tolerances; other objects give TypeError; tolerances
that are not positive AssertionError.  Arrays of the wrong shape: ValueError from Sphere.center and Cylinder, AssertionError from Plane (IndexError
for a single number as Plane.point); vectors of length at most the machine precision ValueError. -/
theorem C124_exceptions (s : SphereObj) (pl : PlaneObj) (c : CylObj) :
    (∀ x : ℝ, x ≤ 0 → (s.step (.radius (.num (.fin x)))).2 = .error .value ∧ (s.step (.tol (.num (.fin x)))).2 = .error .assertion ∧
      (c.step (.tol (.num (.fin x)))).2 = .error .assertion ∧ (pl.step (.tol (.num (.fin x)))).2 = .error .assertion) ∧
    (∀ x : ℝ, x < machEps → (c.step (.radius (.num (.fin x)))).2 = .error .value ∧ (c.step (.length (.num (.fin x)))).2 = .error .value) ∧
    (∀ o, (s.step (.radius (.str o))).2 = .error .type) ∧ (s.step (.radius .other)).2 = .error .type ∧ (c.step (.radius .other)).2 = .error .type ∧
    (s.step (.tol .other)).2 = .error .type ∧ (s.step (.tol (.str none))).2 = .error .value ∧ (c.step (.radius (.str none))).2 = .error .value ∧
    (∀ a, (∀ v, three? a ≠ some v) → a ≠ .nan → (s.step (.center a)).2 = .error .value ∧ (c.step (.axis a)).2 = .error .value ∧
      (c.step (.point a)).2 = .error .value ∧ (pl.step (.normal a)).2 = .error .assertion) ∧
    (∀ v, (s.step (.center (.row v))).2 = .error .value) ∧ (pl.step (.point .one)).2 = .error .index ∧ (pl.step (.point .misfit)).2 = .error .assertion ∧
    (∀ a v, three? a = some v → len v ≤ machEps → (pl.step (.normal a)).2 = .error .value ∧ (c.step (.axis a)).2 = .error .value) := by
  refine ⟨fun x hx => ?_, fun x hx => ?_, fun o => rfl, rfl, rfl, rfl, rfl, rfl, fun a h1 h2 => ?_, fun v => rfl, rfl, rfl, fun a v h1 h2 => ?_⟩
  · have : ¬ 0 < x := not_lt.mpr hx
    simp [SphereObj.step, CylObj.step, PlaneObj.step, store, radiusStore, tolStore, Val.toFloat, Num.positive, bind, Except.bind, this]
  · simp [CylObj.step, store, sizeStore, Val.toFloat, Num.tiny, bind, Except.bind, hx]
  · cases a with
    | vec v => exact absurd rfl (h1 v)
    | col v => exact absurd rfl (h1 v)
    | row v => exact absurd rfl (h1 v)
    | nan => exact absurd rfl h2
    | _ => exact ⟨rfl, rfl, rfl, rfl⟩
  · rw [len_eq] at h2
    have hn : Plane.normalSet v = .error .value := by unfold Plane.normalSet; rw [if_neg (not_lt.mpr h2)]
    have hc : Cylinder.axisSet v = .error .value := by unfold Cylinder.axisSet; rw [if_pos h2]
    cases a <;> cases h1 <;> simp [PlaneObj.step, CylObj.step, store, normalStore, axisStore, hn, hc, Except.map]

end
end SurfSet
end CZ
