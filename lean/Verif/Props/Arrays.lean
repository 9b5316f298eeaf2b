import Verif.Arrays
import Mathlib.Tactic.Tauto
import Mathlib.Data.Rat.Floor

/-! # Arrays passed in and handed out -/

namespace CZ
namespace Arrays
variable {K : Type} [Field K] [LinearOrder K] [FloorRing K]

/-! ## Specification: arrays as values -/

/-- What everything contains if arrays are values: nothing is shared. -/
structure Plain (K : Type) where
  attr : ℕ → Attr → Option (List (V3 K))
  var : ℕ → Option (List (V3 K))

/-- `np.min(x, axis=0)` subtracted from every row: what `calc_rdf` leaves in its argument.  Stated by its defining property: every
coordinate of the result is the old one minus the smallest of its column. -/
def Lowered (a b : List (V3 K)) : Prop :=
  ∃ m : V3 K, b = a.map (· - m) ∧ (a ≠ [] → (∀ p ∈ a, m.x ≤ p.x ∧ m.y ≤ p.y ∧ m.z ≤ p.z) ∧
    (∃ p ∈ a, p.x = m.x) ∧ (∃ p ∈ a, p.y = m.y) ∧ (∃ p ∈ a, p.z = m.z))

/-- One statement on values. -/
inductive Plain.Step : Plain K → Act K → Plain K → Prop
  | gather (p : Plain K) (x f) : Step p (.gather x f) ⟨p.attr, Function.update p.var x (some (f p.attr p.var))⟩
  | get (p : Plain K) (x o t) : Step p (.get x o t) ⟨p.attr, Function.update p.var x (p.attr o t)⟩
  | bind (p : Plain K) (x y) : Step p (.bind x y) ⟨p.attr, Function.update p.var x (p.var y)⟩
  | assign (p : Plain K) (o t x g a) : p.var x = some a → Step p (.assign o t x g)
      ⟨Function.update p.attr o (Function.update (p.attr o) t (some (if t.keeps then a else g a))), p.var⟩
  | assign_none (p : Plain K) (o t x g) : p.var x = none → Step p (.assign o t x g) p
  | renew (p : Plain K) (o t f) : Step p (.renew o t f) ⟨Function.update p.attr o (Function.update (p.attr o) t (f p.attr)), p.var⟩
  | write (p : Plain K) (x g a) : p.var x = some a → Step p (.write x g) ⟨p.attr, Function.update p.var x (some (g a))⟩
  | write_none (p : Plain K) (x g) : p.var x = none → Step p (.write x g) p
  | rdf (p : Plain K) (x c px py pz a b) : p.var x = some a → Lowered a b → Step p (.rdf x c px py pz) ⟨p.attr, Function.update p.var x (some b)⟩
  | rdf_none (p : Plain K) (x c px py pz) : p.var x = none → Step p (.rdf x c px py pz) p

/-- A program on values. -/
inductive Plain.Run : Plain K → List (Act K) → Plain K → Prop
  | nil (p) : Run p [] p
  | cons {p q r a as} : Step p a q → Run q as r → Run p (a :: as) r

/-- Which variables are the user's own after a statement, seen from the program text: a variable is its own after a new array has been
made for it, and no longer after the array has been shared: read from an attribute, named twice, or given to one of the attributes which keep
the array. -/
def owns (own : ℕ → Bool) : Act K → ℕ → Bool
  | .gather x _ => Function.update own x true
  | .get x _ _ => Function.update own x false
  | .bind x y => Function.update (Function.update own y false) x false
  | .assign _ t x _ => if t = .matrix ∨ t = .rotation ∨ t = .orientation then Function.update own x false else own
  | _ => own

/-- Arrays are changed in place only through variables that are the user's own. -/
def Careful (own : ℕ → Bool) : List (Act K) → Prop
  | [] => True
  | a :: as => (∀ x, (∃ g, a = .write x g) ∨ (∃ c px py pz, a = .rdf x c px py pz) → own x = true) ∧ Careful (owns own a) as

/-! ## The memory keeps apart what the program keeps apart -/

/-- Names of cells in use are below `next`; the cell of a variable that is the user's own is held by nothing else. -/
structure Apart (own : ℕ → Bool) (m : Mem K) : Prop where
  slots : ∀ o t r, m.slot o t = some r → r < m.next
  vars : ∀ x r, m.var x = some r → r < m.next
  slot : ∀ x r, own x = true → m.var x = some r → ∀ o t, m.slot o t ≠ some r
  var : ∀ x r, own x = true → m.var x = some r → ∀ y, y ≠ x → m.var y ≠ some r

theorem keeps_iff (t : Attr) : t.keeps = true ↔ t = .matrix ∨ t = .rotation ∨ t = .orientation := by
  cases t <;> simp [Attr.keeps]

theorem slot_point (m : Mem K) (o t r o' t') : (m.point o t r).slot o' t' = if o' = o ∧ t' = t then r else m.slot o' t' := by
  simp only [Mem.point, Function.update_apply]
  by_cases h : o' = o
  · subst h; by_cases h' : t' = t <;> simp [h', Function.update_apply]
  · simp [h]

theorem slot_place (m : Mem K) (o t a o' t') : (m.place o t a).slot o' t' = if o' = o ∧ t' = t then some m.next else m.slot o' t' :=
  slot_point m o t _ o' t'

theorem minV_aux (ps : List (V3 K)) (p : V3 K) : (∀ q ∈ p :: ps, (Rdf.minV p ps).x ≤ q.x ∧ (Rdf.minV p ps).y ≤ q.y ∧ (Rdf.minV p ps).z ≤ q.z) ∧
    (∃ q ∈ p :: ps, q.x = (Rdf.minV p ps).x) ∧ (∃ q ∈ p :: ps, q.y = (Rdf.minV p ps).y) ∧ (∃ q ∈ p :: ps, q.z = (Rdf.minV p ps).z) := by
  induction ps generalizing p with
  | nil => simp [Rdf.minV]
  | cons b ps ih =>
    obtain ⟨h, ⟨q1, m1, e1⟩, ⟨q2, m2, e2⟩, ⟨q3, m3, e3⟩⟩ := ih ⟨min p.x b.x, min p.y b.y, min p.z b.z⟩
    have E : Rdf.minV p (b :: ps) = Rdf.minV ⟨min p.x b.x, min p.y b.y, min p.z b.z⟩ ps := rfl
    rw [E]
    set M := Rdf.minV ⟨min p.x b.x, min p.y b.y, min p.z b.z⟩ ps
    have h0 := h _ (List.mem_cons_self ..)
    simp only [le_min_iff] at h0
    refine ⟨?_, ?_, ?_, ?_⟩
    · intro q hq
      rcases List.mem_cons.1 hq with rfl | hq
      · tauto
      · rcases List.mem_cons.1 hq with rfl | hq
        · tauto
        · exact h q (List.mem_cons_of_mem _ hq)
    · rcases List.mem_cons.1 m1 with rfl | hq
      · rcases min_choice p.x b.x with c | c
        · exact ⟨p, by simp, by rw [← e1]; exact c.symm⟩
        · exact ⟨b, by simp, by rw [← e1]; exact c.symm⟩
      · exact ⟨q1, by simp [hq], e1⟩
    · rcases List.mem_cons.1 m2 with rfl | hq
      · rcases min_choice p.y b.y with c | c
        · exact ⟨p, by simp, by rw [← e2]; exact c.symm⟩
        · exact ⟨b, by simp, by rw [← e2]; exact c.symm⟩
      · exact ⟨q2, by simp [hq], e2⟩
    · rcases List.mem_cons.1 m3 with rfl | hq
      · rcases min_choice p.z b.z with c | c
        · exact ⟨p, by simp, by rw [← e3]; exact c.symm⟩
        · exact ⟨b, by simp, by rw [← e3]; exact c.symm⟩
      · exact ⟨q3, by simp [hq], e3⟩

theorem rdf_lowered (c : K) (px py pz) (a : List (V3 K)) : Lowered a (Rdf.calcRdf c px py pz a).1 := by
  cases a with
  | nil => exact ⟨⟨0, 0, 0⟩, by simp [Rdf.calcRdf], by simp⟩
  | cons p ps => exact ⟨Rdf.minV p ps, rfl, fun _ => minV_aux ps p⟩

/-- A write through a variable of the user's own, on both sides. -/
theorem write_own {own : ℕ → Bool} {m : Mem K} (h : Apart own m) {x r : ℕ} (hx : own x = true) (hr : m.var x = some r) (b : List (V3 K)) :
    let m' : Mem K := { m with cell := Function.update m.cell r b }
    m'.val = m.val ∧ m'.arr = Function.update m.arr x (some b) := by
  refine ⟨?_, ?_⟩
  · funext o t
    have := h.slot x r hx hr o t
    simp only [Mem.val]
    cases hs : m.slot o t with
    | none => rfl
    | some q => simp only [Option.map_some]; rw [Function.update_of_ne]; rintro rfl; exact this hs
  · funext y
    simp only [Mem.arr]
    by_cases hy : y = x
    · subst hy; simp [hr]
    · rw [Function.update_of_ne hy]
      have := h.var x r hx hr y hy
      cases hs : m.var y with
      | none => simp [Mem.arr, hs]
      | some q => simp only [Mem.arr, hs, Option.map_some]; rw [Function.update_of_ne]; rintro rfl; exact this hs

theorem map_fresh {m : Mem K} {r : Option ℕ} (h : ∀ q, r = some q → q < m.next) (a : List (V3 K)) :
    r.map (Function.update m.cell m.next a) = r.map m.cell := by
  cases r with
  | none => rfl
  | some q => simp only [Option.map_some]; rw [Function.update_of_ne]; exact (h q rfl).ne

theorem val_place {own : ℕ → Bool} {m : Mem K} (h : Apart own m) (o t a) :
    (m.place o t a).val = Function.update m.val o (Function.update (m.val o) t (some a)) ∧ (m.place o t a).arr = m.arr := by
  refine ⟨?_, ?_⟩
  · funext o' t'
    simp only [Mem.val, slot_place]
    by_cases ho : o' = o
    · subst ho
      by_cases ht : t' = t
      · subst ht; simp [Mem.place]
      · simp only [ht, and_false, if_false, Function.update_self, Function.update_of_ne ht, Mem.val]
        exact map_fresh (fun q hq => h.slots _ _ _ hq) a
    · simp only [ho, false_and, if_false, Function.update_of_ne ho, Mem.val]
      exact map_fresh (fun q hq => h.slots _ _ _ hq) a
  · funext x
    exact map_fresh (fun q hq => h.vars _ _ hq) a

theorem val_point (m : Mem K) (o t r) :
    (m.point o t r).val = Function.update m.val o (Function.update (m.val o) t (r.map m.cell)) ∧ (m.point o t r).arr = m.arr := by
  refine ⟨?_, rfl⟩
  funext o' t'
  simp only [Mem.val, slot_point]
  by_cases ho : o' = o
  · subst ho
    by_cases ht : t' = t
    · subst ht; simp [Mem.point]
    · simp [ht, Function.update_of_ne ht, Mem.val, Mem.point]
  · simp [ho, Function.update_of_ne ho, Mem.val, Mem.point]

theorem val_fresh {own : ℕ → Bool} {m : Mem K} (h : Apart own m) (x a) :
    (m.fresh x a).val = m.val ∧ (m.fresh x a).arr = Function.update m.arr x (some a) := by
  refine ⟨?_, ?_⟩
  · funext o t
    exact map_fresh (fun q hq => h.slots _ _ _ hq) a
  · funext y
    simp only [Mem.arr, Mem.fresh]
    by_cases hy : y = x
    · subst hy; simp
    · rw [Function.update_of_ne hy, Function.update_of_ne hy]
      exact map_fresh (fun q hq => h.vars _ _ hq) a

theorem apart_place {own : ℕ → Bool} {m : Mem K} (h : Apart own m) (o t a) : Apart own (m.place o t a) := by
  constructor
  · intro o' t' r hr
    rw [slot_place] at hr
    show r < m.next + 1
    split_ifs at hr with c
    · cases hr; omega
    · have := h.slots _ _ _ hr; omega
  · intro x r hr
    have := h.vars x r hr
    show r < m.next + 1
    omega
  · intro x r hx hr o' t' hs
    rw [slot_place] at hs
    split_ifs at hs with c
    · cases hs; exact absurd (h.vars x _ hr) (lt_irrefl _)
    · exact h.slot x r hx hr o' t' hs
  · exact fun x r hx hr => h.var x r hx hr

theorem apart_none {own : ℕ → Bool} {m : Mem K} (h : Apart own m) (o t) : Apart own (m.point o t none) := by
  constructor
  · intro o' t' r hr
    rw [slot_point] at hr
    split_ifs at hr
    exact h.slots _ _ _ hr
  · exact h.vars
  · intro x r hx hr o' t' hs
    rw [slot_point] at hs
    split_ifs at hs
    exact h.slot x r hx hr o' t' hs
  · exact h.var

/-- One statement of a careful program: the memory holds what the values say. -/
theorem step_plain {own : ℕ → Bool} {m : Mem K} (h : Apart own m) (a : Act K)
    (hw : ∀ x, (∃ g, a = .write x g) ∨ (∃ c px py pz, a = .rdf x c px py pz) → own x = true) :
    Apart (owns own a) (step m a) ∧ Plain.Step ⟨m.val, m.arr⟩ a ⟨(step m a).val, (step m a).arr⟩ := by
  cases a with
  | gather x f =>
    refine ⟨?_, ?_⟩
    · constructor
      · intro o t r hr
        have := h.slots o t r hr
        show r < m.next + 1
        omega
      · intro y r hr
        show r < m.next + 1
        simp only [step, Mem.fresh, Function.update_apply] at hr
        split_ifs at hr with c
        · cases hr; omega
        · have := h.vars y r hr; omega
      · intro y r hy hr o t hs
        simp only [step, Mem.fresh, Function.update_apply] at hr
        split_ifs at hr with c
        · cases hr; exact absurd (h.slots o t _ hs) (lt_irrefl _)
        · simp only [owns, Function.update_of_ne c] at hy
          exact h.slot y r hy hr o t hs
      · intro y r hy hr z hz hs
        simp only [step, Mem.fresh, Function.update_apply] at hr hs
        split_ifs at hr hs with c d
        · exact hz (d.trans c.symm)
        · cases hr; exact absurd (h.vars z _ hs) (lt_irrefl _)
        · cases hs; exact absurd (h.vars y _ hr) (lt_irrefl _)
        · simp only [owns, Function.update_of_ne c] at hy
          exact h.var y r hy hr z hz hs
    · simp only [step]
      rw [(val_fresh h x _).1, (val_fresh h x _).2]
      exact Plain.Step.gather ⟨m.val, m.arr⟩ x f
  | get x o t =>
    refine ⟨?_, ?_⟩
    · constructor
      · exact h.slots
      · intro y r hr
        simp only [step, Function.update_apply] at hr
        split_ifs at hr with c
        · exact h.slots o t r hr
        · exact h.vars y r hr
      · intro y r hy hr o' t' hs
        simp only [owns, Function.update_apply] at hy
        split_ifs at hy with c
        simp only [step, Function.update_of_ne c] at hr
        exact h.slot y r hy hr o' t' hs
      · intro y r hy hr z hz hs
        simp only [owns, Function.update_apply] at hy
        split_ifs at hy with c
        simp only [step, Function.update_of_ne c] at hr
        simp only [step, Function.update_apply] at hs
        split_ifs at hs with d
        · exact h.slot y r hy hr o t hs
        · exact h.var y r hy hr z hz hs
    · have e : (step m (.get x o t)).arr = Function.update m.arr x (m.val o t) := by
        funext y
        simp only [step, Mem.arr, Function.update_apply]
        split_ifs <;> rfl
      rw [e]
      exact Plain.Step.get ⟨m.val, m.arr⟩ x o t
  | bind x y =>
    refine ⟨?_, ?_⟩
    · constructor
      · exact h.slots
      · intro z r hr
        simp only [step, Function.update_apply] at hr
        split_ifs at hr with c
        · exact h.vars y r hr
        · exact h.vars z r hr
      · intro z r hz hr o' t' hs
        simp only [owns, Function.update_apply] at hz
        split_ifs at hz with c d
        simp only [step, Function.update_of_ne c] at hr
        exact h.slot z r hz hr o' t' hs
      · intro z r hz hr w hw' hs
        simp only [owns, Function.update_apply] at hz
        split_ifs at hz with c d
        simp only [step, Function.update_of_ne c] at hr
        simp only [step, Function.update_apply] at hs
        split_ifs at hs with e
        · exact h.var z r hz hr y (fun e => d e.symm) hs
        · exact h.var z r hz hr w hw' hs
    · have e : (step m (.bind x y)).arr = Function.update m.arr x (m.arr y) := by
        funext z
        simp only [step, Mem.arr, Function.update_apply]
        split_ifs <;> rfl
      rw [e]
      exact Plain.Step.bind ⟨m.val, m.arr⟩ x y
  | assign o t x g =>
    cases hx : m.var x with
    | none =>
      have e : step m (.assign o t x g) = m := by simp [step, hx]
      rw [e]
      refine ⟨?_, Plain.Step.assign_none ⟨m.val, m.arr⟩ o t x g (by simp [Mem.arr, hx])⟩
      simp only [owns]
      split_ifs
      · refine ⟨h.slots, h.vars, fun y r hy => ?_, fun y r hy => ?_⟩
        · simp only [Function.update_apply] at hy
          split_ifs at hy
          exact h.slot y r hy
        · simp only [Function.update_apply] at hy
          split_ifs at hy
          exact h.var y r hy
      · exact h
    | some r =>
      by_cases hk : t.keeps = true
      · have e : step m (.assign o t x g) = m.point o t (some r) := by simp [step, hx, hk]
        rw [e, (val_point m o t _).1, (val_point m o t _).2]
        refine ⟨?_, ?_⟩
        · simp only [owns, if_pos ((keeps_iff t).1 hk)]
          constructor
          · intro o' t' q hq
            rw [slot_point] at hq
            split_ifs at hq with c
            · cases hq; exact h.vars x _ hx
            · exact h.slots o' t' q hq
          · exact h.vars
          · intro y q hy hq o' t' hs
            simp only [Function.update_apply] at hy
            split_ifs at hy with c
            rw [slot_point] at hs
            split_ifs at hs with d
            · cases hs; exact h.var y _ hy hq x (fun e => c e.symm) hx
            · exact h.slot y q hy hq o' t' hs
          · intro y q hy hq
            simp only [Function.update_apply] at hy
            split_ifs at hy with c
            exact h.var y q hy hq
        · have := Plain.Step.assign ⟨m.val, m.arr⟩ o t x g (m.cell r) (by simp [Mem.arr, hx])
          simpa [hk] using this
      · have e : step m (.assign o t x g) = m.place o t (g (m.cell r)) := by simp [step, hx, hk]
        rw [e, (val_place h o t _).1, (val_place h o t _).2]
        refine ⟨?_, ?_⟩
        · simp only [owns, if_neg (fun c => hk ((keeps_iff t).2 c))]
          exact apart_place h o t _
        · have := Plain.Step.assign ⟨m.val, m.arr⟩ o t x g (m.cell r) (by simp [Mem.arr, hx])
          simpa [hk] using this
  | renew o t f =>
    have P := Plain.Step.renew ⟨m.val, m.arr⟩ o t f
    simp only at P
    simp only [step, owns]
    cases hf : f m.val with
    | none =>
      simp only
      rw [(val_point m o t _).1, (val_point m o t _).2]
      rw [hf] at P
      exact ⟨apart_none h o t, P⟩
    | some a =>
      simp only
      rw [(val_place h o t _).1, (val_place h o t _).2]
      rw [hf] at P
      exact ⟨apart_place h o t a, P⟩
  | write x g =>
    have ho := hw x (Or.inl ⟨g, rfl⟩)
    cases hx : m.var x with
    | none =>
      have e : step m (.write x g) = m := by simp [step, hx]
      rw [e]
      exact ⟨h, Plain.Step.write_none ⟨m.val, m.arr⟩ x g (by simp [Mem.arr, hx])⟩
    | some r =>
      have e : step m (.write x g) = { m with cell := Function.update m.cell r (g (m.cell r)) } := by simp [step, hx]
      rw [e]
      have w := write_own h ho hx (g (m.cell r))
      simp only at w
      rw [w.1, w.2]
      exact ⟨⟨h.slots, h.vars, h.slot, h.var⟩, Plain.Step.write ⟨m.val, m.arr⟩ x g (m.cell r) (by simp [Mem.arr, hx])⟩
  | rdf x c px py pz =>
    have ho := hw x (Or.inr ⟨c, px, py, pz, rfl⟩)
    cases hx : m.var x with
    | none =>
      have e : step m (.rdf x c px py pz) = m := by simp [step, hx]
      rw [e]
      exact ⟨h, Plain.Step.rdf_none ⟨m.val, m.arr⟩ x c px py pz (by simp [Mem.arr, hx])⟩
    | some r =>
      have e : step m (.rdf x c px py pz) = { m with cell := Function.update m.cell r (Rdf.calcRdf c px py pz (m.cell r)).1 } := by simp [step, hx]
      rw [e]
      have w := write_own h ho hx (Rdf.calcRdf c px py pz (m.cell r)).1
      simp only at w
      rw [w.1, w.2]
      exact ⟨⟨h.slots, h.vars, h.slot, h.var⟩,
        Plain.Step.rdf ⟨m.val, m.arr⟩ x c px py pz (m.cell r) _ (by simp [Mem.arr, hx]) (rdf_lowered c px py pz _)⟩

theorem run_plain (as : List (Act K)) : ∀ (own : ℕ → Bool) (m : Mem K), Apart own m → Careful own as →
    Plain.Run ⟨m.val, m.arr⟩ as ⟨(run m as).val, (run m as).arr⟩ := by
  induction as with
  | nil => intro own m _ _; exact Plain.Run.nil _
  | cons a as ih =>
    intro own m h hc
    obtain ⟨h1, h2⟩ := step_plain h a hc.1
    exact Plain.Run.cons h2 (ih _ _ h1 hc.2)

theorem apart_empty (own : ℕ → Bool) : Apart own (Mem.empty : Mem K) :=
  ⟨fun _ _ _ h => by simp [Mem.empty] at h, fun _ _ h => by simp [Mem.empty] at h, fun _ _ _ h => by simp [Mem.empty] at h,
    fun _ _ _ h => by simp [Mem.empty] at h⟩

/-- C122.  A program that changes arrays in place (itself, or through `calc_rdf`) only when they are its own - made by the program, or the
result of an expression such as `scene.all_atoms` -, and after handing them to nothing but the setters that copy, can regard arrays as
values: every attribute of every object and every variable contains what it would contain if nothing were shared. -/
theorem C122_arrays_as_values_partial (as : List (Act K)) (h : Careful (fun _ => false) as) :
    Plain.Run ⟨fun _ _ => none, fun _ => none⟩ as ⟨(run Mem.empty as).val, (run Mem.empty as).arr⟩ :=
  run_plain as _ _ (apart_empty _) h

/-! ## What is handed out -/

/-- No attribute holds the array of another one.  True as long as nothing is assigned to the keeping attributes. -/
def Single (m : Mem K) : Prop :=
  (∀ o t r, m.slot o t = some r → r < m.next) ∧ (∀ x r, m.var x = some r → r < m.next) ∧
    ∀ o t o' t' r, m.slot o t = some r → m.slot o' t' = some r → o = o' ∧ t = t'

theorem single_place {m : Mem K} (h : Single m) (o t a) : Single (m.place o t a) := by
  obtain ⟨h1, h2, h3⟩ := h
  refine ⟨fun o' t' r hr => ?_, fun x r hr => ?_, fun o1 t1 o2 t2 r hr hs => ?_⟩
  · rw [slot_place] at hr
    show r < m.next + 1
    split_ifs at hr
    · cases hr; omega
    · have := h1 _ _ _ hr; omega
  · have := h2 x r hr
    show r < m.next + 1
    omega
  · rw [slot_place] at hr hs
    split_ifs at hr hs with c d
    · exact ⟨c.1.trans d.1.symm, c.2.trans d.2.symm⟩
    · cases hr; exact absurd (h1 _ _ _ hs) (lt_irrefl _)
    · cases hs; exact absurd (h1 _ _ _ hr) (lt_irrefl _)
    · exact h3 _ _ _ _ _ hr hs

theorem single_step {m : Mem K} (h : Single m) (a : Act K)
    (hk : ∀ o t x g, a = .assign o t x g → t ≠ .matrix ∧ t ≠ .rotation ∧ t ≠ .orientation) : Single (step m a) := by
  obtain ⟨h1, h2, h3⟩ := h
  cases a with
  | gather x f =>
    refine ⟨fun o t r hr => ?_, fun y r hr => ?_, h3⟩
    · have := h1 o t r hr
      show r < m.next + 1
      omega
    · simp only [step, Mem.fresh, Function.update_apply] at hr
      show r < m.next + 1
      split_ifs at hr
      · cases hr; omega
      · have := h2 y r hr; omega
  | get x o t =>
    refine ⟨h1, fun y r hr => ?_, h3⟩
    simp only [step, Function.update_apply] at hr
    split_ifs at hr
    · exact h1 _ _ _ hr
    · exact h2 _ _ hr
  | bind x y =>
    refine ⟨h1, fun z r hr => ?_, h3⟩
    simp only [step, Function.update_apply] at hr
    split_ifs at hr
    · exact h2 _ _ hr
    · exact h2 _ _ hr
  | assign o t x g =>
    obtain ⟨k1, k2, k3⟩ := hk o t x g rfl
    have hk' : t.keeps = false := by
      cases hh : t.keeps with
      | false => rfl
      | true => rcases (keeps_iff t).1 hh with c | c | c <;> contradiction
    simp only [step]
    cases m.var x with
    | none => exact ⟨h1, h2, h3⟩
    | some r => simp only [hk', Bool.false_eq_true, if_false]; exact single_place ⟨h1, h2, h3⟩ o t _
  | renew o t f =>
    simp only [step]
    cases f m.val with
    | none =>
      refine ⟨fun o' t' r hr => ?_, h2, fun o1 t1 o2 t2 r hr hs => ?_⟩
      · rw [slot_point] at hr; split_ifs at hr; exact h1 _ _ _ hr
      · rw [slot_point] at hr hs; split_ifs at hr hs; exact h3 _ _ _ _ _ hr hs
    | some a => exact single_place ⟨h1, h2, h3⟩ o t a
  | write x g =>
    simp only [step]
    cases m.var x with
    | none => exact ⟨h1, h2, h3⟩
    | some r => exact ⟨h1, h2, h3⟩
  | rdf x c px py pz =>
    simp only [step]
    cases m.var x with
    | none => exact ⟨h1, h2, h3⟩
    | some r => exact ⟨h1, h2, h3⟩

theorem single_run (as : List (Act K)) : ∀ m : Mem K, Single m →
    (∀ a ∈ as, ∀ o t x g, a = .assign o t x g → t ≠ .matrix ∧ t ≠ .rotation ∧ t ≠ .orientation) → Single (run m as) := by
  induction as with
  | nil => exact fun m h _ => h
  | cons a as ih =>
    intro m h hk
    exact ih _ (single_step h a (hk a (by simp))) (fun b hb => hk b (by simp [hb]))

/-- C122.  An array obtained from an attribute is the one the object works with: written in place, that attribute changes
(to the array as it is then), and, when nothing has been assigned to the three keeping attributes, no other attribute of any object. -/
theorem C122_handed_out (as : List (Act K)) (x o : ℕ) (t : Attr) (g : List (V3 K) → List (V3 K)) :
    let m := run Mem.empty (as ++ [.get x o t])
    let m' := run Mem.empty (as ++ [.get x o t, .write x g])
    m'.val o t = (m.val o t).map g ∧
    ((∀ a ∈ as, ∀ o t x g, a = .assign o t x g → t ≠ .matrix ∧ t ≠ .rotation ∧ t ≠ .orientation) →
      ∀ o' t', (o', t') ≠ (o, t) → m'.val o' t' = m.val o' t') := by
  simp only [run, List.foldl_append, List.foldl_cons, List.foldl_nil]
  have hS : (∀ a ∈ as, ∀ o t x g, a = .assign o t x g → t ≠ .matrix ∧ t ≠ .rotation ∧ t ≠ .orientation) → Single (as.foldl step (Mem.empty : Mem K)) :=
    fun h => single_run as Mem.empty ⟨fun _ _ _ h => by simp [Mem.empty] at h, fun _ _ h => by simp [Mem.empty] at h,
      fun _ _ _ _ _ h => by simp [Mem.empty] at h⟩ h
  generalize as.foldl step (Mem.empty : Mem K) = m at hS
  cases hs : m.slot o t with
  | none => simp [step, hs, Mem.val]
  | some r =>
    refine ⟨by simp [step, hs, Mem.val], fun hk o' t' hne => ?_⟩
    simp only [step, hs, Function.update_self, Mem.val]
    cases hq : m.slot o' t' with
    | none => rfl
    | some q =>
      simp only [Option.map_some]
      rw [Function.update_of_ne]
      rintro rfl
      obtain ⟨rfl, rfl⟩ := (hS hk).2.2 _ _ _ _ _ hq hs
      exact hne rfl

/-- C122.  After `x = ob.attribute`, once the object has been given a new array by a method (the next `populate_atoms`, `transform`, ...) the
array in hand is nobody's: writing it changes no attribute. -/
theorem C122_until_renewed (as : List (Act K)) (x o : ℕ) (t : Attr) (f) (g : List (V3 K) → List (V3 K))
    (hk : ∀ a ∈ as, ∀ o t x g, a = .assign o t x g → t ≠ .matrix ∧ t ≠ .rotation ∧ t ≠ .orientation) :
    (run Mem.empty (as ++ [.get x o t, .renew o t f, .write x g])).val = (run Mem.empty (as ++ [.get x o t, .renew o t f])).val := by
  simp only [run, List.foldl_append, List.foldl_cons, List.foldl_nil]
  have hS : Single (as.foldl step (Mem.empty : Mem K)) :=
    single_run as Mem.empty ⟨fun _ _ _ h => by simp [Mem.empty] at h, fun _ _ h => by simp [Mem.empty] at h,
      fun _ _ _ _ _ h => by simp [Mem.empty] at h⟩ hk
  generalize as.foldl step (Mem.empty : Mem K) = m at hS
  set m1 := step m (.get x o t) with hm1
  have hv : m1.var x = m.slot o t := by simp [hm1, step]
  have hsl : m1.slot = m.slot := rfl
  have hnx : m1.next = m.next := rfl
  have hv2 : (step m1 (.renew o t f)).var x = m.slot o t := by
    simp only [step]
    cases f m1.val <;> exact hv
  cases hs : m.slot o t with
  | none =>
    have : step (step m1 (.renew o t f)) (.write x g) = step m1 (.renew o t f) := by
      show (match (step m1 (.renew o t f)).var x with
        | none => step m1 (.renew o t f)
        | some r => { step m1 (.renew o t f) with cell := _ }) = _
      rw [hv2, hs]
    rw [this]
  | some r =>
    have hne : ∀ o' t', (step m1 (.renew o t f)).slot o' t' ≠ some r := by
      intro o' t' hq
      simp only [step] at hq
      cases hf : f m1.val with
      | none =>
        rw [hf] at hq
        simp only [slot_point] at hq
        split_ifs at hq with c
        exact c (hS.2.2 _ _ _ _ _ (hsl ▸ hq) hs)
      | some a =>
        rw [hf] at hq
        simp only [slot_place] at hq
        split_ifs at hq with c
        · cases hq; exact absurd (hS.1 _ _ _ hs) (by rw [hnx]; exact lt_irrefl _)
        · exact c (hS.2.2 _ _ _ _ _ (hsl ▸ hq) hs)
    have e : step (step m1 (.renew o t f)) (.write x g) = { step m1 (.renew o t f) with
        cell := Function.update (step m1 (.renew o t f)).cell r (g ((step m1 (.renew o t f)).cell r)) } := by
      show (match (step m1 (.renew o t f)).var x with
        | none => step m1 (.renew o t f)
        | some r => { step m1 (.renew o t f) with cell := Function.update (step m1 (.renew o t f)).cell r (g ((step m1 (.renew o t f)).cell r)) }) = _
      rw [hv2, hs]
    rw [e]
    generalize step m1 (.renew o t f) = m2 at hne
    funext o' t'
    simp only [Mem.val]
    cases hq : m2.slot o' t' with
    | none => rfl
    | some q => simp only [Option.map_some]; rw [Function.update_of_ne]; rintro rfl; exact hne o' t' hq

/-- C122.  `calc_rdf(x)` is a write in place: it leaves the array lowered to the corner of its bounding box, and does to every attribute and
variable what this write by the user would do. -/
theorem C122_calc_rdf_writes (c : K) (px py pz : Bool) : ∃ g : List (V3 K) → List (V3 K), (∀ a, Lowered a (g a)) ∧
    ∀ (m : Mem K) (x : ℕ), step m (.rdf x c px py pz) = step m (.write x g) :=
  ⟨fun a => (Rdf.calcRdf c px py pz a).1, rdf_lowered c px py pz, fun _ _ => rfl⟩

/-! ## Where it fails -/

/-- A molecule with two atoms, its radial distribution function computed from `mol.atoms`. -/
def measured : List (Act ℚ) :=
  [.gather 0 (fun _ _ => [⟨1, 2, 3⟩, ⟨4, 4, 4⟩]), .assign 7 .positions 0 id, .get 1 7 .positions, .rdf 1 20 true true true]

/-- One matrix given to two rotations and changed afterwards. -/
def shared : List (Act ℚ) :=
  [.gather 0 (fun _ _ => [⟨1, 0, 0⟩, ⟨0, 1, 0⟩, ⟨0, 0, 1⟩]), .assign 1 .rotation 0 id, .assign 2 .rotation 0 id,
    .write 0 (fun _ => [⟨2, 0, 0⟩, ⟨0, 1, 0⟩, ⟨0, 0, 1⟩])]

/-- C122 without the condition is false.  Computing `calc_rdf(mol.atoms)` moves the molecule: its lowest coordinates are at zero
afterwards, where as a value it would not have moved.  And a Rotation keeps the array it was given: changed later, two rotations are no
rotations any more, although both passed the check (transform.py:284-290). -/
theorem C122_shared_refuted :
    ((run Mem.empty measured).val 7 .positions = some [⟨0, 0, 0⟩, ⟨3, 2, 1⟩] ∧
      ∀ p, Plain.Run ⟨fun _ _ => none, fun _ => none⟩ measured p → p.attr 7 .positions = some [⟨1, 2, 3⟩, ⟨4, 4, 4⟩]) ∧
    ((run Mem.empty shared).val 1 .rotation = some [⟨2, 0, 0⟩, ⟨0, 1, 0⟩, ⟨0, 0, 1⟩] ∧
      (run Mem.empty shared).val 2 .rotation = some [⟨2, 0, 0⟩, ⟨0, 1, 0⟩, ⟨0, 0, 1⟩] ∧
      ∀ p, Plain.Run ⟨fun _ _ => none, fun _ => none⟩ shared p → p.attr 1 .rotation = some [⟨1, 0, 0⟩, ⟨0, 1, 0⟩, ⟨0, 0, 1⟩]) := by
  refine ⟨⟨by decide +kernel, fun p hp => ?_⟩, by decide +kernel, by decide +kernel, fun p hp => ?_⟩
  · cases hp with | cons h1 hp => cases hp with | cons h2 hp => cases hp with | cons h3 hp => cases hp with | cons h4 hp =>
    cases hp
    cases h1; cases h3
    cases h2 with
    | assign _ _ _ _ a ha =>
      simp only [Function.update_self, Option.some.injEq] at ha
      subst ha
      cases h4 <;> rfl
    | assign_none _ _ _ _ ha => simp at ha
  · cases hp with | cons h1 hp => cases hp with | cons h2 hp => cases hp with | cons h3 hp => cases hp with | cons h4 hp =>
    cases hp
    cases h1
    cases h2 with
    | assign _ _ _ _ a ha =>
      simp only [Function.update_self, Option.some.injEq] at ha
      subst ha
      cases h3 <;> cases h4 <;> rfl
    | assign_none _ _ _ _ ha => simp at ha

/-- A volume is populated, the atoms of the scene are gathered and `calc_rdf` is computed from them: the program is careful. -/
example : Careful (fun _ => false) ([.gather 0 (fun _ _ => [⟨1, 2, 3⟩]), .assign 1 .center 0 id, .write 0 (fun _ => []),
    .renew 1 .atoms (fun v => v 1 .center), .gather 2 (fun v _ => (v 1 .atoms).getD []), .rdf 2 5 true true true] : List (Act ℚ)) := by
  simp [Careful, owns]

end Arrays
end CZ
