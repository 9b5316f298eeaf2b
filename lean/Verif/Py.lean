import Mathlib.Tactic.Ring
import Mathlib.Tactic.Linarith
import Mathlib.Tactic.NormNum
import Mathlib.Tactic.FieldSimp
import Mathlib.Tactic.Positivity
import Mathlib.Tactic.LinearCombination
import Mathlib.Tactic.Push
import Mathlib.Tactic.Cases
import Mathlib.Tactic.IntervalCases
import Mathlib.Tactic.ByContra
import Mathlib.Tactic.Use
import Mathlib.Tactic.Set
import Mathlib.Tactic.Have
import Mathlib.Tactic.Tauto
import Mathlib.Tactic.SplitIfs
import Mathlib.Tactic.Contrapose
import Mathlib.Tactic.GCongr
import Mathlib.Tactic.FinCases
import Mathlib.Tactic.Choose
import Mathlib.Data.List.Basic
import Mathlib.Data.List.Perm.Basic
import Mathlib.Data.List.Dedup
import Mathlib.Data.List.Count
import Mathlib.Data.Int.Basic

/-!
# Python and numpy primitives used by the model

Exceptions are values of `PyErr`.  `np.*` helpers are defined here once and cited by the models.
-/

namespace CZ

/-- Kinds of Python exceptions raised by the modelled code.  `nan` is not an exception in Python: it marks the
places where numpy would divide by a zero norm and go on with NaN entries (DESIGN.md, numeric idealisation). -/
inductive PyErr
  | assertion | value | type | index | notImplemented | attribute | linAlg | unboundLocal | runtime | zeroDivision | nan
  deriving DecidableEq, Repr

/-- Result of a Python expression that may raise. -/
abbrev Py (α : Type) := Except PyErr α

/-- numpy boolean-mask selection `a[mask]` / `a[mask, :]` for a mask of the same length
(used at czone/scene/scene.py:87,93,109 and czone/volume/volume.py:352-353,501-503).
Rows whose mask entry is `True` are kept, in order. -/
def maskSel {α : Type} : List Bool → List α → List α
  | b :: bs, x :: xs => if b then x :: maskSel bs xs else maskSel bs xs
  | _, _ => []

/-- `a[mask, :]` including the shape check of numpy: a mask of different length raises IndexError. -/
def npMask {α : Type} (m : List Bool) (xs : List α) : Py (List α) :=
  if m.length = xs.length then .ok (maskSel m xs) else .error .index

/-- `l[i]` with a non-negative index; IndexError when out of range. -/
def pyGet {α : Type} (l : List α) (i : ℕ) : Py α :=
  match l[i]? with
  | some x => .ok x
  | none => .error .index

/-- `np.logical_and(a, b)` on equally long boolean arrays. -/
def npAnd (a b : List Bool) : List Bool := List.zipWith (· && ·) a b

/-- `np.logical_or(a, b)` on equally long boolean arrays. -/
def npOr (a b : List Bool) : List Bool := List.zipWith (· || ·) a b

/-- `np.logical_not(a)`. -/
def npNot (a : List Bool) : List Bool := a.map (!·)

/-- Insert before the first element whose key is not smaller. -/
def insertByKey {α : Type} (key : α → ℤ) (a : α) : List α → List α
  | [] => [a]
  | b :: l => if key a ≤ key b then a :: b :: l else b :: insertByKey key a l

/-- `list.sort(key=...)`: Python's sort is stable; all stable sorts give the same list, so an insertion sort stands
for it (sorted: `stableSort_sorted`, permutation: `stableSort_perm`, stable: `stableSort_filter`). -/
def stableSort {α : Type} (key : α → ℤ) : List α → List α
  | [] => []
  | a :: l => insertByKey key a (stableSort key l)

/-- Second result of `np.unique(xs, return_index=True)`: for every distinct value, in increasing order, the index
of its first occurrence (czone/scene/scene.py:126, czone/volume/volume.py:448). -/
def npUniqueIdx (xs : List ℤ) : List ℕ :=
  (stableSort id xs.dedup).map (fun v => xs.idxOf v)

/-! ## basic facts -/

theorem insertByKey_perm {α : Type} (key : α → ℤ) (a : α) (l : List α) :
    (insertByKey key a l).Perm (a :: l) := by
  induction l with
  | nil => exact List.Perm.refl _
  | cons b l ih =>
    rw [insertByKey]
    split
    · exact List.Perm.refl _
    · exact (List.Perm.cons b ih).trans (List.Perm.swap a b l)

theorem stableSort_perm {α : Type} (key : α → ℤ) (l : List α) : (stableSort key l).Perm l := by
  induction l with
  | nil => exact List.Perm.refl _
  | cons a l ih => exact (insertByKey_perm key a _).trans (List.Perm.cons a ih)

theorem insertByKey_sorted {α : Type} (key : α → ℤ) (a : α) (l : List α)
    (h : l.Pairwise (fun x y => key x ≤ key y)) :
    (insertByKey key a l).Pairwise (fun x y => key x ≤ key y) := by
  induction l with
  | nil => simp [insertByKey]
  | cons b l ih =>
    rw [List.pairwise_cons] at h
    rw [insertByKey]
    split
    · rename_i hab
      rw [List.pairwise_cons]
      refine ⟨?_, List.pairwise_cons.mpr h⟩
      intro x hx
      rcases List.mem_cons.mp hx with rfl | hx
      · exact hab
      · exact le_trans hab (h.1 x hx)
    · rename_i hab
      rw [List.pairwise_cons]
      refine ⟨?_, ih h.2⟩
      intro x hx
      rcases List.mem_cons.mp ((insertByKey_perm key a l).mem_iff.mp hx) with rfl | hx
      · omega
      · exact h.1 x hx

theorem stableSort_sorted {α : Type} (key : α → ℤ) (l : List α) :
    (stableSort key l).Pairwise (fun x y => key x ≤ key y) := by
  induction l with
  | nil => simp [stableSort]
  | cons a l ih => exact insertByKey_sorted key a _ ih

theorem insertByKey_of_le {α : Type} (key : α → ℤ) (a : α) (l : List α)
    (h : ∀ x ∈ l, key a ≤ key x) : insertByKey key a l = a :: l := by
  cases l with
  | nil => rfl
  | cons b l => rw [insertByKey, if_pos (h b (by simp))]

theorem insertByKey_filter {α : Type} (key : α → ℤ) (q : α → Bool) (a : α) (l : List α)
    (h : l.Pairwise (fun x y => key x ≤ key y)) :
    (insertByKey key a l).filter q = if q a then insertByKey key a (l.filter q) else l.filter q := by
  induction l with
  | nil => by_cases hq : q a <;> simp [insertByKey, hq]
  | cons b l ih =>
    rw [List.pairwise_cons] at h
    rw [insertByKey]
    split
    · rename_i hab
      by_cases hq : q a
      · rw [List.filter_cons, if_pos hq, if_pos hq, insertByKey_of_le]
        intro x hx
        have hx' := (List.mem_filter.mp hx).1
        rcases List.mem_cons.mp hx' with rfl | hx'
        · exact hab
        · exact le_trans hab (h.1 x hx')
      · rw [List.filter_cons, if_neg hq, if_neg hq]
    · rename_i hab
      rw [List.filter_cons, ih h.2]
      by_cases hb : q b <;> by_cases hq : q a <;> simp [hb, hq, insertByKey, hab]

/-- Stability: filtering commutes with sorting (in particular elements with equal keys keep their order). -/
theorem stableSort_filter {α : Type} (key : α → ℤ) (q : α → Bool) (l : List α) :
    (stableSort key l).filter q = stableSort key (l.filter q) := by
  induction l with
  | nil => rfl
  | cons a l ih =>
    rw [stableSort, insertByKey_filter key q a _ (stableSort_sorted key l), ih, List.filter_cons]
    by_cases hq : q a <;> simp [hq, stableSort]

theorem insertByKey_map {α β : Type} (kα : α → ℤ) (kβ : β → ℤ) (f : α → β) (a : α) (l : List α)
    (h : ∀ x y, kβ (f x) ≤ kβ (f y) ↔ kα x ≤ kα y) :
    (insertByKey kα a l).map f = insertByKey kβ (f a) (l.map f) := by
  induction l with
  | nil => rfl
  | cons b l ih =>
    simp only [insertByKey, List.map_cons, h]
    split <;> simp [ih]

theorem stableSort_map {α β : Type} (kα : α → ℤ) (kβ : β → ℤ) (f : α → β) (l : List α)
    (h : ∀ x y, kβ (f x) ≤ kβ (f y) ↔ kα x ≤ kα y) :
    (stableSort kα l).map f = stableSort kβ (l.map f) := by
  induction l with
  | nil => rfl
  | cons a l ih => rw [stableSort, insertByKey_map kα kβ f a _ h, ih]; rfl

@[simp] theorem stableSort_length {α : Type} (key : α → ℤ) (l : List α) :
    (stableSort key l).length = l.length := (stableSort_perm key l).length_eq

@[simp] theorem mem_stableSort {α : Type} {key : α → ℤ} {l : List α} {a : α} :
    a ∈ stableSort key l ↔ a ∈ l := (stableSort_perm key l).mem_iff

@[simp] theorem maskSel_nil_left {α : Type} (xs : List α) : maskSel [] xs = [] := by
  cases xs <;> rfl

@[simp] theorem maskSel_nil_right {α : Type} (m : List Bool) : maskSel m ([] : List α) = [] := by
  cases m <;> rfl

@[simp] theorem maskSel_cons {α : Type} (b : Bool) (m : List Bool) (x : α) (xs : List α) :
    maskSel (b :: m) (x :: xs) = if b then x :: maskSel m xs else maskSel m xs := rfl

/-- Selecting with a mask computed from the elements is filtering. -/
theorem maskSel_map {α : Type} (f : α → Bool) (xs : List α) :
    maskSel (xs.map f) xs = xs.filter f := by
  induction xs with
  | nil => rfl
  | cons x xs ih =>
    simp only [List.map_cons, maskSel_cons, List.filter_cons, ih]

/-- Masks commute with maps of the selected rows. -/
theorem maskSel_map_right {α β : Type} (g : α → β) (m : List Bool) (xs : List α) :
    maskSel m (xs.map g) = (maskSel m xs).map g := by
  induction m generalizing xs with
  | nil => simp
  | cons b m ih =>
    cases xs with
    | nil => simp
    | cons x xs => cases b <;> simp [ih]

/-- Selecting rows of two equally long arrays with one mask keeps them aligned. -/
theorem maskSel_zip {α β : Type} (m : List Bool) (xs : List α) (ys : List β)
    (h : xs.length = ys.length) :
    (maskSel m xs).zip (maskSel m ys) = maskSel m (xs.zip ys) := by
  induction m generalizing xs ys with
  | nil => simp
  | cons b m ih =>
    cases xs with
    | nil => cases ys with
      | nil => simp
      | cons y ys => simp at h
    | cons x xs => cases ys with
      | nil => simp at h
      | cons y ys =>
        have := ih xs ys (by simpa using h)
        cases b <;> simp [this]

theorem maskSel_length_eq {α β : Type} (m : List Bool) (xs : List α) (ys : List β)
    (h : xs.length = ys.length) : (maskSel m xs).length = (maskSel m ys).length := by
  induction m generalizing xs ys with
  | nil => simp
  | cons b m ih =>
    cases xs with
    | nil => cases ys with
      | nil => simp
      | cons y ys => simp at h
    | cons x xs => cases ys with
      | nil => simp at h
      | cons y ys =>
        have := ih xs ys (by simpa using h)
        cases b <;> simp [this]

theorem npAnd_map {α : Type} (f g : α → Bool) (xs : List α) :
    npAnd (xs.map f) (xs.map g) = xs.map (fun x => f x && g x) := by
  induction xs with
  | nil => rfl
  | cons x xs ih => simp [npAnd]

theorem npOr_map {α : Type} (f g : α → Bool) (xs : List α) :
    npOr (xs.map f) (xs.map g) = xs.map (fun x => f x || g x) := by
  induction xs with
  | nil => rfl
  | cons x xs ih => simp [npOr]

theorem npNot_map {α : Type} (f : α → Bool) (xs : List α) :
    npNot (xs.map f) = xs.map (fun x => !(f x)) := by
  simp [npNot, Function.comp_def]

theorem pyGet_ok {α : Type} {l : List α} {i : ℕ} (h : i < l.length) : pyGet l i = .ok l[i] := by
  simp [pyGet, h]

theorem pyGet_err {α : Type} {l : List α} {i : ℕ} (h : l.length ≤ i) :
    pyGet l i = .error .index := by
  have : l[i]? = none := by simpa using h
  simp [pyGet, this]

end CZ
