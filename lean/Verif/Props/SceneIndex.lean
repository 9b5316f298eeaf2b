import Verif.Props.Scene

/-!
# C104: the index of `species_from_object`
-/

namespace CZ
namespace Scene

open Spec (Body Survives contributed contents)

variable {P S : Type}

theorem insertByKey_le {α : Type} (key : α → ℤ) (a : α) (l : List α) (h : ∀ b ∈ l, key a ≤ key b) :
    insertByKey key a l = a :: l := by
  cases l with
  | nil => rfl
  | cons b l => rw [insertByKey, if_pos (h b List.mem_cons_self)]

/-- Sorting a list that is in order changes nothing. -/
theorem stableSort_of_sorted {α : Type} (key : α → ℤ) (l : List α) (h : l.Pairwise fun a b => key a ≤ key b) :
    stableSort key l = l := by
  induction l with
  | nil => rfl
  | cons a l ih =>
    rw [List.pairwise_cons] at h
    rw [stableSort, ih h.2, insertByKey_le key a l h.1]

/-- **C104 (partial).** When objects have been added in order of non-decreasing priority number, `species_from_object(i)`
after `populate()` gives the surviving positions of the i-th object added.  Missing: any other order, because populate sorts
the object list (`C104_index_refuted`). -/
theorem C104_in_order_partial (sc : Scene P S) (os : List (SceneObj P S)) (hos : sc.objects = some os)
    (h : Populatable os) (hord : os.Pairwise fun a b => a.priority ≤ b.priority) (i : Fin (os.map given).length) :
    speciesFromObject (populate sc).1 i = .ok ((contributed (os.map given) i).map Prod.fst) := by
  have hs : stableSort (·.priority) (os.map given) = os.map given := by
    apply stableSort_of_sorted
    rw [List.pairwise_map]
    exact hord
  have key : ∀ (bs : List (Body P S)) (hbs : stableSort (·.priority) (os.map given) = bs) (hi : i.1 < bs.length),
      speciesFromObject (populate sc).1 i = .ok ((contributed bs ⟨i, hi⟩).map Prod.fst) := by
    rintro bs rfl hi
    exact fromObject_eq sc os hos h i hi
  exact key _ hs i.2

/-- **C104 (what the index means).** In general the index counts the objects by priority number, equal numbers in the order
of adding. -/
theorem C104_sorted_index (sc : Scene P S) (os : List (SceneObj P S)) (hos : sc.objects = some os)
    (h : Populatable os) (i : Fin (stableSort (·.priority) (os.map given)).length) :
    speciesFromObject (populate sc).1 i =
      .ok ((contributed (stableSort (·.priority) (os.map given)) i).map Prod.fst) :=
  fromObject_eq sc os hos h i i.2

/-- **C104, finding.** Two molecules, the first with priority 1 and the second with priority 0: index 0 gives the atom of
the molecule added second. -/
theorem C104_index_refuted :
    ∃ (m1 m2 : SceneObj ℤ ℤ), m1 = moleculeObj 1 [5] [6] ∧ m2 = moleculeObj 0 [7] [8] ∧
      speciesFromObject (populate (addObject (addObject (empty (0, 10)) (.obj m1)) (.obj m2))).1 0 = .ok [7] ∧
      speciesFromObject (populate (addObject (addObject (empty (0, 10)) (.obj m1)) (.obj m2))).1 1 = .ok [5] :=
  ⟨_, _, rfl, rfl, by decide +kernel, by decide +kernel⟩

/-- Non-vacuity of the partial statement: two molecules in order of priority. -/
example : Populatable [moleculeObj 0 [(7 : ℤ)] [(8 : ℤ)], moleculeObj 1 [5] [6]] ∧
    [moleculeObj 0 [(7 : ℤ)] [(8 : ℤ)], moleculeObj 1 [5] [6]].Pairwise (fun a b => a.priority ≤ b.priority) := by
  refine ⟨?_, by simp [moleculeObj]⟩
  intro o ho
  simp only [List.mem_cons, List.not_mem_nil, or_false] at ho
  rcases ho with rfl | rfl <;> exact ⟨_, _, rfl, rfl⟩

end Scene
end CZ
