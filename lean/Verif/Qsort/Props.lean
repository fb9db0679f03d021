import Verif.Qsort.Lemmas
/- Property C02. -/
namespace Verif.Qsort

variable {α : Type _} {cmp : α → α → Int}

/-- C02: `M_sort_qsort` terminates without touching memory outside the array (`some`) and leaves the sorted
permutation of the input. -/
theorem qsort_correct (hc : LawfulCmp cmp) (a : Array α) :
    ∃ a', qsort cmp a = some a' ∧ a'.toList.Perm a.toList ∧
      a'.toList.Pairwise (fun x y => cmp x y ≤ 0) := by
  obtain ⟨a', h, he, hs⟩ := qsortF_spec hc (a.size + 1) a 0 a.size (by omega) (by omega)
  refine ⟨a', h, he.perm.toList, ?_⟩
  rw [List.pairwise_iff_getElem]
  intro i j hi hj hij
  rw [Array.length_toList] at hi hj
  refine hs i j _ _ (Nat.zero_le _) hij (by have := he.size; omega) ?_ ?_
  · rw [Array.getElem_toList, Array.getElem?_eq_getElem hi]
  · rw [Array.getElem_toList, Array.getElem?_eq_getElem hj]

/-- Sorting a section of a larger array leaves everything outside the section alone (the recursive calls of the C
function work on sections of the user's array). -/
theorem qsort_section (hc : LawfulCmp cmp) (a : Array α) (base n : Nat) (h : base + n ≤ a.size) :
    ∃ a', qsortF cmp (n + 1) a base n = some a' ∧ a'.toList.Perm a.toList ∧
      ∀ i, i < base ∨ base + n ≤ i → a'[i]? = a[i]? := by
  obtain ⟨a', h1, he, _⟩ := qsortF_spec hc (n + 1) a base n h (by omega)
  exact ⟨a', h1, he.perm.toList, he.out⟩

/-- A case that goes through the partition, both block exchanges and both recursive calls. -/
example : LawfulCmp keyCmp ∧
    (qsort natCmp #[5,3,9,1,1,7,3,3,8,2,6,4,0,11,5]).map Array.toList
      = some [0,1,1,2,3,3,3,4,5,5,6,7,8,9,11] :=
  ⟨keyCmp_lawful, by decide +kernel⟩

example : 2 + 9 ≤ #[5,3,9,1,1,7,3,3,8,2,6,4,0].size := by decide

end Verif.Qsort
