import Verif.Sort.Lemmas
/- Properties C01, C03, C04. -/
namespace Verif.Sort

variable {α : Type _} {cmp : α → α → Int}

/-- Specification: non-decreasing in comparator order. -/
def SortedBy (cmp : α → α → Int) (l : List α) : Prop := l.Pairwise (fun a b => cmp a b ≤ 0)

/-- Specification: for every element value the elements equal to it occur in `l'` in the same order as in `l`. -/
def SameOrderOfEquals (cmp : α → α → Int) (l' l : List α) : Prop :=
  ∀ k, l'.filter (fun x => cmp k x = 0) = l.filter (fun x => cmp k x = 0)

/-- C01: `M_sort_mergesort` returns the stable sorted permutation of its input. -/
theorem mergesort_correct (hc : LawfulCmp cmp) (a : List α) :
    (mergesort cmp a).Perm a ∧ SortedBy cmp (mergesort cmp a) ∧ SameOrderOfEquals cmp (mergesort cmp a) a :=
  ⟨mergesort_perm cmp a, mergesort_sorted hc a, fun k => mergesort_filter hc k a⟩

/-- A case with ties: hypotheses hold and the result is the expected one. -/
example : LawfulCmp keyCmp ∧
    mergesort keyCmp [(2,0),(1,0),(2,1),(0,0),(1,1)] = [(0,0),(1,0),(1,1),(2,0),(2,1)] :=
  ⟨keyCmp_lawful, by decide +kernel⟩

/-- C03: on a sorted array the search never reads out of bounds, succeeds exactly when an equal element exists,
and the reported index holds an equal element; with `stable` it is the first one. -/
theorem search_correct (hc : LawfulCmp cmp) (a : List α) (ha : SortedBy cmp a) (key : α) (stable : Bool) :
    ∃ found idx, search cmp a key stable = some (found, idx) ∧
      (found = true ↔ ∃ x ∈ a, cmp key x = 0) ∧
      (found = true → ∃ h : idx < a.length, cmp key a[idx] = 0 ∧
        (stable = true → ∀ j (hj : j < idx), cmp key (a[j]'(by omega)) ≠ 0)) := by
  have hget : ∀ {i} (h : i < a.length), cmp key a[i] = 0 → ∃ x ∈ a, cmp key x = 0 :=
    fun h h0 => ⟨_, List.getElem_mem h, h0⟩
  unfold search binaryIdx
  by_cases hn : a.length = 0
  · have : a = [] := List.length_eq_zero_iff.1 hn
    subst this
    exact ⟨false, 0, by simp, by simp, by simp⟩
  have hlast : a.length - 1 < a.length := by omega
  have hfirst : 0 < a.length := by omega
  have hinit : HInv cmp a key 0 ((a.length : Int) - 1) :=
    ⟨by omega, by omega, fun i _ h => absurd h (by omega), fun i hi h => absurd hi (by omega)⟩
  obtain ⟨l, r, m, e, hh, hI, hcase⟩ := halve_spec hc a key ha 0 ((a.length : Int) - 1) 0 1 hinit
    (Or.inl (by omega))
  have hne : e ≠ 0 → ¬ ∃ x ∈ a, cmp key x = 0 := by
    rintro he ⟨x, hx, hx0⟩
    obtain ⟨i, hi, rfl⟩ := List.getElem_of_mem hx
    rcases hcase with ⟨h0, _⟩ | ⟨h1, _⟩
    · exact he h0
    · by_cases hil : i < l
      · have := hI.below i hi hil; omega
      · have := hI.above i hi (by omega); omega
  simp only [hn, if_false, hh]
  cases stable with
  | false =>
    simp only [Bool.false_eq_true, if_false, List.getElem?_eq_getElem hlast,
      List.getElem?_eq_getElem hfirst]
    by_cases h1 : cmp key (a[a.length - 1]) = 0
    · simp only [h1]
      exact ⟨true, a.length - 1, by simp, by simpa using hget hlast h1, fun _ => ⟨hlast, h1, by simp⟩⟩
    by_cases h2 : 0 < cmp key (a[a.length - 1])
    · simp only [h1, h2, if_true, if_false]
      refine ⟨false, 0, rfl, by
        simp only [Bool.false_eq_true, false_iff]
        rintro ⟨x, hx, hx0⟩
        obtain ⟨i, hi, rfl⟩ := List.getElem_of_mem hx
        have h3 := sorted_get hc ha hlast (Nat.le_sub_one_of_lt hi)
        have := hc.trans _ _ _ (show cmp key a[i] ≤ 0 by omega) h3
        omega, by simp⟩
    simp only [h1, h2, if_false]
    by_cases h3 : cmp key a[0] ≤ 0
    · by_cases h4 : cmp key a[0] = 0
      · simp only [h4]
        exact ⟨true, 0, by simp, by simpa using hget hfirst h4, fun _ => ⟨hfirst, h4, by simp⟩⟩
      · simp only [h3]
        refine ⟨false, 0, by simp [h4], by
          simp only [Bool.false_eq_true, false_iff]
          rintro ⟨x, hx, hx0⟩
          obtain ⟨i, hi, rfl⟩ := List.getElem_of_mem hx
          have h5 := sorted_get hc ha hi (Nat.zero_le i)
          have := hc.lt_of_lt_of_le (show cmp key a[0] < 0 by omega) h5
          omega, by simp⟩
    simp only [h3, if_false]
    by_cases he : e = 0
    · rcases hcase with ⟨_, _, _, hm, hm0⟩ | ⟨_, h | h⟩
      · simp only [he]
        exact ⟨true, m, by simp, by simpa using hget hm hm0, fun _ => ⟨hm, hm0, by simp⟩⟩
      · omega
      · omega
    · exact ⟨false, 0, by simp [he], by simpa using hne he, by simp⟩
  | true =>
    simp only [if_true]
    by_cases he : e = 0
    · rcases hcase with ⟨_, hlm, _, hm, hm0⟩ | ⟨_, h | h⟩
      · obtain ⟨i, hi1, hi2, hi3, hi4⟩ := scanBack_spec hc a key ha l hI.below m hm hm0 (by omega)
        simp only [he, hi1]
        exact ⟨true, i, by simp, by simpa using hget hi2 hi3, fun _ => ⟨hi2, hi3, fun _ => hi4⟩⟩
      · omega
      · omega
    · exact ⟨false, 0, by simp [he], by simpa using hne he, by simp⟩

example : SortedBy keyCmp [(1,0),(2,0),(2,1),(2,2),(5,0)] ∧
    search keyCmp [(1,0),(2,0),(2,1),(2,2),(5,0)] (2,9) true = some (true, 1) ∧
    search keyCmp [(1,0),(2,0),(2,1),(2,2),(5,0)] (3,9) true = some (false, 0) := by
  refine ⟨?_, by decide +kernel, by decide +kernel⟩
  unfold SortedBy; decide

/-- C04, first part: the insertion index is in range and inserting there keeps the array sorted.
The claim "after every equal element" of C04 is false, see `insertIdx_stable_fails`. -/
theorem insertIdx_sorted_partial (hc : LawfulCmp cmp) (a : List α) (ha : SortedBy cmp a) (key : α)
    (stable : Bool) :
    ∃ idx, insertIdx cmp a key stable = some idx ∧ idx ≤ a.length ∧
      SortedBy cmp (a.take idx ++ key :: a.drop idx) := by
  unfold insertIdx binaryIdx
  by_cases hn : a.length = 0
  · have : a = [] := List.length_eq_zero_iff.1 hn
    subst this
    exact ⟨0, by simp, by simp, by simp [SortedBy]⟩
  have hinit : HInv cmp a key 0 ((a.length : Int) - 1) :=
    ⟨by omega, by omega, fun i _ h => absurd h (by omega), fun i hi h => absurd hi (by omega)⟩
  obtain ⟨l, r, m, e, hh, hI, hcase⟩ := halve_spec hc a key ha 0 ((a.length : Int) - 1) 0 1 hinit
    (Or.inl (by omega))
  have hlast : a.length - 1 < a.length := by omega
  have hfirst : 0 < a.length := by omega
  -- insertion at `l` when no equal element was found
  have hat_l : e ≠ 0 → SortedBy cmp (a.take l ++ key :: a.drop l) := by
    intro he
    rcases hcase with ⟨h0, _⟩ | ⟨h1, _⟩
    · exact absurd h0 he
    · refine insert_sorted ha (fun i hi hil => ?_) (fun i hi hil => ?_)
      · have := (hc.lt_swap _ _).2 (hI.below i hi hil); omega
      · have := hI.above i hi (by omega); omega
  have hl : l ≤ a.length := by have := hI.l_le; have := hI.r_lt; omega
  simp only [hn, if_false, hh]
  cases stable with
  | false =>
    simp only [Bool.false_eq_true, if_false, List.getElem?_eq_getElem hlast,
      List.getElem?_eq_getElem hfirst]
    by_cases h1 : 0 ≤ cmp key (a[a.length - 1])
    · have hs : SortedBy cmp (a.take a.length ++ key :: a.drop a.length) := by
        refine insert_sorted ha (fun i hi hil => ?_) (fun i hi hil => absurd hi (by omega))
        exact hc.trans _ _ _ (sorted_get hc ha hlast (show i ≤ a.length - 1 by omega)) ((hc.swap _ _).2 h1)
      by_cases h2 : cmp key (a[a.length - 1]) = 0
      · simp only [h2]
        exact ⟨a.length, by simp, Nat.le_refl _, hs⟩
      · simp only [h2, show cmp key (a[a.length - 1]) > 0 by omega]
        exact ⟨a.length, by simp, Nat.le_refl _, hs⟩
    simp only [show ¬ cmp key (a[a.length - 1]) = 0 by omega,
      show ¬ cmp key (a[a.length - 1]) > 0 by omega, if_false]
    by_cases h3 : cmp key a[0] ≤ 0
    · simp only [h3]
      refine ⟨0, by simp, Nat.zero_le _, insert_sorted ha (fun i hi hil => absurd hil (by omega))
        (fun i hi _ => hc.trans _ _ _ h3 (sorted_get hc ha hi (Nat.zero_le i)))⟩
    simp only [h3, if_false]
    rcases hcase with ⟨he, _, _, hm, hm0⟩ | ⟨h1', h | h⟩
    · refine ⟨m, by simp [he], by omega, insert_sorted ha (fun i hi hil => ?_) (fun i hi hil => ?_)⟩
      · exact hc.trans _ _ _ (sorted_get hc ha hm (by omega)) (by rw [(hc.eq_swap _ _).1 hm0]; omega)
      · exact hc.trans _ _ _ (by rw [hm0]; omega) (sorted_get hc ha hi hil)
    · refine ⟨l, by simp [show ¬ e > 0 by omega, h.2], hl, hat_l (by omega)⟩
    · refine ⟨l, by simp [show e > 0 by omega, h.2], hl, hat_l (by omega)⟩
  | true =>
    simp only [if_true]
    rcases hcase with ⟨he, _, hmr, hm, hm0⟩ | ⟨h1', h | h⟩
    · obtain ⟨i, hi1, hi2, hi3, hi4, hi5, _⟩ := scanFwd_spec hc a key ha r.toNat
        (by have := hI.r_lt; omega) m 0 (by omega) hm0 (by omega) (by omega)
      have hr := hI.r_lt
      refine ⟨i, by simp [he, hi1], by omega, insert_sorted ha (fun j hj hji => hi5 j hji) (fun j hj hji => ?_)⟩
      exact hc.trans _ _ _ hi4 (sorted_get hc ha hj hji)
    · refine ⟨l, ?_, hl, hat_l (by omega)⟩
      unfold scanFwd
      simp [show ¬ e > 0 by omega, h.2, show ¬ e = 0 by omega]
    · refine ⟨l, ?_, hl, hat_l (by omega)⟩
      unfold scanFwd
      simp [show e > 0 by omega, h.2, show ¬ e = 0 by omega]

example : SortedBy keyCmp [(1,0),(2,0),(2,1)] ∧
    insertIdx keyCmp [(1,0),(2,0),(2,1)] (2,9) false = some 3 ∧
    insertIdx keyCmp [(1,0),(2,0),(2,1)] (0,9) true = some 0 := by
  refine ⟨?_, by decide +kernel, by decide +kernel⟩
  unfold SortedBy; decide

/-- C04, the stability claim as documented: the stable insertion index lies after every equal element. -/
def StableInsertClaim : Prop :=
  ∀ (a : List (Nat × Nat)) (key : Nat × Nat), SortedBy keyCmp a →
    ∀ idx, insertIdx keyCmp a key true = some idx → ∀ i (h : i < a.length), keyCmp key a[i] = 0 → i < idx

/-- C04 is violated: the scan at `base/sort/m_sort_binary.c:150` stops at `right` without stepping past an equal
element there, so inserting into a one element array holding an equal key returns index 0. -/
theorem insertIdx_stable_fails : ¬ StableInsertClaim := by
  intro h
  have := h [(2,0)] (2,9) (by unfold SortedBy; decide) 0 (by decide +kernel) 0 (by decide) (by decide)
  omega

/-- C04, second part, the stability that does hold: at most the last one of the equal elements ends up after the
new one. -/
theorem insertIdx_stable_partial (hc : LawfulCmp cmp) (a : List α) (ha : SortedBy cmp a) (key : α) (idx : Nat)
    (hidx : insertIdx cmp a key true = some idx) :
    ∀ i (h : i < a.length), idx < i → cmp key a[i] ≠ 0 := by
  intro i hi hlt h0
  unfold insertIdx binaryIdx at hidx
  have hn : ¬ a.length = 0 := by omega
  have hinit : HInv cmp a key 0 ((a.length : Int) - 1) :=
    ⟨by omega, by omega, fun i _ h => absurd h (by omega), fun i hi h => absurd hi (by omega)⟩
  obtain ⟨l, r, m, e, hh, hI, hcase⟩ := halve_spec hc a key ha 0 ((a.length : Int) - 1) 0 1 hinit
    (Or.inl (by omega))
  have hr := hI.r_lt
  simp only [hn, if_false, hh, if_true] at hidx
  have hir : (i : Int) ≤ r := by
    apply Int.not_lt.1
    intro h
    have := hI.above i hi h
    omega
  rcases hcase with ⟨he, _, hmr, hm, hm0⟩ | ⟨h1', h | h⟩
  · obtain ⟨j, hj1, hj2, hj3, hj4, hj5, hj6⟩ := scanFwd_spec hc a key ha r.toNat
      (by omega) m 0 (by omega) hm0 (by omega) (by omega)
    simp [he, hj1] at hidx
    subst hidx
    rcases hj6 with hj6 | hj6
    · have := hc.lt_of_lt_of_le (show cmp key (a[j]) < 0 by omega)
        (sorted_get hc ha hi (Nat.le_of_lt hlt))
      omega
    · omega
  · unfold scanFwd at hidx
    simp [show ¬ e > 0 by omega, show ¬ e = 0 by omega] at hidx
    omega
  · unfold scanFwd at hidx
    simp [show e > 0 by omega, show ¬ e = 0 by omega] at hidx
    omega

example : insertIdx keyCmp [(2,0),(2,1),(2,2)] (2,9) true = some 2 := by decide +kernel

end Verif.Sort
