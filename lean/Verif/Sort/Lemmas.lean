import Verif.Sort.Model
/- Helper lemmas about the sorting model. -/
namespace Verif.Sort

variable {α : Type _} {cmp : α → α → Int}

theorem merge_perm (cmp : α → α → Int) (l r : List α) : (merge cmp l r).Perm (l ++ r) := by
  fun_induction merge cmp l r with
  | case1 r => simp
  | case2 l => simp
  | case3 x l y r h ih => simpa using ih.cons x
  | case4 x l y r h ih =>
    refine (ih.cons y).trans ?_
    exact (List.perm_middle (l₁ := x :: l) (a := y) (l₂ := r)).symm

theorem merge_sorted (hc : LawfulCmp cmp) (l r : List α)
    (hl : l.Pairwise (fun a b => cmp a b ≤ 0)) (hr : r.Pairwise (fun a b => cmp a b ≤ 0)) :
    (merge cmp l r).Pairwise (fun a b => cmp a b ≤ 0) := by
  fun_induction merge cmp l r with
  | case1 r => exact hr
  | case2 l => exact hl
  | case3 x l y r h ih =>
    refine List.pairwise_cons.2 ⟨?_, ih (List.pairwise_cons.1 hl).2 hr⟩
    intro z hz
    have hz := (merge_perm cmp _ _).mem_iff.1 hz
    simp only [List.mem_append, List.mem_cons] at hz
    rcases hz with hz | rfl | hz
    · exact (List.pairwise_cons.1 hl).1 z hz
    · exact h
    · exact hc.trans _ _ _ h ((List.pairwise_cons.1 hr).1 z hz)
  | case4 x l y r h ih =>
    have hyx : cmp y x ≤ 0 := by have := hc.total x y; omega
    refine List.pairwise_cons.2 ⟨?_, ih hl (List.pairwise_cons.1 hr).2⟩
    intro z hz
    have hz := (merge_perm cmp _ _).mem_iff.1 hz
    simp only [List.mem_append, List.mem_cons] at hz
    rcases hz with (rfl | hz) | hz
    · exact hyx
    · exact hc.trans _ _ _ hyx ((List.pairwise_cons.1 hl).1 z hz)
    · exact (List.pairwise_cons.1 hr).1 z hz

theorem merge_filter (hc : LawfulCmp cmp) (k : α) (l r : List α)
    (hl : l.Pairwise (fun a b => cmp a b ≤ 0)) :
    (merge cmp l r).filter (fun x => cmp k x = 0) =
      l.filter (fun x => cmp k x = 0) ++ r.filter (fun x => cmp k x = 0) := by
  fun_induction merge cmp l r with
  | case1 r => simp
  | case2 l => simp
  | case3 x l y r h ih =>
    rw [List.filter_cons, List.filter_cons, ih (List.pairwise_cons.1 hl).2]
    split <;> simp
  | case4 x l y r h ih =>
    rw [List.filter_cons, ih hl]
    by_cases hk : cmp k y = 0
    · have hnil : (x :: l).filter (fun x => decide (cmp k x = 0)) = [] := by
        rw [List.filter_eq_nil_iff]
        intro z hz
        have hxz : cmp x z ≤ 0 := by
          rcases List.mem_cons.1 hz with rfl | hz
          · exact hc.refl_le _
          · exact (List.pairwise_cons.1 hl).1 z hz
        have hyx : cmp y x < 0 := (hc.lt_swap _ _).2 (by omega)
        have hyz := hc.lt_of_lt_of_le hyx hxz
        have := hc.lt_of_le_of_lt (a := k) (b := y) (c := z) (by omega) hyz
        simp; omega
      rw [hnil]; simp [hk]
    · simp [hk]

theorem drop_take_half (a : List α) (h : 2 ≤ a.length) :
    (a.drop (mergeLeftSize a.length)).take (a.length / 2) = a.drop (mergeLeftSize a.length) := by
  apply List.take_of_length_le
  simp only [List.length_drop, mergeLeftSize]
  split <;> omega

theorem mergesort_perm (cmp : α → α → Int) (a : List α) : (mergesort cmp a).Perm a := by
  fun_induction mergesort cmp a with
  | case1 a h => exact List.Perm.refl _
  | case2 a h ls rs ih1 ih2 =>
    refine (merge_perm cmp _ _).trans ?_
    refine (ih1.append ih2).trans ?_
    rw [drop_take_half a (by omega)]
    simp [ls]

theorem mergesort_sorted (hc : LawfulCmp cmp) (a : List α) :
    (mergesort cmp a).Pairwise (fun a b => cmp a b ≤ 0) := by
  fun_induction mergesort cmp a with
  | case1 a h =>
    match a, h with
    | [], _ => simp
    | [x], _ => simp
    | x :: y :: l, h => simp at h; omega
  | case2 a h ls rs ih1 ih2 => exact merge_sorted hc _ _ ih1 ih2

theorem mergesort_filter (hc : LawfulCmp cmp) (k : α) (a : List α) :
    (mergesort cmp a).filter (fun x => cmp k x = 0) = a.filter (fun x => cmp k x = 0) := by
  fun_induction mergesort cmp a with
  | case1 a h => rfl
  | case2 a h ls rs ih1 ih2 =>
    rw [merge_filter hc k _ _ (mergesort_sorted hc _), ih1, ih2, drop_take_half a (by omega),
      ← List.filter_append]
    simp [ls]

/-! ### binary search -/

/-- Invariant kept by the halving loop. -/
structure HInv (cmp : α → α → Int) (a : List α) (key : α) (left : Nat) (right : Int) : Prop where
  l_le : (left : Int) ≤ right + 1
  r_lt : right < a.length
  below : ∀ i (h : i < a.length), i < left → 0 < cmp key a[i]
  above : ∀ i (h : i < a.length), right < i → cmp key a[i] < 0

theorem sorted_get (hc : LawfulCmp cmp) {a : List α} (ha : a.Pairwise (fun a b => cmp a b ≤ 0))
    {i j : Nat} (hj : j < a.length) (hij : i ≤ j) :
    cmp (a[i]'(by omega)) a[j] ≤ 0 := by
  rcases Nat.lt_or_eq_of_le hij with h | h
  · exact List.pairwise_iff_getElem.1 ha i j (by omega) hj h
  · subst h; exact hc.refl_le _

theorem halve_spec (hc : LawfulCmp cmp) (a : List α) (key : α)
    (ha : a.Pairwise (fun a b => cmp a b ≤ 0)) (left : Nat) (right : Int) (mid : Nat) (eq : Int)
    (hinv : HInv cmp a key left right)
    (hmid : (left : Int) ≤ right ∨ (eq < 0 ∧ mid = left) ∨ (eq > 0 ∧ mid + 1 = left)) :
    ∃ left' right' mid' eq', halve cmp a key left right mid eq = some (left', right', mid', eq') ∧
      HInv cmp a key left' right' ∧
      ((eq' = 0 ∧ (left' : Int) ≤ mid' ∧ (mid' : Int) ≤ right' ∧ ∃ h : mid' < a.length, cmp key a[mid'] = 0) ∨
       ((left' : Int) = right' + 1 ∧ ((eq' < 0 ∧ mid' = left') ∨ (eq' > 0 ∧ mid' + 1 = left')))) := by
  fun_induction halve cmp a key left right mid eq with
  | case1 left right mid eq h m hnone =>
    exfalso
    have hm : m < a.length := by have := hinv.r_lt; simp only [m]; omega
    rw [List.getElem?_eq_getElem hm] at hnone
    cases hnone
  | case2 left right mid eq h m x hx e he =>
    obtain ⟨hm, hx⟩ := List.getElem?_eq_some_iff.1 hx
    refine ⟨left, right, m, e, rfl, hinv, Or.inl ⟨he, ?_, ?_, hm, ?_⟩⟩
    · simp only [m]; omega
    · simp only [m]; omega
    · rw [hx]; exact he
  | case3 left right mid eq h m x hx e he0 he ih =>
    obtain ⟨hm, hx⟩ := List.getElem?_eq_some_iff.1 hx
    apply ih
    · refine ⟨?_, ?_, hinv.below, ?_⟩
      · simp only [m]; omega
      · have := hinv.r_lt; simp only [m]; omega
      · intro i hi hlt
        have h1 : cmp key a[m] < 0 := by rw [hx]; exact he
        exact hc.lt_of_lt_of_le h1 (sorted_get hc ha hi (by omega))
    · by_cases hle : (left : Int) ≤ (m : Int) - 1
      · exact Or.inl hle
      · refine Or.inr (Or.inl ⟨he, ?_⟩)
        simp only [m] at hle ⊢; omega
  | case4 left right mid eq h m x hx e he0 he ih =>
    obtain ⟨hm, hx⟩ := List.getElem?_eq_some_iff.1 hx
    apply ih
    · refine ⟨?_, hinv.r_lt, ?_, hinv.above⟩
      · simp only [m]; omega
      · intro i hi hlt
        have h1 : 0 < cmp key a[m] := by rw [hx]; omega
        have h2 : cmp a[m] key < 0 := (hc.lt_swap _ _).2 h1
        exact (hc.lt_swap _ _).1 (hc.lt_of_le_of_lt (sorted_get hc ha hm (by omega)) h2)
    · by_cases hle : ((m + 1 : Nat) : Int) ≤ right
      · exact Or.inl hle
      · exact Or.inr (Or.inr ⟨by omega, rfl⟩)
  | case5 left right mid eq h =>
    refine ⟨left, right, mid, eq, rfl, hinv, Or.inr ⟨?_, ?_⟩⟩
    · have := hinv.l_le; omega
    · rcases hmid with h' | h'
      · exact absurd h' h
      · exact h'

theorem scanBack_spec (hc : LawfulCmp cmp) (a : List α) (key : α)
    (ha : a.Pairwise (fun a b => cmp a b ≤ 0)) (left : Nat)
    (hbelow : ∀ i (h : i < a.length), i < left → 0 < cmp key a[i]) (mid : Nat)
    (hm : mid < a.length) (heq : cmp key a[mid] = 0) (hlm : left ≤ mid) :
    ∃ i, scanBack cmp a key left mid = some i ∧ ∃ h : i < a.length, cmp key a[i] = 0 ∧
      ∀ j (hj : j < i), cmp key (a[j]'(by omega)) ≠ 0 := by
  induction mid with
  | zero => exact ⟨0, rfl, hm, heq, fun j hj => absurd hj (by omega)⟩
  | succ m ih =>
    unfold scanBack
    rw [if_pos hlm, List.getElem?_eq_getElem (show m < a.length by omega)]
    simp only
    split
    · rename_i hne
      refine ⟨m + 1, rfl, hm, heq, ?_⟩
      intro j hj hj0
      have h1 : cmp a[m] key ≤ 0 := by
        have h2 := sorted_get hc ha hm (Nat.le_succ m)
        exact hc.trans _ _ _ h2 (by rw [(hc.eq_swap _ _).1 heq]; omega)
      have h3 : cmp a[m] key < 0 := by
        have := mt (hc.eq_swap a[m] key).1 hne; omega
      have h4 := hc.lt_of_le_of_lt (sorted_get hc ha (j := m) (i := j) (by omega) (by omega)) h3
      have := (hc.lt_swap _ _).1 h4
      omega
    · rename_i hz
      have hz : cmp key a[m] = 0 := Classical.not_not.1 hz
      refine ih (by omega) hz ?_
      rcases Nat.lt_or_ge m left with h | h
      · have := hbelow m (by omega) h; omega
      · exact h

theorem scanFwd_spec (hc : LawfulCmp cmp) (a : List α) (key : α)
    (ha : a.Pairwise (fun a b => cmp a b ≤ 0)) (right : Nat) (hr : right < a.length) (mid : Nat) (eq : Int)
    (hm : mid ≤ right) (heq : cmp key a[mid] = eq) (heq' : eq ≤ 0)
    (hpre : eq ≠ 0 → ∀ i (_ : i < mid), cmp (a[i]'(by omega)) key ≤ 0) :
    ∃ i, scanFwd cmp a key right mid eq = some i ∧ ∃ h : i ≤ right, mid ≤ i ∧
      cmp key (a[i]) ≤ 0 ∧ (∀ j (_ : j < i), cmp (a[j]'(by omega)) key ≤ 0) ∧
      (cmp key (a[i]) ≠ 0 ∨ i = right) := by
  fun_induction scanFwd cmp a key right mid eq with
  | case1 mid eq h hnone =>
    have : mid + 1 < a.length := by omega
    rw [List.getElem?_eq_getElem this] at hnone
    cases hnone
  | case2 mid eq h x hx ih =>
    obtain ⟨hm', hx⟩ := List.getElem?_eq_some_iff.1 hx
    have hle : cmp key x ≤ 0 := by
      rw [← hx]
      exact hc.trans _ _ _ (by rw [heq]; omega) (sorted_get hc ha hm' (Nat.le_succ mid))
    obtain ⟨i, h1, h2, h3, h4⟩ := ih (by omega) (by rw [hx]) hle (by
      intro _ i hi
      refine hc.trans _ _ _ (sorted_get hc ha (i := i) (j := mid) (by omega) (by omega)) ?_
      rw [(hc.eq_swap _ _).1 (heq.trans h.2)]; omega)
    exact ⟨i, h1, h2, by omega, h4⟩
  | case3 mid eq h =>
    refine ⟨mid, rfl, hm, Nat.le_refl _, by omega, ?_, ?_⟩
    · intro j hj
      by_cases h0 : eq = 0
      · refine hc.trans _ _ _ (sorted_get hc ha (i := j) (j := mid) (by omega) (by omega)) ?_
        rw [(hc.eq_swap _ _).1 (heq.trans h0)]; omega
      · exact hpre h0 j hj
    · by_cases h0 : eq = 0
      · right; omega
      · left; omega

theorem insert_sorted {a : List α} {key : α} {idx : Nat}
    (ha : a.Pairwise (fun a b => cmp a b ≤ 0)) (hlt : ∀ i (h : i < a.length), i < idx → cmp a[i] key ≤ 0)
    (hge : ∀ i (h : i < a.length), idx ≤ i → cmp key a[i] ≤ 0) :
    (a.take idx ++ key :: a.drop idx).Pairwise (fun a b => cmp a b ≤ 0) := by
  rw [List.pairwise_append, List.pairwise_cons]
  have hmem : ∀ x ∈ a.take idx, cmp x key ≤ 0 := by
    intro x hx
    obtain ⟨i, hi, rfl⟩ := List.getElem_of_mem hx
    simp only [List.length_take] at hi
    rw [List.getElem_take]
    exact hlt i (by omega) (by omega)
  have hmem2 : ∀ x ∈ a.drop idx, cmp key x ≤ 0 := by
    intro x hx
    obtain ⟨i, hi, rfl⟩ := List.getElem_of_mem hx
    simp only [List.length_drop] at hi
    rw [List.getElem_drop]
    exact hge _ (by omega) (by omega)
  refine ⟨ha.sublist (List.take_sublist _ _), ⟨hmem2, ha.sublist (List.drop_sublist _ _)⟩, ?_⟩
  intro x hx y hy
  rcases List.mem_cons.1 hy with rfl | hy
  · exact hmem x hx
  · rw [← List.take_append_drop idx a, List.pairwise_append] at ha
    exact ha.2.2 x hx y hy

end Verif.Sort
