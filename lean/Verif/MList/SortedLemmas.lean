import Verif.MList.Lemmas
import Verif.Sort.Props
import Verif.Qsort.Props
/- Helper lemmas for sorted lists, value search and removal. -/
namespace Verif.MList

variable {α : Type _} {cmp : α → α → Int}

theorem insertIdx_eq {l : List α} {i : Nat} (v : α) (hi : i ≤ l.length) :
    l.insertIdx i v = l.take i ++ v :: l.drop i := by
  induction l generalizing i with
  | nil => simp at hi; subst hi; rfl
  | cons x l ih =>
    cases i with
    | zero => rfl
    | succ i => simp [ih (by simpa using hi)]

theorem runUp_eq (v : α) (l : List α) : ∀ i, runUp cmp v i l = i + (l.takeWhile (fun x => decide (cmp v x = 0))).length := by
  induction l with
  | nil => intro i; rfl
  | cons x l ih =>
    intro i
    unfold runUp
    by_cases h : cmp v x = 0
    · rw [if_neg (by simp [h]), ih]; simp [h]; omega
    · rw [if_pos h]; simp [h]

theorem drop_takeWhile {p : α → Bool} (l : List α) : l.drop (l.takeWhile p).length = l.dropWhile p := by
  induction l with
  | nil => rfl
  | cons x l ih => by_cases h : p x <;> simp [h, ih]

/-- In a list where a stretch satisfying `p` can only be at the front, filtering it out is dropping it. -/
theorem filter_eq_dropWhile {p : α → Bool} (l : List α)
    (h : l.Pairwise (fun x y => p x = false → p y = false)) : l.filter (fun x => !p x) = l.dropWhile p := by
  induction l with
  | nil => rfl
  | cons x l ih =>
    rw [List.pairwise_cons] at h
    by_cases hp : p x = true
    · simp [hp, ih h.2]
    · have hp' : p x = false := by simpa using hp
      rw [List.dropWhile_cons, if_neg hp, List.filter_eq_self]
      intro y hy
      rcases List.mem_cons.1 hy with rfl | hy
      · simp [hp']
      · simp [h.1 y hy hp']

/-- The run of elements equal to `v` around an index holding one of them is the set of all equal elements. -/
theorem cut_run (hc : LawfulCmp cmp) {l : List α} (hs : Sort.SortedBy cmp l) (v : α) {idx : Nat}
    (hi : idx < l.length) (h0 : cmp v l[idx] = 0) :
    let e := runUp cmp v idx (l.drop (idx + 1))
    let s := idx - runUp cmp v 0 ((l.take idx).reverse)
    s ≤ e ∧ e < l.length ∧ s ≤ idx ∧ cut l s e = l.filter (fun x => decide (cmp v x ≠ 0)) := by
  simp only [runUp_eq, Nat.zero_add]
  have hb : ((l.drop (idx + 1)).takeWhile (fun x => decide (cmp v x = 0))).length ≤ l.length - (idx + 1) := by
    have := (List.takeWhile_sublist (fun x => decide (cmp v x = 0)) (l := l.drop (idx + 1))).length_le
    simpa using this
  have ha : ((l.take idx).reverse.takeWhile (fun x => decide (cmp v x = 0))).length ≤ idx := by
    have := (List.takeWhile_sublist (fun x => decide (cmp v x = 0)) (l := (l.take idx).reverse)).length_le
    simp at this; omega
  refine ⟨by omega, by omega, by omega, ?_⟩
  have hsplit : l = l.take idx ++ l[idx] :: l.drop (idx + 1) := by simp
  have hs' := hs
  unfold Sort.SortedBy at hs'
  have e1 : (l.drop (idx + 1)).filter (fun x => decide (cmp v x ≠ 0)) =
      (l.drop (idx + 1)).drop ((l.drop (idx + 1)).takeWhile (fun x => decide (cmp v x = 0))).length := by
    rw [drop_takeWhile, ← filter_eq_dropWhile]
    · congr 1; funext x; simp
    · rw [List.pairwise_iff_getElem]
      intro i j hi' hj' hij hx
      simp only [decide_eq_false_iff_not, List.getElem_drop] at hx ⊢
      simp only [List.length_drop] at hi' hj'
      have h1 := Sort.sorted_get hc hs' (show idx + 1 + i < l.length by omega) (show idx ≤ idx + 1 + i by omega)
      have h2 := hc.trans _ _ _ (show cmp v l[idx] ≤ 0 by omega) h1
      have h3 := Sort.sorted_get hc hs' (show idx + 1 + j < l.length by omega) (show idx + 1 + i ≤ idx + 1 + j by omega)
      have := hc.lt_of_lt_of_le (show cmp v l[idx + 1 + i] < 0 by omega) h3
      omega
  have e2 : ((l.take idx).reverse).filter (fun x => decide (cmp v x ≠ 0)) =
      ((l.take idx).reverse).drop ((l.take idx).reverse.takeWhile (fun x => decide (cmp v x = 0))).length := by
    rw [drop_takeWhile, ← filter_eq_dropWhile]
    · congr 1; funext x; simp
    · rw [List.pairwise_reverse, List.pairwise_iff_getElem]
      intro i j hi' hj' hij hx
      simp only [decide_eq_false_iff_not, List.getElem_take] at hx ⊢
      simp only [List.length_take] at hi' hj'
      have h1 := Sort.sorted_get hc hs' hi (show j ≤ idx by omega)
      have h2 : cmp l[j] v ≤ 0 := hc.trans _ _ _ h1 (by rw [(hc.eq_swap _ _).1 h0]; omega)
      have h2' : 0 < cmp v l[j] := by
        have := (hc.swap l[j] v).1 h2
        omega
      have h3 := Sort.sorted_get hc hs' (show j < l.length by omega) (show i ≤ j by omega)
      have h4 : cmp l[j] v < 0 := (hc.lt_swap _ _).2 h2'
      have := hc.lt_of_le_of_lt h3 h4
      have := (hc.lt_swap _ _).1 this
      omega
  have e2' : (l.take idx).filter (fun x => decide (cmp v x ≠ 0)) =
      (l.take idx).take (idx - ((l.take idx).reverse.takeWhile (fun x => decide (cmp v x = 0))).length) := by
    have := congrArg List.reverse e2
    rw [← List.filter_reverse, List.reverse_reverse, List.reverse_drop] at this
    rw [this]
    simp [Nat.min_eq_left (Nat.le_of_lt hi)]
  conv => rhs; rw [hsplit]
  rw [List.filter_append, List.filter_cons, e1, e2']
  simp only [h0, ne_eq, not_true_eq_false, decide_false, Bool.false_eq_true, if_false, cut]
  rw [List.take_take, Nat.min_eq_left (by omega), List.drop_drop]
  congr 2; omega

theorem scanUp_spec {p : α → Bool} (l : List α) : ∀ i,
    (scanUp p i l = none ↔ ∀ x ∈ l, p x = false) ∧
    (∀ k, scanUp p i l = some k → ∃ h : i ≤ k ∧ k - i < l.length, p (l[k - i]'h.2) = true) := by
  induction l with
  | nil => intro i; simp [scanUp]
  | cons x l ih =>
    intro i
    unfold scanUp
    by_cases hp : p x = true
    · simp only [hp, if_true]
      refine ⟨by simp [hp], ?_⟩
      intro k hk
      injection hk with hk; subst hk
      exact ⟨⟨Nat.le_refl _, by simp⟩, by simpa using hp⟩
    · simp only [hp]
      refine ⟨by simp [(ih (i + 1)).1, hp], ?_⟩
      intro k hk
      obtain ⟨⟨h1, h2⟩, h3⟩ := (ih (i + 1)).2 k hk
      refine ⟨⟨by omega, by simp; omega⟩, ?_⟩
      have e : k - i = (k - (i + 1)) + 1 := by omega
      simp only [e, List.getElem_cons_succ]
      exact h3

/-- Search by value on a list that is unsorted or really sorted. -/
theorem indexOf_spec [DecidableEq α] (hc : LawfulCmp cmp) {d : L α} {l : List α} (hr : Repr d l) (hst : d.stack = false)
    (hs : d.sorted = true → d.multi = false → Sort.SortedBy cmp l) (v : α) :
    ∃ r, indexOf cmp d v false = some r ∧ (r = none ↔ ∀ x ∈ l, cmp v x ≠ 0) ∧
      (∀ k, r = some k → ∃ h : k < l.length, cmp v l[k] = 0) := by
  have h2 := hr.len
  unfold indexOf
  by_cases h0 : d.elements = 0
  · rw [if_pos h0]
    have : l = [] := List.length_eq_zero_iff.1 (by omega)
    subst this
    exact ⟨none, rfl, by simp, by simp⟩
  rw [if_neg h0, contents_spec hr]
  dsimp only
  by_cases ha : (d.sorted && !d.multi) = true
  · rw [if_pos ha]
    simp at ha
    obtain ⟨f, idx, h3, h4, h5⟩ := Sort.search_correct hc l (hs ha.1 ha.2) v d.stable
    rw [h3]
    cases f with
    | false =>
      refine ⟨none, rfl, ?_, by simp⟩
      simp only [Bool.false_eq_true, false_iff, not_exists, not_and] at h4
      simpa using h4
    | true =>
      obtain ⟨h6, h7, _⟩ := h5 rfl
      have hcv : convertIdxAt d idx = idx := by
        rw [convertIdxAt_list h0 hst, if_neg (by omega)]
      refine ⟨some idx, by simp [hcv], ?_, ?_⟩
      · simp only [reduceCtorEq, false_iff]
        intro h
        exact h _ (List.getElem_mem h6) h7
      · intro k hk; injection hk with hk; subst hk; exact ⟨h6, h7⟩
  · rw [if_neg ha]
    have hsc := scanUp_spec (p := fun x => decide (cmp v x = 0)) l 0
    simp only [Bool.false_eq_true, if_false]
    refine ⟨_, rfl, ?_, ?_⟩
    · rw [Option.map_eq_none_iff, hsc.1]; simp
    · intro k hk
      rw [Option.map_eq_some_iff] at hk
      obtain ⟨j, hj, rfl⟩ := hk
      obtain ⟨⟨h3, h4⟩, h5⟩ := hsc.2 j hj
      have hcv : convertIdxAt d j = j := by
        rw [convertIdxAt_list h0 hst, if_neg (by omega)]
      rw [hcv]
      exact ⟨by omega, by simpa using h5⟩

theorem store_repr {d : L α} {l l' : List α} (hr : Repr d l) (hl : l'.length = l.length) : Repr (store d l') l' := by
  have h2 := hr.len; have h3 := hr.bound
  refine ⟨by simp [store]; omega, by simp [store]; omega, hr.alloc, ?_⟩
  intro i hi
  simp only [store]
  rw [if_pos (by omega)]
  congr 1; omega

theorem sortNow_spec (hc : LawfulCmp cmp) {d : L α} {l : List α} (hr : Repr d l) (hs : d.sorted = true) :
    ∃ d' l', sortNow cmp d = some d' ∧ Repr d' l' ∧ flags d' = flags d ∧ l'.Perm l ∧ Sort.SortedBy cmp l' ∧
      (d.stable = true → Sort.SameOrderOfEquals cmp l' l) := by
  have h2 := hr.len
  unfold sortNow
  by_cases h0 : d.elements = 0
  · have : l = [] := List.length_eq_zero_iff.1 (by omega)
    subst this
    exact ⟨d, [], by simp [h0], hr, rfl, List.Perm.refl _, List.Pairwise.nil, fun _ _ => rfl⟩
  · rw [if_pos (by simp [hs, h0]), contents_spec hr]
    dsimp only
    by_cases hst : d.stable = true
    · rw [if_pos hst]
      obtain ⟨p, s, o⟩ := Sort.mergesort_correct hc l
      exact ⟨_, _, rfl, store_repr hr p.length_eq, rfl, p, s, fun _ => o⟩
    · rw [if_neg hst]
      obtain ⟨a, h3, h4, h5⟩ := Qsort.qsort_correct hc l.toArray
      rw [h3]
      exact ⟨_, _, rfl, store_repr hr h4.length_eq, rfl, h4, h5, fun h => absurd h hst⟩

/-- Counting down over `l`: what the removal loop leaves of the first `i` elements (all matches). -/
theorem removeLoop_all [DecidableEq α] (ptr : Bool) (v : α) (i : Nat) : ∀ (d : L α) (l : List α) (cnt : Nat), Repr d l → l.length < 2 ^ 64 →
    d.stack = false → i ≤ l.length →
    ∃ d', removeLoop cmp ptr true v i cnt d =
        some (cnt + (l.take i).countP (fun x => matches' cmp ptr v x), d') ∧
      Repr d' ((l.take i).filter (fun x => !matches' cmp ptr v x) ++ l.drop i) ∧ flags d' = flags d := by
  induction i with
  | zero => intro d l cnt hr _ _ _; exact ⟨d, by simp [removeLoop], by simpa using hr, rfl⟩
  | succ i ih =>
    intro d l cnt hr hl hst hi
    have h2 := hr.len; have h3 := hr.bound
    have hi' : i < l.length := by omega
    unfold removeLoop
    rw [if_pos (by omega), hr.get i hi', List.getElem?_eq_getElem hi']
    dsimp only
    have htake : l.take (i + 1) = l.take i ++ [l[i]] := by simp
    by_cases hm : matches' cmp ptr v l[i] = true
    · rw [if_pos hm]
      obtain ⟨d1, h4, h5, h6⟩ := removeAt_spec hr hl hi'
      rw [h4]
      dsimp only
      rw [if_neg (by simp)]
      have hcv : convertIdxAt d i = i := by
        rw [convertIdxAt_list (by omega) hst, if_neg (by omega)]
      rw [hcv] at h5
      have hlen : (l.eraseIdx i).length = l.length - 1 := List.length_eraseIdx_of_lt hi'
      obtain ⟨d2, h7, h8, h9⟩ := ih d1 (l.eraseIdx i) (cnt + 1) h5 (by omega) ((flags_eq h6).1.trans hst) (by omega)
      have et : (l.eraseIdx i).take i = l.take i := by
        rw [List.eraseIdx_eq_take_drop_succ]
        rw [List.take_append_of_le_length (by simp; omega), List.take_of_length_le (by simp; omega)]
      have ed : (l.eraseIdx i).drop i = l.drop (i + 1) := by
        rw [List.eraseIdx_eq_take_drop_succ]
        rw [List.drop_append_of_le_length (by simp; omega), List.drop_of_length_le (by simp; omega)]
        simp
      rw [et, ed] at h8
      rw [et] at h7
      refine ⟨d2, ?_, ?_, h9.trans h6⟩
      · rw [h7, htake, List.countP_append]
        simp [hm]; omega
      · rw [htake, List.filter_append]
        simpa [hm] using h8
    · rw [if_neg hm]
      obtain ⟨d2, h7, h8, h9⟩ := ih d l cnt hr hl hst (by omega)
      refine ⟨d2, ?_, ?_, h9⟩
      · rw [h7, htake, List.countP_append]
        simp [hm]
      · rw [htake, List.filter_append, List.filter_cons]
        simp only [hm]
        rw [List.drop_eq_getElem_cons hi'] at h8
        simpa using h8

/-- Removing one match on an unsorted list removes the last one. -/
theorem removeLoop_one [DecidableEq α] (ptr : Bool) (v : α) (i : Nat) : ∀ (d : L α) (l : List α), Repr d l → l.length < 2 ^ 64 →
    d.stack = false → i ≤ l.length →
    (∃ d', removeLoop cmp ptr false v i 0 d = some (0, d') ∧ Repr d' l ∧ flags d' = flags d ∧
      ∀ k (h : k < l.length), k < i → matches' cmp ptr v l[k] = false) ∨
    (∃ d' k, removeLoop cmp ptr false v i 0 d = some (1, d') ∧ Repr d' (l.eraseIdx k) ∧ flags d' = flags d ∧
      ∃ h : k < l.length, k < i ∧ matches' cmp ptr v l[k] = true ∧
        ∀ j (hj : j < l.length), k < j → j < i → matches' cmp ptr v l[j] = false) := by
  induction i with
  | zero => intro d l hr _ _ _; exact Or.inl ⟨d, rfl, hr, rfl, by intro k _ hk; omega⟩
  | succ i ih =>
    intro d l hr hl hst hi
    have h2 := hr.len; have h3 := hr.bound
    have hi' : i < l.length := by omega
    unfold removeLoop
    rw [if_pos (by omega), hr.get i hi', List.getElem?_eq_getElem hi']
    dsimp only
    by_cases hm : matches' cmp ptr v l[i] = true
    · rw [if_pos hm]
      obtain ⟨d1, h4, h5, h6⟩ := removeAt_spec hr hl hi'
      have hcv : convertIdxAt d i = i := by
        rw [convertIdxAt_list (by omega) hst, if_neg (by omega)]
      rw [hcv] at h5
      rw [h4]
      refine Or.inr ⟨d1, i, by simp, h5, h6, hi', by omega, hm, by intro j _ h1 h2; omega⟩
    · rw [if_neg hm]
      rcases ih d l hr hl hst (by omega) with ⟨d1, h4, h5, h6, h7⟩ | ⟨d1, k, h4, h5, h6, h7, h7', h8, h9⟩
      · refine Or.inl ⟨d1, h4, h5, h6, ?_⟩
        intro k hkl hk
        by_cases e : k = i
        · subst e; simpa using hm
        · exact h7 k hkl (by omega)
      · refine Or.inr ⟨d1, k, h4, h5, h6, h7, by omega, h8, ?_⟩
        intro j hjl h10 h11
        by_cases e : j = i
        · subst e; simpa using hm
        · exact h9 j hjl h10 (by omega)

/-! ### Duplicates on an unsorted list -/

theorem convert_twice {d : L α} {l : List α} (hr : Repr d l) (hl : l.length < 2 ^ 64) {j : Nat} (hj : j < l.length) :
    convertIdxAt d (convertIdxAt d j) = j := by
  have h1 := convertIdxAt_lt hr hl hj
  rw [convertIdxAt_eq hr hl h1, convertIdxAt_eq hr hl hj]
  split <;> omega

theorem dedupInner_spec [DecidableEq α] (ptr : Bool) (i : Nat) (fuel : Nat) : ∀ (j : Nat) (d : L α) (l : List α), Repr d l →
    l.length < 2 ^ 64 → (hij : i < j) → (hi : i < l.length) → j ≤ l.length → l.length - j < fuel →
    ∃ d', dedupInner cmp ptr i fuel j d = some d' ∧
      Repr d' (l.take j ++ (l.drop j).filter (fun y => !matches' cmp ptr l[i] y)) ∧ flags d' = flags d := by
  induction fuel with
  | zero => intro j d l _ _ _ _ _ h; omega
  | succ fuel ih =>
    intro j d l hr hl hij hi hj hf
    have h2 := hr.len; have h3 := hr.bound
    unfold dedupInner
    by_cases hjl : j < l.length
    · rw [if_pos (by omega), if_pos (by omega), hr.get i hi, hr.get j hjl, List.getElem?_eq_getElem hi,
        List.getElem?_eq_getElem hjl]
      dsimp only
      have hdrop := List.drop_eq_getElem_cons hjl
      by_cases hm : matches' cmp ptr l[i] l[j] = true
      · rw [if_pos hm]
        obtain ⟨d1, h4, h5, h6⟩ := removeAt_spec hr hl (convertIdxAt_lt hr hl hjl)
        rw [convert_twice hr hl hjl] at h5
        rw [h4]
        dsimp only
        have hlen : (l.eraseIdx j).length = l.length - 1 := List.length_eraseIdx_of_lt hjl
        have hget : (l.eraseIdx j)[i]'(by omega) = l[i] := by
          rw [List.getElem_eraseIdx]; simp [hij]
        obtain ⟨d2, h7, h8, h9⟩ := ih j d1 (l.eraseIdx j) h5 (by omega) hij (by omega) (by omega) (by omega)
        have et : (l.eraseIdx j).take j = l.take j := by
          rw [List.eraseIdx_eq_take_drop_succ]
          rw [List.take_append_of_le_length (by simp; omega), List.take_of_length_le (by simp; omega)]
        have ed : (l.eraseIdx j).drop j = l.drop (j + 1) := by
          rw [List.eraseIdx_eq_take_drop_succ]
          rw [List.drop_append_of_le_length (by simp; omega), List.drop_of_length_le (by simp; omega)]
          simp
        rw [et, ed, hget] at h8
        refine ⟨d2, h7, ?_, h9.trans h6⟩
        rw [hdrop, List.filter_cons]
        simpa [hm] using h8
      · rw [if_neg hm]
        obtain ⟨d2, h7, h8, h9⟩ := ih (j + 1) d l hr hl (by omega) hi (by omega) (by omega)
        refine ⟨d2, h7, ?_, h9⟩
        rw [hdrop, List.filter_cons, if_pos (by simp [hm])]
        have ht : l.take (j + 1) = l.take j ++ [l[j]] := by simp
        rw [ht, List.append_assoc, List.singleton_append] at h8
        exact h8
    · rw [if_neg (by omega)]
      refine ⟨d, rfl, ?_, rfl⟩
      have : j = l.length := by omega
      subst this
      simpa using hr

/-- Keep the first element, drop everything matching it, repeat. -/
def dedupF (m : α → α → Bool) : List α → List α
  | [] => []
  | x :: l => x :: dedupF m (l.filter (fun y => !m x y))
termination_by l => l.length
decreasing_by
  refine Nat.lt_succ_of_le ?_
  rw [List.length_unattach]
  refine Nat.le_trans (List.length_filter_le _ _) ?_
  rw [List.length_attach]
  exact Nat.le_refl _

theorem dedupOuter_spec [DecidableEq α] (ptr : Bool) (fuel : Nat) : ∀ (i : Nat) (d : L α) (l : List α), Repr d l →
    l.length < 2 ^ 64 → i ≤ l.length → l.length - i < fuel →
    ∃ d', dedupOuter cmp ptr fuel i d = some d' ∧
      Repr d' (l.take i ++ dedupF (matches' cmp ptr) (l.drop i)) ∧ flags d' = flags d := by
  induction fuel with
  | zero => intro i d l _ _ _ h; omega
  | succ fuel ih =>
    intro i d l hr hl hi hf
    have h2 := hr.len
    unfold dedupOuter
    by_cases hil : i < l.length
    · rw [if_pos (by omega)]
      obtain ⟨d1, h4, h5, h6⟩ := dedupInner_spec (cmp := cmp) ptr i (d.elements + 1) (i + 1) d l hr hl (by omega) hil
        (by omega) (by omega)
      rw [h4]
      dsimp only
      have hfl := List.length_filter_le (fun y => !matches' cmp ptr l[i] y) (l.drop (i + 1))
      rw [List.length_drop] at hfl
      obtain ⟨d2, h7, h8, h9⟩ := ih (i + 1) d1 _ h5 (by simp; omega) (by simp; omega) (by simp; omega)
      refine ⟨d2, h7, ?_, h9.trans h6⟩
      rw [List.take_append_of_le_length (by simp; omega), List.take_take, Nat.min_self,
        List.drop_append_of_le_length (by simp; omega), List.drop_of_length_le (by simp; omega)] at h8
      rw [List.drop_eq_getElem_cons hil, dedupF]
      have ht : l.take (i + 1) = l.take i ++ [l[i]] := by simp
      rw [ht, List.append_assoc, List.singleton_append] at h8
      simpa using h8
    · rw [if_neg (by omega)]
      refine ⟨d, rfl, ?_, rfl⟩
      rw [List.drop_of_length_le (by omega), List.take_of_length_le (by omega), dedupF]
      simpa using hr

end Verif.MList
