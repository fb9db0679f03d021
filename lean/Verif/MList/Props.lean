import Verif.MList.Lemmas
/- Properties C05 and C07: an unsorted list is a sequence, a stack list is a stack. -/
namespace Verif.MList

set_option linter.unusedSectionVars false

variable {α : Type _} [DecidableEq α]

/-- The editing calls a user can make on an unsorted list. -/
inductive Op (α : Type _) where
  | insert (v : α)
  | insertAt (v : α) (i : Nat)
  | takeAt (i : Nat)
  | takeFirst
  | takeLast
  | removeAt (i : Nat)
  | removeFirst
  | removeLast
  | removeRange (s e : Nat)
  | replaceAt (v : α) (i : Nat)
  | swap (i j : Nat)

/-- What a call returns. -/
inductive Res (α : Type _) where
  | bool (b : Bool)
  | val (v : Option α)
deriving DecidableEq

/-- The call, on the model. -/
def step (cmp : α → α → Int) (d : L α) : Op α → Option (Res α × L α)
  | .insert v => (insert cmp d v).map fun (b, d) => (.bool b, d)
  | .insertAt v i => (insertAt cmp d v i).map fun (b, d) => (.bool b, d)
  | .takeAt i => (takeAt d i).map fun (v, d) => (.val v, d)
  | .takeFirst => (takeFirst d).map fun (v, d) => (.val v, d)
  | .takeLast => (takeLast d).map fun (v, d) => (.val v, d)
  | .removeAt i => (removeAt d i).map fun (b, d) => (.bool b, d)
  | .removeFirst => (removeFirst d).map fun (b, d) => (.bool b, d)
  | .removeLast => (removeLast d).map fun (b, d) => (.bool b, d)
  | .removeRange s e => (removeRange d s e).map fun (b, d) => (.bool b, d)
  | .replaceAt v i => (replaceAt d v i).map fun (b, d) => (.bool b, d)
  | .swap i j => (swap d i j).map fun (b, d) => (.bool b, d)

def run (cmp : α → α → Int) (d : L α) : List (Op α) → Option (List (Res α) × L α)
  | [] => some ([], d)
  | op :: ops =>
    match step cmp d op with
    | none => none
    | some (r, d) => (run cmp d ops).map fun (rs, d) => (r :: rs, d)

/-! ### Specification: mathematical sequences, as the header documents the calls -/

/-- `include/mstdlib/base/m_list.h`: what each call does to the sequence the user sees.  On a stack, insert pushes
at index 0; everything else is stated by index. -/
def spec (stack : Bool) (l : List α) : Op α → Res α × List α
  | .insert v => (.bool true, if stack then v :: l else l ++ [v])
  | .insertAt v i => (.bool true, if i ≤ l.length then l.insertIdx i v else l ++ [v])
  | .takeAt i => (.val l[i]?, l.eraseIdx i)
  | .takeFirst => (.val l.head?, l.tail)
  | .takeLast => (.val l.getLast?, l.dropLast)
  | .removeAt i => (.bool (i < l.length), l.eraseIdx i)
  | .removeFirst => (.bool (l ≠ []), l.tail)
  | .removeLast => (.bool (l ≠ []), l.dropLast)
  | .removeRange s e =>
    if s ≤ e ∧ s < l.length then (.bool true, l.take s ++ l.drop (e + 1)) else (.bool false, l)
  | .replaceAt v i => (.bool (i < l.length), l.set i v)
  | .swap i j =>
    if h : i ≠ j ∧ i < l.length ∧ j < l.length then
      (.bool true, (l.set i (l[j]'h.2.2)).set j (l[i]'h.2.1))
    else (.bool false, l)

def specRun (stack : Bool) (l : List α) : List (Op α) → List (Res α) × List α
  | [] => ([], l)
  | op :: ops =>
    let (r, l) := spec stack l op
    let (rs, l) := specRun stack l ops
    (r :: rs, l)

/-- What the reading calls show. -/
def Shows (d : L α) (l : List α) : Prop :=
  d.elements = l.length ∧ (∀ i, at' d i = some l[i]?) ∧ first d = some l.head? ∧ last d = some l.getLast?

/-- C05 and C07 as stated: every history on a fresh unsorted list (stack or not) gives the results and contents of the
mathematical sequence, and no access leaves the allocation. -/
def ListIsSequence (stack : Bool) : Prop :=
  ∀ (ops : List (Op Nat)), ops.length < 2 ^ 64 → ∀ ns,
    ∃ d, run natCmp (create stack false false ns false false) ops = some ((specRun stack [] ops).1, d) ∧
      Shows d (specRun stack [] ops).2

/-- Calls on which the code agrees with the documentation. -/
def Good (stack : Bool) (l : List α) : Op α → Prop
  | .insertAt _ i => if stack then l = [] ∨ l.length < i else i ≤ l.length ∨ l = []
  | .removeRange s e => stack = true → s < e → l.length ≤ s
  | .swap i j =>
    if stack then i = j ∨ l.length < i ∨ l.length < j ∨ l = []
    else (i ≠ l.length ∧ j ≠ l.length) ∨ i = j ∨ l = []
  | _ => True

def GoodRun (stack : Bool) (l : List α) : List (Op α) → Prop
  | [] => True
  | op :: ops => Good stack l op ∧ GoodRun stack (spec stack l op).2 ops

/-! ### Simulation -/

/-- Storage order of the sequence the user sees. -/
def phys (stack : Bool) (l : List α) : List α := if stack then l.reverse else l

theorem phys_len (stack : Bool) (l : List α) : (phys stack l).length = l.length := by
  unfold phys; split <;> simp

theorem phys_get (stack : Bool) (l : List α) {i : Nat} (hi : i < l.length) :
    (phys stack l)[if stack = true then l.length - 1 - i else i]? = l[i]? := by
  unfold phys
  cases stack with
  | false => simp
  | true =>
    simp only [if_true]
    rw [List.getElem?_reverse (by omega)]
    congr 1; omega

theorem phys_erase (stack : Bool) (l : List α) {i : Nat} (hi : i < l.length) :
    (phys stack l).eraseIdx (if stack = true then l.length - 1 - i else i) = phys stack (l.eraseIdx i) := by
  unfold phys
  cases stack with
  | false => simp
  | true =>
    simp only [if_true]
    rw [List.eraseIdx_eq_take_drop_succ, List.eraseIdx_eq_take_drop_succ, List.take_reverse, List.drop_reverse,
      List.reverse_append]
    congr 2
    · congr 1; omega
    · congr 1; omega

theorem phys_set (stack : Bool) (l : List α) {i : Nat} (v : α) (hi : i < l.length) :
    (phys stack l).set (if stack = true then l.length - 1 - i else i) v = phys stack (l.set i v) := by
  unfold phys
  cases stack with
  | false => simp
  | true =>
    simp only [if_true]
    apply List.ext_getElem?
    intro k
    by_cases hk : k < l.length
    · rw [List.getElem?_set, List.getElem?_reverse hk, List.getElem?_reverse (by simpa using hk), List.getElem?_set]
      simp only [List.length_reverse, List.length_set]
      split
      · rw [if_pos (by omega), if_pos (by omega)]
      · rw [if_neg (by omega)]
    · rw [List.getElem?_eq_none (by simp; omega), List.getElem?_eq_none (by simp; omega)]

variable {cmp : α → α → Int}

/-- Invariant of a run on an unsorted, non-set list. -/
structure Sim (stack : Bool) (d : L α) (l : List α) : Prop where
  repr : Repr d (phys stack l)
  stack : d.stack = stack
  sorted : d.sorted = false
  setVal : d.setVal = false
  setPtr : d.setPtr = false

theorem Sim.of_flags {stack : Bool} {d d' : L α} {l l' : List α} (h : Sim stack d l) (hf : flags d' = flags d)
    (hr : Repr d' (phys stack l')) : Sim stack d' l' := by
  obtain ⟨h1, h2, _, _, _, h6, h7⟩ := flags_eq hf
  exact ⟨hr, h1.trans h.stack, h2.trans h.sorted, h6.trans h.setVal, h7.trans h.setPtr⟩

theorem Sim.idx {stack : Bool} {d : L α} {l : List α} (h : Sim stack d l) (hl : l.length < 2 ^ 64) {i : Nat}
    (hi : i < l.length) : convertIdxAt d i = if stack = true then l.length - 1 - i else i := by
  rw [convertIdxAt_eq h.repr (by rwa [phys_len]) (by rwa [phys_len]), phys_len, h.stack]

theorem Sim.elements {stack : Bool} {d : L α} {l : List α} (h : Sim stack d l) : d.elements = l.length := by
  rw [h.repr.len, phys_len]

theorem sim_takeAt {stack : Bool} {d : L α} {l : List α} (h : Sim stack d l) (hl : l.length < 2 ^ 64) (i : Nat) :
    ∃ d', takeAt d i = some (l[i]?, d') ∧ Sim stack d' (l.eraseIdx i) := by
  by_cases hi : i < l.length
  · obtain ⟨d', h1, h2, h3⟩ := takeAt_spec h.repr (by rwa [phys_len]) (by rwa [phys_len])
    rw [h.idx hl hi] at h1 h2
    rw [phys_get _ _ hi] at h1
    rw [phys_erase _ _ hi] at h2
    exact ⟨d', h1, h.of_flags h3 h2⟩
  · refine ⟨d, ?_, ?_⟩
    · rw [takeAt_oob h.repr (by rw [phys_len]; omega), List.getElem?_eq_none (by omega)]
    · rwa [List.eraseIdx_of_length_le (by omega)]

theorem sim_removeAt {stack : Bool} {d : L α} {l : List α} (h : Sim stack d l) (hl : l.length < 2 ^ 64) (i : Nat) :
    ∃ d', removeAt d i = some (decide (i < l.length), d') ∧ Sim stack d' (l.eraseIdx i) := by
  by_cases hi : i < l.length
  · obtain ⟨d', h1, h2, h3⟩ := removeAt_spec h.repr (by rwa [phys_len]) (i := i) (by rwa [phys_len])
    rw [h.idx hl hi] at h2
    rw [phys_erase _ _ hi] at h2
    exact ⟨d', by simp [h1, hi], h.of_flags h3 h2⟩
  · refine ⟨d, ?_, ?_⟩
    · rw [removeAt_oob h.repr (by rw [phys_len]; omega)]; simp [hi]
    · rwa [List.eraseIdx_of_length_le (by omega)]

theorem insertAtInt_plain {d : L α} (h1 : d.setVal = false) (h2 : d.setPtr = false) (v : α) (i : Nat) :
    insertAtInt cmp d v i = (insertRaw d v i).map fun d => (true, d) := by
  unfold insertAtInt; simp [h1, h2]

theorem sim_insert {stack : Bool} {d : L α} {l : List α} (h : Sim stack d l) (hl : l.length < 2 ^ 64) (v : α) :
    ∃ d', insert cmp d v = some (true, d') ∧ Sim stack d' (if stack then v :: l else l ++ [v]) := by
  have he := h.elements
  -- both conversions together give an append
  have hidx : ∃ k, insertIdx cmp d v = some k ∧ (convertIdxInsert d k) = l.length := by
    unfold insertIdx
    simp only [h.sorted, Bool.false_and, Bool.false_eq_true, if_false]
    refine ⟨_, rfl, ?_⟩
    unfold convertIdxInsert
    by_cases h0 : d.elements = 0
    · simp only [h0, if_true]; omega
    · simp only [h0, if_false]
      cases hs : stack with
      | false =>
        have hst := h.stack; rw [hs] at hst
        simp only [hst, Bool.not_false, if_true, convertIdxAt_list h0 hst]
        simp; exact he
      | true =>
        have hst := h.stack; rw [hs] at hst
        have hk := convertIdxAt_stack_end h0 (by omega) hst
        simp only [hst, Bool.not_true, Bool.false_eq_true, if_false, hk]
        rw [h.idx hl (i := (2 ^ 64 - 1 + 1) % 2 ^ 64) (by omega), hs, if_pos rfl]
        omega
  obtain ⟨k, hk1, hk2⟩ := hidx
  unfold insert
  rw [hk1]
  simp only [hk2, insertAtInt_plain h.setVal h.setPtr]
  obtain ⟨d', h1, h2, h3⟩ := insertRaw_spec h.repr v l.length
  rw [h1]
  refine ⟨d', rfl, h.of_flags h3 ?_⟩
  rw [phys_len, Nat.min_self] at h2
  have : phys stack (if stack = true then v :: l else l ++ [v]) = (phys stack l).insertIdx l.length v := by
    cases stack with
    | false => simp [phys, List.insertIdx_length_self]
    | true =>
      simp only [phys, if_true, List.reverse_cons]
      rw [← List.length_reverse, List.insertIdx_length_self]
  rwa [this]

theorem sim_insertAt {stack : Bool} {d : L α} {l : List α} (h : Sim stack d l) (hl : l.length < 2 ^ 64) (v : α)
    (i : Nat) (hg : Good stack l (.insertAt v i)) :
    ∃ d', insertAt cmp d v i = some (true, d') ∧
      Sim stack d' (if i ≤ l.length then l.insertIdx i v else l ++ [v]) := by
  have he := h.elements
  unfold insertAt
  simp only [h.sorted, Bool.false_and, Bool.false_eq_true, if_false, insertAtInt_plain h.setVal h.setPtr]
  obtain ⟨d', h1, h2, h3⟩ := insertRaw_spec h.repr v (convertIdxAt d i)
  rw [h1]
  refine ⟨d', rfl, h.of_flags h3 ?_⟩
  rw [phys_len] at h2
  by_cases h0 : l = []
  · subst h0
    have : convertIdxAt d i = 0 := convertIdxAt_zero he i
    rw [this] at h2
    simp only [phys, List.reverse_nil, ite_self, List.length_nil, Nat.min_self, List.insertIdx_zero] at h2
    have : phys stack (if i ≤ ([] : List α).length then ([] : List α).insertIdx i v else [] ++ [v]) = [v] := by
      by_cases hi : i = 0
      · subst hi; simp [phys]
      · simp [hi, phys]
    rwa [this]
  · have hlen : 0 < l.length := List.length_pos_iff.2 h0
    cases hs : stack with
    | false =>
      simp only [Good, hs, Bool.false_eq_true, if_false, h0, or_false] at hg
      have : convertIdxAt d i = i := by
        have hst := h.stack; rw [hs] at hst
        rw [convertIdxAt_list (by omega) hst, if_neg (by omega)]
      rw [this, Nat.min_eq_left hg, hs] at h2
      simpa [phys, hg] using h2
    | true =>
      simp only [Good, hs, if_true, h0, false_or] at hg
      have : convertIdxAt d i = 0 := by
        have hst := h.stack; rw [hs] at hst
        exact convertIdxAt_stack_beyond (by omega) hst (by omega)
      rw [this, hs] at h2
      rw [if_neg (by omega)]
      simpa [phys] using h2

theorem sim_removeRange {stack : Bool} {d : L α} {l : List α} (h : Sim stack d l) (hl : l.length < 2 ^ 64)
    (s e : Nat) (hg : Good stack l (.removeRange s e)) :
    ∃ d', removeRange d s e = some (decide (s ≤ e ∧ s < l.length), d') ∧
      Sim stack d' (if s ≤ e ∧ s < l.length then l.take s ++ l.drop (e + 1) else l) := by
  have he := h.elements
  by_cases hse : s ≤ e ∧ s < l.length
  · rw [if_pos hse]
    cases hs : stack with
    | false =>
      have hst := h.stack; rw [hs] at hst
      have hc1 := h.idx hl hse.2
      rw [hs] at hc1; simp only [Bool.false_eq_true, if_false] at hc1
      have hc2 : (if convertIdxAt d e ≥ d.elements then d.elements - 1 else convertIdxAt d e)
          = min e (l.length - 1) := by
        rw [convertIdxAt_list (by omega) hst]
        split <;> split <;> omega
      have hph : phys stack l = l := by simp [phys, hs]
      obtain ⟨d', h1, h2, h3⟩ := removeRange_spec h.repr (by rwa [phys_len]) hse.1 (by rw [phys_len]; exact hse.2)
        hc1 hc2 (by omega)
      refine ⟨d', by simp [h1, hse], hs ▸ h.of_flags h3 ?_⟩
      rw [hph] at h2
      have : phys stack (l.take s ++ l.drop (e + 1)) = cut l s (min e (l.length - 1)) := by
        simp only [phys, hs, Bool.false_eq_true, if_false, cut]
        congr 1
        by_cases hel : e < l.length
        · rw [Nat.min_eq_left (by omega)]
        · rw [Nat.min_eq_right (by omega), List.drop_of_length_le (by omega), List.drop_of_length_le (by omega)]
      rwa [this]
    | true =>
      have : s = e := by
        have := hg hs
        omega
      subst this
      obtain ⟨d', h1, h2⟩ := sim_removeAt h hl s
      unfold removeAt at h1
      rw [if_neg (by omega)] at h1
      refine ⟨d', by rw [h1]; simp, ?_⟩
      rw [← List.eraseIdx_eq_take_drop_succ]
      exact hs ▸ h2
  · refine ⟨d, ?_, by rwa [if_neg hse]⟩
    rw [removeRange_reject h.repr (by rw [phys_len]; omega)]
    simp [hse]

theorem sim_replaceAt {stack : Bool} {d : L α} {l : List α} (h : Sim stack d l) (hl : l.length < 2 ^ 64) (v : α)
    (i : Nat) : ∃ d', replaceAt d v i = some (decide (i < l.length), d') ∧ Sim stack d' (l.set i v) := by
  by_cases hi : i < l.length
  · obtain ⟨d', h1, h2, h3⟩ := replaceAt_spec h.repr (by rwa [phys_len]) v (i := i) (by rwa [phys_len])
      (by simp [h.sorted])
    rw [h.idx hl hi, phys_set _ _ _ hi] at h2
    exact ⟨d', by simp [h1, hi], h.of_flags h3 h2⟩
  · refine ⟨d, ?_, by rwa [List.set_eq_of_length_le (by omega)]⟩
    rw [replaceAt_reject h.repr v (Or.inl (by rw [phys_len]; omega))]
    simp [hi]

theorem sim_swap {stack : Bool} {d : L α} {l : List α} (h : Sim stack d l) (i j : Nat)
    (hg : Good stack l (.swap i j)) :
    ∃ d' r, swap d i j = some (r, d') ∧ (Res.bool r) = (spec stack l (.swap i j)).1 ∧
      Sim stack d' (spec stack l (.swap i j)).2 := by
  have he := h.elements
  by_cases hrej : l = [] ∨ i = j ∨ l.length < i ∨ l.length < j
  · refine ⟨d, false, ?_, ?_, ?_⟩
    · unfold swap
      rw [if_pos]
      rcases hrej with h0 | h0 | h0 | h0
      · subst h0; left; simpa using he
      · right; right; left; exact h0
      · right; right; right; left; omega
      · right; right; right; right; omega
    · simp only [spec]
      rw [dif_neg]
      rintro ⟨h1, h2, h3⟩
      rcases hrej with h0 | h0 | h0 | h0
      · subst h0; simp at h2
      · exact h1 h0
      · omega
      · omega
    · simp only [spec]
      rw [dif_neg]
      · exact h
      rintro ⟨h1, h2, h3⟩
      rcases hrej with h0 | h0 | h0 | h0
      · subst h0; simp at h2
      · exact h1 h0
      · omega
      · omega
  · simp only [not_or] at hrej
    obtain ⟨hr1, hr2, hr3, hr4⟩ := hrej
    cases hs : stack with
    | true => simp only [Good, hs, if_true, hr1, hr2, false_or, or_false] at hg; omega
    | false =>
      simp only [Good, hs, Bool.false_eq_true, if_false, hr1, hr2, or_false] at hg
      have hph : phys stack l = l := by simp [phys, hs]
      have hrep := h.repr
      rw [hph] at hrep
      obtain ⟨d', h1, h2, h3⟩ := swap_spec hrep (i := i) (j := j) (by omega) (by omega) hr2 h.sorted
      refine ⟨d', true, h1, ?_, ?_⟩
      · simp only [spec]; rw [dif_pos ⟨hr2, by omega, by omega⟩]
      · simp only [spec]; rw [dif_pos ⟨hr2, by omega, by omega⟩]
        refine hs ▸ h.of_flags h3 ?_
        simpa [phys, hs] using h2

theorem erase_last (l : List α) : l.eraseIdx (l.length - 1) = l.dropLast := by
  rw [List.eraseIdx_eq_take_drop_succ, List.dropLast_eq_take]
  by_cases h : l = []
  · simp [h]
  · have := List.length_pos_iff.2 h
    rw [List.drop_of_length_le (by omega), List.append_nil]

/-- One call: the model does what the sequence specification says. -/
theorem sim_step {stack : Bool} {d : L α} {l : List α} (h : Sim stack d l) (hl : l.length < 2 ^ 64) (op : Op α)
    (hg : Good stack l op) :
    ∃ d', step cmp d op = some ((spec stack l op).1, d') ∧ Sim stack d' (spec stack l op).2 := by
  have he := h.elements
  cases op with
  | insert v =>
    obtain ⟨d', h1, h2⟩ := sim_insert (cmp := cmp) h hl v
    exact ⟨d', by simp [step, h1, spec], by simpa [spec] using h2⟩
  | insertAt v i =>
    obtain ⟨d', h1, h2⟩ := sim_insertAt (cmp := cmp) h hl v i hg
    exact ⟨d', by simp [step, h1, spec], by simpa [spec] using h2⟩
  | takeAt i =>
    obtain ⟨d', h1, h2⟩ := sim_takeAt h hl i
    exact ⟨d', by simp [step, h1, spec], by simpa [spec] using h2⟩
  | takeFirst =>
    obtain ⟨d', h1, h2⟩ := sim_takeAt h hl 0
    by_cases h0 : l = []
    · subst h0
      exact ⟨d, by simp [step, takeFirst, he, spec], by simpa [spec] using h⟩
    · have hlen := List.length_pos_iff.2 h0
      refine ⟨d', ?_, by simpa [spec] using h2⟩
      simp [step, takeFirst, he, spec, h1, h0, List.head?_eq_getElem?]
  | takeLast =>
    obtain ⟨d', h1, h2⟩ := sim_takeAt h hl (l.length - 1)
    by_cases h0 : l = []
    · subst h0
      exact ⟨d, by simp [step, takeLast, he, spec], by simpa [spec] using h⟩
    · refine ⟨d', ?_, by rw [erase_last] at h2; simpa [spec] using h2⟩
      simp [step, takeLast, he, spec, h1, h0, List.getLast?_eq_getElem?]
  | removeAt i =>
    obtain ⟨d', h1, h2⟩ := sim_removeAt h hl i
    exact ⟨d', by simp [step, h1, spec], by simpa [spec] using h2⟩
  | removeFirst =>
    obtain ⟨d', h1, h2⟩ := sim_removeAt h hl 0
    by_cases h0 : l = []
    · subst h0
      exact ⟨d, by simp [step, removeFirst, he, spec], by simpa [spec] using h⟩
    · have hlen := List.length_pos_iff.2 h0
      refine ⟨d', ?_, by simpa [spec] using h2⟩
      simp [step, removeFirst, he, spec, h1, h0, hlen]
  | removeLast =>
    obtain ⟨d', h1, h2⟩ := sim_removeAt h hl (l.length - 1)
    by_cases h0 : l = []
    · subst h0
      exact ⟨d, by simp [step, removeLast, he, spec], by simpa [spec] using h⟩
    · have hlen := List.length_pos_iff.2 h0
      refine ⟨d', ?_, by rw [erase_last] at h2; simpa [spec] using h2⟩
      simp [step, removeLast, he, spec, h1, h0]; omega
  | removeRange s e =>
    obtain ⟨d', h1, h2⟩ := sim_removeRange h hl s e hg
    refine ⟨d', ?_, ?_⟩
    · by_cases hc : s ≤ e ∧ s < l.length
      · simp [step, h1, spec, hc]
      · simp only [step, h1, spec, hc, if_false, Option.map_some, decide_false]
    · by_cases hc : s ≤ e ∧ s < l.length
      · simp only [spec, hc, and_self, if_true]; simpa [hc] using h2
      · simp only [spec, hc, if_false]; rwa [if_neg hc] at h2
  | replaceAt v i =>
    obtain ⟨d', h1, h2⟩ := sim_replaceAt h hl v i
    exact ⟨d', by simp [step, h1, spec], by simpa [spec] using h2⟩
  | swap i j =>
    obtain ⟨d', r, h1, h2, h3⟩ := sim_swap h i j hg
    exact ⟨d', by simp [step, h1, h2], h3⟩

theorem spec_len (stack : Bool) (l : List α) (op : Op α) : (spec stack l op).2.length ≤ l.length + 1 := by
  cases op with
  | insert v => cases stack <;> simp [spec]
  | insertAt v i =>
    simp only [spec]; split
    · rw [List.length_insertIdx_of_le_length (by assumption)]; exact Nat.le_refl _
    · simp
  | takeAt i => simp only [spec, List.length_eraseIdx]; split <;> omega
  | takeFirst => simp [spec]; omega
  | takeLast => simp [spec]; omega
  | removeAt i => simp only [spec, List.length_eraseIdx]; split <;> omega
  | removeFirst => simp [spec]; omega
  | removeLast => simp [spec]; omega
  | removeRange s e => simp only [spec]; split <;> simp; omega
  | replaceAt v i => simp [spec]
  | swap i j => simp only [spec]; split <;> simp

theorem Sim.shows {stack : Bool} {d : L α} {l : List α} (h : Sim stack d l) (hl : l.length < 2 ^ 64) :
    Shows d l := by
  have he := h.elements
  have hat : ∀ i, at' d i = some l[i]? := by
    intro i
    rw [at_spec h.repr (by rwa [phys_len]), phys_len]
    by_cases hi : i < l.length
    · rw [if_pos hi, h.idx hl hi, phys_get _ _ hi]
    · rw [if_neg hi, List.getElem?_eq_none (by omega)]
  refine ⟨he, hat, ?_, ?_⟩
  · unfold first
    by_cases h0 : l = []
    · subst h0; rw [if_pos (by simpa using he)]; rfl
    · have := List.length_pos_iff.2 h0
      rw [if_neg (by omega), hat, List.head?_eq_getElem?]
  · unfold last
    by_cases h0 : l = []
    · subst h0; rw [if_pos (by simpa using he)]; rfl
    · have := List.length_pos_iff.2 h0
      rw [if_neg (by omega), hat, he, List.getLast?_eq_getElem?]

theorem sim_run {stack : Bool} (ops : List (Op α)) : ∀ {d : L α} {l : List α}, Sim stack d l →
    l.length + ops.length < 2 ^ 64 → GoodRun stack l ops →
    ∃ d', run cmp d ops = some ((specRun stack l ops).1, d') ∧ Shows d' (specRun stack l ops).2 := by
  induction ops with
  | nil =>
    intro d l h hl _
    exact ⟨d, rfl, h.shows (by simpa using hl)⟩
  | cons op ops ih =>
    intro d l h hl hg
    obtain ⟨d1, h1, h2⟩ := sim_step (cmp := cmp) h (by simp only [List.length_cons] at hl; omega) op hg.1
    have hlen := spec_len stack l op
    obtain ⟨d', h3, h4⟩ := ih h2 (by simp only [List.length_cons] at hl; omega) hg.2
    exact ⟨d', by simp [run, h1, h3, specRun], h4⟩

/-- C05 and C07, what holds: every history of calls whose arguments avoid the defects listed in `Good` gives exactly
the documented results and contents, without leaving the allocation.  Missing (the code violates it, see the
`_fails` theorems): `swap` with an index equal to the length, `insert_at` beyond the end, and on stacks `insert_at`,
`remove_range` of more than one element and `swap`. -/
theorem list_is_sequence_partial (stack ns : Bool) (ops : List (Op α)) (hn : ops.length < 2 ^ 64)
    (hg : GoodRun stack [] ops) :
    ∃ d, run cmp (create stack false false ns false false) ops = some ((specRun stack [] ops).1, d) ∧
      Shows d (specRun stack [] ops).2 := by
  refine sim_run ops (d := create stack false false ns false false) ⟨?_, rfl, rfl, rfl, rfl⟩ (by simpa using hn) hg
  have := create_repr (α := α) stack false false ns false false
  simpa [phys] using this

/-- A history using front removal, front insertion, growth and a range removal. -/
def demoOps : List (Op Nat) :=
  [.insert 1, .insert 2, .insert 3, .insert 4, .insert 5, .takeFirst, .insertAt 9 0, .insertAt 8 2, .removeRange 1 3,
   .replaceAt 7 1, .swap 0 1, .removeAt 5]

example : GoodRun false ([] : List Nat) demoOps := by
  simp [GoodRun, Good, demoOps, spec]

example : (specRun false [] demoOps).2 = [7, 9, 5] := by decide

/-- C05 is violated: `insert_at` with an index beyond the end inserts before the last element instead of appending
(`m_list.c:86-87` clamps to `elements-1` before `m_list.c:186-188` can treat it as an append). -/
theorem insertAt_beyond_end_fails : ¬ ListIsSequence false := by
  intro h
  obtain ⟨d, h1, h2⟩ := h [.insert 1, .insert 2, .insertAt 3 7] (by decide) false
  have : (run natCmp (create false false false false false false) [.insert 1, .insert 2, .insertAt 3 7]).map
      (fun x => at' x.2 1) = some (some (some 3)) := by decide +kernel
  rw [h1] at this
  have h3 := h2.2.1 1
  simp only [Option.map_some, Option.some.injEq] at this
  rw [h3] at this
  revert this; decide

/-- C05 is violated: `swap` accepts an index equal to the length; on a full allocation it leaves the allocation. -/
theorem swap_out_of_bounds_fails :
    run natCmp (create false false false false false false)
      [.insert 1, .insert 2, .insert 3, .insert 4, .swap 0 4] = none := by
  have : (run natCmp (create false false false false false false)
      [.insert 1, .insert 2, .insert 3, .insert 4, .swap 0 4]).isNone = true := by decide +kernel
  simpa using this

/-- C05 is violated: below a full allocation the same call puts an indeterminate pointer into the list. -/
theorem swap_garbage_fails :
    ((run natCmp (create false false false false false false) [.insert 1, .insert 2, .swap 0 2]).map
      fun x => (x.1.getLast?, at' x.2 0)) = some (some (Res.bool true), none) := by decide +kernel

/-- C07 is violated: `insert_at` on a stack places the value one position too deep. -/
theorem stack_insertAt_fails : ¬ ListIsSequence true := by
  intro h
  obtain ⟨d, h1, h2⟩ := h [.insert 1, .insert 2, .insertAt 3 0] (by decide) false
  have : (run natCmp (create true false false false false false) [.insert 1, .insert 2, .insertAt 3 0]).map
      (fun x => at' x.2 0) = some (some (some 2)) := by decide +kernel
  rw [h1] at this
  have h3 := h2.2.1 0
  simp only [Option.map_some, Option.some.injEq] at this
  rw [h3] at this
  revert this; decide

/-- C07 is violated: removing logical positions 0..1 of a three element stack reports success and removes nothing. -/
theorem stack_removeRange_fails :
    ((run natCmp (create true false false false false false)
      [.insert 1, .insert 2, .insert 3, .removeRange 0 1]).map fun x => (x.1.getLast?, contents x.2)) =
      some (some (Res.bool true), some [1, 2, 3]) := by decide +kernel

/-- C07 is violated: removing logical positions 0..2 of a stack clears memory far outside the allocation. -/
theorem stack_removeRange_oob_fails :
    (run natCmp (create true false false false false false)
      [.insert 1, .insert 2, .insert 3, .removeRange 0 2]).isNone = true := by decide +kernel

/-- C07 is violated: `M_list_remove_val` on a stack removes another element than the matching one (the storage index
is passed to `M_list_remove_at`, which mirrors it again, `m_list.c:355`). -/
theorem stack_removeVal_fails :
    ((run natCmp (create true false false false false false) [.insert 1, .insert 2, .insert 3]).bind
      fun x => (removeVal natCmp x.2 1 false).bind fun y => (contents y.2).map fun l => (y.1, l)) =
      some (1, [1, 2]) := by decide +kernel

end Verif.MList
