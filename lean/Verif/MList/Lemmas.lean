import Verif.MList.Model
/- Helper lemmas for the list model: the layout represents a sequence and the primitives act on that sequence. -/
namespace Verif.MList

variable {α : Type _}

/-- The physical layout `d` holds the sequence `l` (in storage order). -/
structure Repr (d : L α) (l : List α) : Prop where
  len : d.elements = l.length
  bound : d.start + l.length ≤ d.allocated
  alloc : 4 ≤ d.allocated
  get : ∀ i, i < l.length → d.mem (d.start + i) = l[i]?

/-- The flags of a list object. -/
def flags (d : L α) : Bool × Bool × Bool × Bool × Bool × Bool × Bool :=
  (d.stack, d.sorted, d.stable, d.multi, d.neverShrink, d.setVal, d.setPtr)

theorem flags_eq {d d' : L α} (h : flags d' = flags d) : d'.stack = d.stack ∧ d'.sorted = d.sorted ∧
    d'.stable = d.stable ∧ d'.multi = d.multi ∧ d'.neverShrink = d.neverShrink ∧ d'.setVal = d.setVal ∧
    d'.setPtr = d.setPtr := by
  simpa [flags] using h

theorem create_repr (a b c d e f : Bool) : Repr (create a b c d e f : L α) [] :=
  ⟨rfl, by simp [create], by simp [create], by simp⟩

theorem subW_eq {a b : Nat} (h : b ≤ a) (ha : a < 2 ^ 64) : subW a b = a - b := by
  unfold subW; omega

theorem convertIdxAt_eq {d : L α} {l : List α} (hr : Repr d l) (hl : l.length < 2 ^ 64) {i : Nat}
    (hi : i < l.length) : convertIdxAt d i = if d.stack then l.length - 1 - i else i := by
  have h1 := hr.len
  unfold convertIdxAt
  rw [if_neg (by omega)]
  dsimp only
  rw [h1, if_neg (show ¬ i > l.length by omega)]
  cases d.stack with
  | false => simp
  | true =>
    simp only [Bool.not_true, Bool.false_eq_true, if_false, if_true]
    split
    · omega
    · rw [subW_eq (a := l.length) (by omega) (by omega), subW_eq (by omega) (by omega)]; omega

theorem convertIdxAt_zero {d : L α} (h : d.elements = 0) (i : Nat) : convertIdxAt d i = 0 := by
  unfold convertIdxAt; rw [if_pos h]

theorem convertIdxAt_list {d : L α} (h : d.elements ≠ 0) (hs : d.stack = false) (i : Nat) :
    convertIdxAt d i = if i > d.elements then d.elements - 1 else i := by
  unfold convertIdxAt; rw [if_neg h]; simp [hs]

theorem convertIdxAt_stack_end {d : L α} (h : d.elements ≠ 0) (hl : d.elements < 2 ^ 64) (hs : d.stack = true) :
    convertIdxAt d d.elements = 2 ^ 64 - 1 := by
  unfold convertIdxAt
  rw [if_neg h]
  simp only [hs, Bool.not_true, Bool.false_eq_true, if_false, Nat.lt_irrefl, gt_iff_lt]
  rw [if_neg (by omega)]
  unfold subW; omega

theorem convertIdxAt_stack_beyond {d : L α} (h : d.elements ≠ 0) (hs : d.stack = true) {i : Nat}
    (hi : d.elements < i) : convertIdxAt d i = 0 := by
  unfold convertIdxAt
  rw [if_neg h]
  simp [hs, hi]

theorem convertIdxAt_lt {d : L α} {l : List α} (hr : Repr d l) (hl : l.length < 2 ^ 64) {i : Nat}
    (hi : i < l.length) : convertIdxAt d i < l.length := by
  rw [convertIdxAt_eq hr hl hi]; split <;> omega

theorem readN_spec {d : L α} {l : List α} (hr : Repr d l) (n : Nat) : ∀ s, s + n ≤ l.length →
    readN d (d.start + s) n = some ((l.drop s).take n) := by
  induction n with
  | zero => intro s _; simp [readN]
  | succ n ih =>
    intro s hs
    have hb := hr.bound
    have hs' : s < l.length := by omega
    unfold readN
    rw [if_pos (by omega), hr.get s hs', List.getElem?_eq_getElem hs']
    dsimp only
    rw [Nat.add_assoc, ih (s + 1) (by omega)]
    rw [List.drop_eq_getElem_cons hs', List.take_succ_cons]
    rfl

theorem contents_spec {d : L α} {l : List α} (hr : Repr d l) : contents d = some l := by
  have := readN_spec hr l.length 0 (by omega)
  simpa [contents, hr.len] using this

theorem shiftData_spec {d : L α} {l : List α} (hr : Repr d l) (force : Bool) :
    ∃ d', shiftData d force = some d' ∧ Repr d' l ∧ flags d' = flags d ∧ d'.allocated = d.allocated ∧
      (force = true → d'.start = 0) ∧ (d'.start = 0 ∨ d'.start + l.length < d'.allocated) := by
  have h1 := hr.len; have h2 := hr.bound; have h3 := hr.alloc; have h4 := hr.get
  unfold shiftData
  by_cases h0 : d.elements = 0
  · rw [if_pos h0]
    refine ⟨{ d with start := 0 }, by simp, ⟨h1, Nat.le_trans (by simp) (Nat.le_trans (by omega : l.length ≤ d.start + l.length) h2), h3, ?_⟩, rfl, rfl, by simp, by simp⟩
    intro i hi; omega
  · simp only [h0, if_false]
    by_cases hc : d.start ≠ 0 ∧ (force = true ∨ d.start + d.elements = d.allocated)
    · rw [if_pos hc]
      unfold memmove
      rw [if_pos (by omega)]
      refine ⟨_, rfl, ⟨h1, by simp; omega, h3, ?_⟩, rfl, rfl, by simp, by simp⟩
      intro i hi
      simp only
      rw [if_pos (by omega), ← h4 i hi]
      congr 1; omega
    · rw [if_neg hc]
      refine ⟨d, rfl, hr, rfl, rfl, ?_, ?_⟩
      · intro hf; have := hc; simp [hf] at this; exact this
      · by_cases hs : d.start = 0
        · exact Or.inl hs
        · right; have : d.start + d.elements ≠ d.allocated := fun h => hc ⟨hs, Or.inr h⟩
          omega

theorem grow_spec {d : L α} {l : List α} (hr : Repr d l) :
    ∃ d', grow d = some d' ∧ Repr d' l ∧ flags d' = flags d ∧ d'.start + l.length < d'.allocated := by
  obtain ⟨d1, h1, hr1, hf, ha, _, hs⟩ := shiftData_spec hr false
  have h2 := hr1.len; have h3 := hr1.bound; have h4 := hr1.alloc
  unfold grow
  rw [h1]
  by_cases he : d1.elements = d1.allocated
  · refine ⟨realloc d1 (d1.allocated * 2), by simp [he], ⟨h2, ?_, ?_, ?_⟩, by simpa [flags, realloc] using hf, ?_⟩
    · simp [realloc]; omega
    · simp [realloc]; omega
    · intro i hi
      simp only [realloc]
      rw [if_pos (by omega), ← hr1.get i hi]
      congr 1; omega
    · simp [realloc]; omega
  · refine ⟨d1, by simp [he], hr1, hf, by omega⟩

theorem shrink_spec {d : L α} {l : List α} (hr : Repr d l) :
    ∃ d', shrink d = some d' ∧ Repr d' l ∧ flags d' = flags d := by
  unfold shrink
  by_cases hn : d.neverShrink = true
  · simp only [hn, if_true]; exact ⟨d, rfl, hr, rfl⟩
  · simp only [hn, Bool.false_eq_true, if_false]
    by_cases hc : d.allocated / 2 ≥ 4 ∧ d.elements ≤ d.allocated / 2 * 4 / 5
    · rw [if_pos hc]
      obtain ⟨d1, h1, hr1, hf, ha, h0, _⟩ := shiftData_spec hr true
      have h2 := hr1.len; have h3 := hr1.bound; have h4 := hr.len
      have h0 := h0 rfl
      rw [h1]
      refine ⟨_, rfl, ⟨h2, ?_, hc.1, ?_⟩, by simpa [flags, realloc] using hf⟩
      · simp [realloc]; omega
      · intro i hi
        simp only [realloc]
        rw [if_pos (by omega), ← hr1.get i hi, h0]
    · rw [if_neg hc]; exact ⟨d, rfl, hr, rfl⟩

theorem getElem?_insertIdx' {l : List α} {v : α} {k i : Nat} (hk : k ≤ l.length) :
    (l.insertIdx k v)[i]? = if i < k then l[i]? else if i = k then some v else l[i - 1]? := by
  rw [List.getElem?_insertIdx]
  split
  · rfl
  · split
    · rw [if_pos (by omega)]
    · rfl

theorem insertRaw_spec {d : L α} {l : List α} (hr : Repr d l) (v : α) (idx : Nat) :
    ∃ d', insertRaw d v idx = some d' ∧ Repr d' (l.insertIdx (min idx l.length) v) ∧ flags d' = flags d := by
  obtain ⟨d1, h1, hr1, hf, hs⟩ := grow_spec hr
  have h2 := hr1.len; have h4 := hr1.alloc; have hg := hr1.get
  unfold insertRaw
  rw [h1]
  simp only [h2]
  have hlen : ∀ k, k ≤ l.length → (l.insertIdx k v).length = l.length + 1 := fun k hk =>
    List.length_insertIdx_of_le_length hk v
  -- append
  have happ : ∃ d', write d1 (d1.start + l.length) (some v) = some d' ∧
      Repr { d' with elements := d'.elements + 1 } (l.insertIdx l.length v) ∧ flags d' = flags d1 := by
    unfold write
    rw [if_pos hs]
    refine ⟨_, rfl, ⟨by simp [h2], by simp; omega, h4, ?_⟩, rfl⟩
    intro i hi
    rw [hlen _ (Nat.le_refl _)] at hi
    rw [getElem?_insertIdx' (Nat.le_refl _)]
    simp only
    by_cases e : i = l.length
    · subst e; simp
    · rw [if_neg (by omega), if_pos (by omega)]; exact hg i (by omega)
  by_cases hgt : idx > l.length
  · rw [if_pos hgt]
    obtain ⟨d', hd', hr', hf'⟩ := happ
    simp only [hd']
    refine ⟨_, rfl, ?_, by simpa [flags] using hf'.trans hf⟩
    rw [Nat.min_eq_right (by omega)]; exact hr'
  · rw [if_neg hgt]
    by_cases hlt : idx < l.length
    · rw [if_pos hlt]
      rw [Nat.min_eq_left (by omega)]
      by_cases h0 : idx = 0 ∧ d1.start > 0
      · obtain ⟨h00, h01⟩ := h0
        subst h00
        rw [if_pos ⟨rfl, h01⟩]
        unfold write
        simp only
        rw [if_pos (by omega)]
        refine ⟨_, rfl, ⟨by simp, by simp; omega, h4, ?_⟩, by simpa [flags] using hf⟩
        intro i hi
        rw [hlen _ (by omega)] at hi
        rw [getElem?_insertIdx' (by omega), if_neg (by omega)]
        simp only
        by_cases e : i = 0
        · subst e; simp
        · rw [if_neg (by omega), if_neg e, ← hg (i - 1) (by omega)]
          congr 1; omega
      · rw [if_neg h0]
        unfold memmove
        rw [if_pos (by omega)]
        simp only [Option.map_some]
        unfold write
        rw [if_pos (by simp only; omega)]
        refine ⟨_, rfl, ⟨by simp [hlen idx (by omega), h2], by simp [hlen idx (by omega)]; omega, h4, ?_⟩,
          by simpa [flags] using hf⟩
        intro i hi
        rw [hlen _ (by omega)] at hi
        rw [getElem?_insertIdx' (by omega)]
        simp only
        by_cases e1 : i = idx
        · subst e1; simp
        · rw [if_neg (by omega)]
          by_cases e2 : i < idx
          · rw [if_neg (by omega), if_pos e2]; exact hg i (by omega)
          · rw [if_pos (by omega), if_neg e2, if_neg e1, ← hg (i - 1) (by omega)]
            congr 1; omega
    · rw [if_neg hlt]
      have e : idx = l.length := by omega
      subst e
      obtain ⟨d', hd', hr', hf'⟩ := happ
      simp only [hd']
      refine ⟨_, rfl, ?_, by simpa [flags] using hf'.trans hf⟩
      rw [Nat.min_self]; exact hr'

theorem takeAt_oob {d : L α} {l : List α} (hr : Repr d l) {i : Nat} (hi : l.length ≤ i) :
    takeAt d i = some (none, d) := by
  unfold takeAt; rw [if_pos (by have := hr.len; omega)]

theorem takeAt_spec {d : L α} {l : List α} (hr : Repr d l) (hl : l.length < 2 ^ 64) {i : Nat}
    (hi : i < l.length) :
    ∃ d', takeAt d i = some (l[convertIdxAt d i]?, d') ∧ Repr d' (l.eraseIdx (convertIdxAt d i)) ∧
      flags d' = flags d := by
  have h2 := hr.len; have h3 := hr.bound; have h4 := hr.alloc; have hg := hr.get
  have hp := convertIdxAt_lt hr hl hi
  unfold takeAt
  rw [if_neg (by omega)]
  simp only
  generalize convertIdxAt d i = p at hp
  rw [if_pos (by omega), hg p hp, List.getElem?_eq_getElem hp]
  simp only
  unfold write
  rw [if_pos (by omega)]
  simp only [h2]
  have hlen : (l.eraseIdx p).length = l.length - 1 := List.length_eraseIdx_of_lt hp
  -- the three ways of closing the gap all give a layout of the shorter sequence
  have key : ∀ r : Option (L α),
      (∃ e, r = some e ∧ Repr { e with elements := e.elements - 1 } (l.eraseIdx p) ∧ flags e = flags d) →
      ∃ d', (r.bind fun e => (shrink { e with elements := e.elements - 1 }).map fun x => (some l[p], x))
          = some (some l[p], d') ∧
        Repr d' (l.eraseIdx p) ∧ flags d' = flags d := by
    rintro r ⟨e, rfl, hre, hfe⟩
    obtain ⟨f, hf, hrf, hff⟩ := shrink_spec hre
    exact ⟨f, by simp [hf], hrf, by rw [hff]; simpa [flags] using hfe⟩
  apply key
  · by_cases h0 : p = 0
    · rw [if_pos h0]
      refine ⟨_, rfl, ⟨by simp [hlen], by simp [hlen]; omega, h4, ?_⟩, rfl⟩
      intro j hj
      rw [hlen] at hj
      rw [List.getElem?_eraseIdx, if_neg (by omega)]
      simp only
      rw [if_neg (by omega), ← hg (j + 1) (by omega)]
      congr 1; omega
    · rw [if_neg h0]
      by_cases h1 : p = l.length - 1
      · rw [if_neg (by omega)]
        refine ⟨_, rfl, ⟨by simp [hlen], by simp [hlen]; omega, h4, ?_⟩, rfl⟩
        intro j hj
        rw [hlen] at hj
        rw [List.getElem?_eraseIdx, if_pos (by omega)]
        simp only
        rw [if_neg (by omega), ← hg j (by omega)]
      · rw [if_pos h1]
        unfold memmove
        rw [if_pos (by simp only; omega)]
        refine ⟨_, rfl, ⟨by simp [hlen], by simp [hlen]; omega, h4, ?_⟩, rfl⟩
        intro j hj
        rw [hlen] at hj
        rw [List.getElem?_eraseIdx]
        simp only
        by_cases e1 : j < p
        · rw [if_neg (by omega), if_neg (by omega), if_pos e1]; exact hg j (by omega)
        · rw [if_pos (by omega), if_neg (by omega), if_neg e1, ← hg (j + 1) (by omega)]
          congr 1; omega

/-- Sequence with positions `s..e` (inclusive) removed. -/
def cut (l : List α) (s e : Nat) : List α := l.take s ++ l.drop (e + 1)

theorem cut_length {l : List α} {s e : Nat} (hs : s ≤ e) (he : e < l.length) :
    (cut l s e).length = l.length - (e - s + 1) := by
  simp [cut]; omega

theorem cut_get {l : List α} {s e i : Nat} (hs : s ≤ e) (he : e < l.length) :
    (cut l s e)[i]? = if i < s then l[i]? else l[i + (e - s + 1)]? := by
  unfold cut
  rw [List.getElem?_append, List.length_take, Nat.min_eq_left (by omega)]
  split
  · rw [List.getElem?_take, if_pos (by assumption)]
  · rw [List.getElem?_drop]; congr 1; omega

theorem cut_self {l : List α} {s : Nat} : cut l s s = l.eraseIdx s := by
  simp [cut, List.eraseIdx_eq_take_drop_succ]

theorem removeRange_reject {d : L α} {l : List α} (hr : Repr d l) {s e : Nat} (h : s > e ∨ l.length ≤ s) :
    removeRange d s e = some (false, d) := by
  unfold removeRange; rw [if_pos (by have := hr.len; omega)]

/-- `removeRange` when the physical range is not inverted. -/
theorem removeRange_spec {d : L α} {l : List α} (hr : Repr d l) (hl : l.length < 2 ^ 64) {s e : Nat}
    (hse : s ≤ e) (hs : s < l.length) {ps pe : Nat} (hps : convertIdxAt d s = ps)
    (hpe : (if convertIdxAt d e ≥ d.elements then d.elements - 1 else convertIdxAt d e) = pe) (hpp : ps ≤ pe) :
    ∃ d', removeRange d s e = some (true, d') ∧ Repr d' (cut l ps pe) ∧ flags d' = flags d := by
  have h2 := hr.len; have h3 := hr.bound; have h4 := hr.alloc; have hg := hr.get
  have hp2 : pe < l.length := by rw [← hpe]; split <;> omega
  unfold removeRange
  rw [if_neg (by omega)]
  simp only [hps, hpe]
  rw [readN_spec hr _ _ (by omega)]
  simp only
  rw [subW_eq (by omega) (by omega)]
  unfold clear
  rw [if_pos (by omega)]
  simp only [h2]
  rw [subW_eq (by omega) (by omega)]
  have hlen := cut_length (l := l) hpp hp2
  have hget := fun i => cut_get (l := l) (i := i) hpp hp2
  have key : ∀ r : Option (L α), (∃ x, r = some x ∧ Repr x (cut l ps pe) ∧ flags x = flags d) →
      ∃ d', (r.bind fun x => (shrink x).map fun x => (true, x)) = some (true, d') ∧
        Repr d' (cut l ps pe) ∧ flags d' = flags d := by
    rintro r ⟨x, rfl, hx, hfx⟩
    obtain ⟨f, hf, hrf, hff⟩ := shrink_spec hx
    exact ⟨f, by simp [hf], hrf, hff.trans hfx⟩
  apply key
  by_cases hpos : l.length - (pe + 1 - ps) > 0
  · rw [if_pos hpos]
    by_cases h0 : ps = 0
    · rw [if_pos h0]
      refine ⟨_, rfl, ⟨by simp; omega, by simp; omega, h4, ?_⟩, rfl⟩
      intro j hj
      rw [hget, if_neg (by omega)]
      simp only
      rw [if_neg (by omega), ← hg _ (by omega)]
      congr 1; omega
    · rw [if_neg h0]
      by_cases h1 : pe = l.length - 1
      · rw [if_neg (by simp [h1])]
        refine ⟨_, rfl, ⟨by simp; omega, by simp; omega, h4, ?_⟩, rfl⟩
        intro j hj
        rw [hget, if_pos (by omega)]
        simp only
        rw [if_neg (by omega), ← hg j (by omega)]
      · rw [if_pos (by simp [h1])]
        unfold memmove
        rw [if_pos (by simp only; omega)]
        refine ⟨_, rfl, ⟨by simp; omega, by simp; omega, h4, ?_⟩, rfl⟩
        intro j hj
        rw [hget]
        simp only
        by_cases e1 : j < ps
        · rw [if_neg (by omega), if_neg (by omega), if_pos e1]; exact hg j (by omega)
        · rw [if_pos (by omega), if_neg (by omega), if_neg e1, ← hg _ (by omega)]
          congr 1; omega
  · rw [if_neg hpos]
    refine ⟨_, rfl, ⟨by simp; omega, by simp; omega, h4, ?_⟩, rfl⟩
    intro j hj; omega

theorem removeAt_oob {d : L α} {l : List α} (hr : Repr d l) {i : Nat} (hi : l.length ≤ i) :
    removeAt d i = some (false, d) := by
  unfold removeAt; rw [if_pos (by have := hr.len; omega)]

theorem removeAt_spec {d : L α} {l : List α} (hr : Repr d l) (hl : l.length < 2 ^ 64) {i : Nat}
    (hi : i < l.length) :
    ∃ d', removeAt d i = some (true, d') ∧ Repr d' (l.eraseIdx (convertIdxAt d i)) ∧ flags d' = flags d := by
  have hp := convertIdxAt_lt hr hl hi
  have h2 := hr.len
  unfold removeAt
  rw [if_neg (by omega), ← cut_self]
  exact removeRange_spec hr hl (Nat.le_refl _) hi rfl (if_neg (by omega)) (Nat.le_refl _)

theorem replaceAt_spec {d : L α} {l : List α} (hr : Repr d l) (hl : l.length < 2 ^ 64) {i : Nat} (v : α)
    (hi : i < l.length) (hns : ¬ (d.sorted = true ∧ ¬ d.multi = true)) :
    ∃ d', replaceAt d v i = some (true, d') ∧ Repr d' (l.set (convertIdxAt d i) v) ∧ flags d' = flags d := by
  have h2 := hr.len; have h3 := hr.bound; have h4 := hr.alloc; have hg := hr.get
  have hp := convertIdxAt_lt hr hl hi
  unfold replaceAt
  rw [if_neg (by simp only [not_or]; exact ⟨by omega, hns⟩)]
  generalize convertIdxAt d i = p at hp
  unfold write
  rw [if_pos (by omega)]
  refine ⟨_, rfl, ⟨by simp [h2], by simp; omega, h4, ?_⟩, rfl⟩
  intro j hj
  rw [List.length_set] at hj
  rw [List.getElem?_set]
  simp only
  by_cases e : j = p
  · subst e; simp [hj]
  · rw [if_neg (by omega), if_neg (by omega)]; exact hg j hj

theorem replaceAt_reject {d : L α} {l : List α} (hr : Repr d l) {i : Nat} (v : α)
    (h : l.length ≤ i ∨ (d.sorted = true ∧ ¬ d.multi = true)) : replaceAt d v i = some (false, d) := by
  unfold replaceAt; rw [if_pos (by have := hr.len; rw [this]; exact h)]

theorem at_spec {d : L α} {l : List α} (hr : Repr d l) (hl : l.length < 2 ^ 64) (i : Nat) :
    at' d i = some (if i < l.length then l[convertIdxAt d i]? else none) := by
  have h2 := hr.len; have h3 := hr.bound
  unfold at'
  by_cases hi : i < l.length
  · have hp := convertIdxAt_lt hr hl hi
    rw [if_neg (by omega)]
    simp only
    rw [if_pos (by omega), hr.get _ hp, List.getElem?_eq_getElem hp, if_pos hi]
  · rw [if_pos (by omega), if_neg hi]

theorem swap_spec {d : L α} {l : List α} (hr : Repr d l) {i j : Nat} (hi : i < l.length) (hj : j < l.length)
    (hij : i ≠ j) (hs : d.sorted = false) :
    ∃ d', swap d i j = some (true, d') ∧ Repr d' ((l.set i l[j]).set j l[i]) ∧ flags d' = flags d := by
  have h2 := hr.len; have h3 := hr.bound; have h4 := hr.alloc; have hg := hr.get
  unfold swap
  rw [if_neg (by simp [hs, hij]; omega), if_pos (by omega)]
  refine ⟨_, rfl, ⟨by simp [h2], by simp; omega, h4, ?_⟩, rfl⟩
  intro k hk
  simp only [List.length_set] at hk
  simp only [List.getElem?_set, List.length_set]
  by_cases e1 : k = i
  · subst e1
    rw [if_pos rfl, if_neg (by omega), hg j hj, if_pos rfl, if_pos hk, List.getElem?_eq_getElem hj]
  · rw [if_neg (by omega)]
    by_cases e2 : k = j
    · subst e2
      rw [if_pos rfl, if_pos rfl, if_pos hk, hg i hi, List.getElem?_eq_getElem hi]
    · rw [if_neg (by omega), if_neg (by omega), if_neg (by omega)]; exact hg k hk

end Verif.MList
