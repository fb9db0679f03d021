import Verif.Re.Spec
namespace Verif.Re
open Verif.Utf8 (flat Good utf8 utf8_ne_nil flat_cons flat_head getCp_utf8 flat_length)

/-- The subject as it is read, when it is the text of a list of code points. -/
def textOf : List Nat → Text
  | [] => .eos
  | c :: w => .ch c (utf8 c).length (textOf w)

theorem scan_flat (junk : List UInt8) : ∀ (w : List Nat) n, Good w → w.length < n →
    scan n (flat w ++ 0 :: junk) = textOf w := by
  intro w
  induction w with
  | nil => intro n _ hn; obtain ⟨n, rfl⟩ : ∃ k, n = k + 1 := ⟨n - 1, by simp at hn; omega⟩; simp [scan, flat, textOf]
  | cons c w ih =>
    intro n hg hn
    obtain ⟨n, rfl⟩ : ∃ k, n = k + 1 := ⟨n - 1, by simp at hn; omega⟩
    have hc := hg c (by simp)
    obtain ⟨b, hb, hb0⟩ := flat_head hc.1 hc.2 w (0 :: junk)
    have e : flat (c :: w) ++ 0 :: junk = utf8 c ++ (flat w ++ 0 :: junk) := by rw [flat_cons, List.append_assoc]
    have hd := getCp_utf8 hc.1 hc.2 (flat w ++ 0 :: junk)
    rw [e] at hb ⊢
    cases hs : utf8 c ++ (flat w ++ 0 :: junk) with
    | nil => rw [hs] at hb; simp at hb
    | cons b' r =>
      rw [hs] at hb hd
      simp at hb
      subst hb
      simp only [scan]
      rw [if_neg hb0, hd]
      simp only
      rw [ih n (fun x hx => hg x (by simp [hx])) (by simp at hn; omega)]
      have : (b' :: r).length - (flat w ++ 0 :: junk).length = (utf8 c).length := by
        rw [← hs, List.length_append]; omega
      rw [this]; rfl

theorem off_zero (w : List Nat) : off w 0 = 0 := by simp [off, flat]

theorem off_succ {w : List Nat} {j c : Nat} (h : w[j]? = some c) : off w (j + 1) = off w j + (utf8 c).length := by
  unfold off
  rw [List.take_add_one, h]
  simp [flat]

theorem off_len (w : List Nat) : off w w.length = (flat w).length := by simp [off]

theorem off_lt_succ {w : List Nat} {j : Nat} (h : j < w.length) : off w j < off w (j + 1) := by
  rw [off_succ (List.getElem?_eq_getElem h)]
  have := List.length_pos_iff.2 (utf8_ne_nil (w[j]))
  omega

theorem off_mono (w : List Nat) {i j : Nat} (h : i ≤ j) : off w i ≤ off w j := by
  induction h with
  | refl => exact Nat.le_refl _
  | @step m hm ih =>
    by_cases hj : m < w.length
    · exact Nat.le_trans ih (Nat.le_of_lt (off_lt_succ hj))
    · have : off w (m + 1) = off w m := by
        unfold off; rw [List.take_of_length_le (by omega), List.take_of_length_le (by omega)]
      show off w i ≤ off w (m + 1)
      omega

theorem off_strict {w : List Nat} {i j : Nat} (h : i < j) (hj : j ≤ w.length) : off w i < off w j :=
  Nat.lt_of_lt_of_le (off_lt_succ (by omega)) (off_mono w h)

theorem off_inj {w : List Nat} {i j : Nat} (hi : i ≤ w.length) (hj : j ≤ w.length) (h : off w i = off w j) : i = j := by
  rcases Nat.lt_trichotomy i j with h1 | h1 | h1
  · have := off_strict h1 hj; omega
  · exact h1
  · have := off_strict h1 hi; omega

theorem off_le_iff {w : List Nat} {i j : Nat} (hi : i ≤ w.length) (hj : j ≤ w.length) : off w i ≤ off w j ↔ i ≤ j := by
  constructor
  · intro h
    apply Classical.byContradiction
    intro hn
    have := off_strict (w := w) (i := j) (j := i) (by omega) hi
    omega
  · exact off_mono w

/-- `prev_c` at a place. -/
def prevAt (w : List Nat) : Nat → Nat
  | 0 => 0
  | j + 1 => (w[j]?).getD 0

/-- `next_c` at a place. -/
def nextAt (w : List Nat) (j : Nat) : Nat := (w[j]?).getD 0

theorem textOf_next (w : List Nat) : (textOf w).next = nextAt w 0 := by cases w <;> rfl

theorem textOf_drop {w : List Nat} {j c : Nat} (h : w[j]? = some c) :
    textOf (w.drop j) = .ch c (utf8 c).length (textOf (w.drop (j + 1))) := by
  obtain ⟨hj, rfl⟩ := List.getElem?_eq_some_iff.1 h
  rw [List.drop_eq_getElem_cons hj]; rfl

theorem textOf_drop_next (w : List Nat) (j : Nat) : (textOf (w.drop j)).next = nextAt w j := by
  rw [textOf_next]; unfold nextAt; simp

theorem good_get {w : List Nat} {j c : Nat} (hg : Good w) (h : w[j]? = some c) : c ≠ 0 :=
  (hg c (List.mem_of_getElem? h)).2

theorem word_before {alnum : Nat → Bool} (h0 : alnum 0 = false) (w : List Nat) (j : Nat) :
    isWord alnum (prevAt w j) = true ↔ WordBefore alnum w j := by
  unfold isWord WordBefore
  cases j with
  | zero => simp [prevAt, h0]
  | succ i =>
    simp only [prevAt]
    cases hw : w[i]? with
    | none => simp [h0, hw]
    | some c => simp [hw]

theorem word_after {alnum : Nat → Bool} (h0 : alnum 0 = false) (w : List Nat) (j : Nat) :
    isWord alnum (nextAt w j) = true ↔ WordAfter alnum w j := by
  unfold isWord WordAfter nextAt
  cases hw : w[j]? with
  | none => simp [h0]
  | some c => simp

theorem next_zero {w : List Nat} {j : Nat} (hg : Good w) (hj : j ≤ w.length) : nextAt w j = 0 ↔ j = w.length := by
  unfold nextAt
  cases hw : w[j]? with
  | none => have := List.getElem?_eq_none_iff.1 hw; simp; omega
  | some c =>
    have := good_get hg hw
    have h2 := (List.getElem?_eq_some_iff.1 hw).1
    simp [this]; omega

theorem off_eq_zero {w : List Nat} {j : Nat} (hj : j ≤ w.length) : off w j = 0 ↔ j = 0 := by
  constructor
  · intro h
    exact off_inj hj (Nat.zero_le _) (by rw [h, off_zero])
  · intro h; subst h; exact off_zero w

theorem checkAsr_false {alnum : Nat → Bool} {ml : Bool} {x : At} {a : Nat} : checkAsr alnum ml x a = false ↔
    (a.testBit 0 = true → x.pos = 0 ∨ (x.prev = 10 ∧ ml = true)) ∧
    (a.testBit 1 = true → x.next = 0 ∨ (x.next = 10 ∧ ml = true)) ∧
    (a.testBit 4 = true → isWord alnum x.prev = false ∧ isWord alnum x.next = true) ∧
    (a.testBit 5 = true → isWord alnum x.prev = true ∧ isWord alnum x.next = false) ∧
    (a.testBit 6 = true → x.pos = 0 ∨ x.next = 0 ∨ isWord alnum x.prev ≠ isWord alnum x.next) ∧
    (a.testBit 7 = true → x.pos ≠ 0 ∧ x.next ≠ 0 ∧ isWord alnum x.prev = isWord alnum x.next) := by
  unfold checkAsr
  simp only [Bool.or_eq_false_iff]
  have key : ∀ (b c : Bool), ((b && c) = false) ↔ (b = true → c = false) := by decide
  simp only [key]
  have hp : ∀ n : Nat, (decide (n > 0) = true) ↔ n ≠ 0 := by intro n; simp; omega
  generalize isWord alnum x.prev = p
  generalize isWord alnum x.next = n
  constructor
  · rintro ⟨⟨⟨⟨⟨h1, h2⟩, h3⟩, h4⟩, h5⟩, h6⟩
    refine ⟨fun k => ?_, fun k => ?_, fun k => ?_, fun k => ?_, fun k => ?_, fun k => ?_⟩
    · have := h1 k; revert this; cases ml <;> simp
      grind
    · have := h2 k; revert this; cases ml <;> simp
      grind
    · have := h3 k; revert this; cases p <;> cases n <;> simp
    · have := h4 k; revert this; cases p <;> cases n <;> simp
    · have := h5 k; revert this; cases p <;> cases n <;> simp
      all_goals grind
    · have := h6 k; revert this; cases p <;> cases n <;> simp
  · rintro ⟨h1, h2, h3, h4, h5, h6⟩
    refine ⟨⟨⟨⟨⟨fun k => ?_, fun k => ?_⟩, fun k => ?_⟩, fun k => ?_⟩, fun k => ?_⟩, fun k => ?_⟩
    · have := h1 k; revert this; cases ml <;> simp
      grind
    · have := h2 k; revert this; cases ml <;> simp
      grind
    · have := h3 k; revert this; cases p <;> cases n <;> simp
    · have := h4 k; revert this; cases p <;> cases n <;> simp
    · have := h5 k; revert this; cases p <;> cases n <;> simp
      all_goals grind
    · have := h6 k; revert this; cases p <;> cases n <;> simp

theorem testBit_zero_nat (a : Nat) (h : a = 0) (i : Nat) : a.testBit i = false := by subst h; simp

/-- The macro decides the assertions. -/
theorem asrOk_iff {alnum : Nat → Bool} (h0 : alnum 0 = false) {ml : Bool} {w : List Nat} {j a : Nat} (hg : Good w)
    (hj : j ≤ w.length) : asrOk alnum ml ⟨off w j, prevAt w j, nextAt w j⟩ a = true ↔ Asserted alnum ml w j a := by
  have e : asrOk alnum ml ⟨off w j, prevAt w j, nextAt w j⟩ a = true ↔
      checkAsr alnum ml ⟨off w j, prevAt w j, nextAt w j⟩ a = false := by
    unfold asrOk
    by_cases ha : a = 0
    · have : checkAsr alnum ml ⟨off w j, prevAt w j, nextAt w j⟩ a = false := by
        rw [checkAsr_false]; simp [ha]
      simp [ha, this]
      subst ha; exact this
    · simp [ha]
  rw [e, checkAsr_false]
  have hwb := word_before h0 w j
  have hwa := word_after h0 w j
  have hz := next_zero hg hj
  have hoz := off_eq_zero hj
  have hp10 : prevAt w j = 10 ↔ ∃ i, j = i + 1 ∧ w[i]? = some 10 := by
    cases j with
    | zero => simp [prevAt]
    | succ i =>
      simp only [prevAt]
      cases hw : w[i]? with
      | none => simp [hw]
      | some c => simp [hw]
  have hn10 : nextAt w j = 10 ↔ w[j]? = some 10 := by
    unfold nextAt
    cases hw : w[j]? <;> simp
  have hwb' : isWord alnum (prevAt w j) = false ↔ ¬ WordBefore alnum w j := by rw [← hwb]; simp
  have hwa' : isWord alnum (nextAt w j) = false ↔ ¬ WordAfter alnum w j := by rw [← hwa]; simp
  have hiff : isWord alnum (prevAt w j) = isWord alnum (nextAt w j) ↔ (WordBefore alnum w j ↔ WordAfter alnum w j) := by
    rw [← hwb, ← hwa]; exact Bool.eq_iff_iff
  simp only [ne_eq, hwb, hwb', hwa, hwa', hz, hoz, hp10, hn10, hiff]
  constructor
  · rintro ⟨h1, h2, h3, h4, h5, h6⟩
    exact ⟨fun k => (h1 k).imp_right And.symm, fun k => (h2 k).imp_right And.symm, h3, h4, h5, h6⟩
  · rintro ⟨h1, h2, h3, h4, h5, h6⟩
    exact ⟨fun k => (h1 k).imp_right And.symm, fun k => (h2 k).imp_right And.symm, h3, h4, h5, h6⟩

end Verif.Re
