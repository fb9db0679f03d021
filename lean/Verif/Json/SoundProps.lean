import Verif.Json.Fuel
/-! C49: the reader accepts only JSON.  Property theorems; `loose` is in `Sound`, the grammar of the standard in `Spec`. -/
namespace Verif.Json
open Verif.Num (digitVal value)
open Verif.Utf8 (utf8 Scalar Allowed)

/-- Accepted text is a document of the `loose` grammar that stands for the document read, and with `whole` nothing follows it.
Missing: the grammar is wider than that of RFC 8259 (the `accepts_..._fails` theorems); of a number it only says that it is read
as a number, not as which one (what `M_decimal_from_str` makes of it is the subject of C70); and the flags that allow comments,
replace bad characters or leave escapes alone are excluded. -/
theorem read_sound_partial (fl : RFlags) (hc : fl.noComments = true) (hr : fl.replaceBad = false) (hd : fl.dontDecode = false) (whole : Bool) (after data : List UInt8)
    (h0 : after.head? = some 0) (v : Json) (n : Nat) (h : read fl whole after data = some (.ok (v, n))) :
    ∃ t rest, data = t ++ rest ∧ rest.length = n ∧ Doc loose t v ∧ (whole = true → rest = []) := by
  unfold read at h
  split at h
  · cases h
  · replace h := andThen_ok h
    obtain ⟨⟨x, p⟩, h1, h⟩ := h
    obtain ⟨w, p', e, hw, hx⟩ := (sound_all hc hr hd h0 _).1 _ _ _ h1
    simp only [] at h
    have hR : Root x := by
      apply Classical.byContradiction
      intro hR
      cases x <;> first | exact hR trivial | (simp at h; done)
    replace h : ((if p.length > 0 then eatIgnored fl p else some (.ok p)).andThen fun p =>
        if whole = true ∧ p.length > 0 then some (.error .expectedEnd) else some (.ok (x, p.length))) = some (.ok (v, n)) := by
      cases x <;> first | exact hR.elim | exact h
    rcases hx with ⟨t, rfl, ht⟩ | ⟨_, hn, _⟩
    · replace h := andThen_ok h
      obtain ⟨q, h2, h⟩ := h
      have hq : ∃ w2, p = w2 ++ q ∧ ∀ c ∈ w2, Space c := by
        split at h2
        · obtain ⟨w2, e2, hw2, _⟩ := eatIgnored_loose hc h2
          exact ⟨w2, e2, hw2⟩
        · cases h2
          exact ⟨[], rfl, by simp⟩
      obtain ⟨w2, rfl, hw2⟩ := hq
      split at h
      · cases h
      · rename_i hwh
        cases h
        refine ⟨w ++ (t ++ w2), q, by rw [e]; simp, rfl, ⟨w, t, w2, rfl, hw, hw2, ht, hR⟩, ?_⟩
        intro hw
        apply Classical.byContradiction
        intro hq
        exact hwh ⟨hw, List.length_pos_iff.2 hq⟩
    · exfalso
      cases x <;> first | exact hn | exact hR

/-- `{"a":[1,"b"]}` is accepted. -/
example : read { noComments := true } true [0] [123, 34, 97, 34, 58, 91, 49, 44, 34, 98, 34, 93, 125] = some (.ok (.obj [([97], .arr [.int 1, .str [98]])], 0)) := by rfl

/-! ### What the grammar excludes -/

/-- How values begin. -/
theorem loose_head {t : List UInt8} {v : Json} (h : Val loose t v) : ∃ c r, t = c :: r ∧ (c = 110 ∨ c = 116 ∨ c = 102 ∨ c = 45 ∨ Digit c ∨ c = 34 ∨ c = 91 ∨ c = 123) := by
  cases h with
  | null => exact ⟨_, _, rfl, by simp⟩
  | tru => exact ⟨_, _, rfl, by simp⟩
  | fls => exact ⟨_, _, rfl, by simp⟩
  | num h =>
    obtain ⟨⟨i, f, x, rfl, ⟨ws, sg, ds, e, _, _, hne, _⟩, hh, _⟩, _⟩ := h
    cases i with
    | nil =>
      exfalso
      have := congrArg List.length e
      simp only [List.length_nil, List.length_append] at this
      exact hne (List.eq_nil_of_length_eq_zero (by omega))
    | cons c i =>
      refine ⟨c, i ++ (f ++ x), rfl, ?_⟩
      rcases hh c rfl with h | h
      · simp [h]
      · simp [h]
  | str => exact ⟨_, _, rfl, by simp⟩
  | arr0 => exact ⟨_, _, rfl, by simp⟩
  | arr => exact ⟨_, _, rfl, by simp⟩
  | obj0 => exact ⟨_, _, rfl, by simp⟩
  | obj => exact ⟨_, _, rfl, by simp⟩

/-- A document ends with the bracket that closes it. -/
theorem loose_last {t : List UInt8} {v : Json} (h : Val loose t v) (hr : Root v) : (t.head? = some 91 ∧ t.getLast? = some 93) ∨ (t.head? = some 123 ∧ t.getLast? = some 125) := by
  cases h with
  | null => exact hr.elim
  | tru => exact hr.elim
  | fls => exact hr.elim
  | num h =>
    obtain ⟨_, hn⟩ := h
    cases v <;> first | exact hn.elim | exact hr.elim
  | str => exact hr.elim
  | arr0 => exact Or.inl ⟨rfl, by rw [← List.cons_append, List.getLast?_concat]⟩
  | arr => exact Or.inl ⟨rfl, by rw [← List.cons_append, List.getLast?_concat]⟩
  | obj0 => exact Or.inr ⟨rfl, by rw [← List.cons_append, List.getLast?_concat]⟩
  | obj => exact Or.inr ⟨rfl, by rw [← List.cons_append, List.getLast?_concat]⟩

/-- Whatever is accepted, apart from white space around it, begins with a bracket and ends with the one that belongs to it. -/
theorem read_brackets (fl : RFlags) (hc : fl.noComments = true) (hr : fl.replaceBad = false) (hd : fl.dontDecode = false) (after data : List UInt8)
    (h0 : after.head? = some 0) (v : Json) (n : Nat) (h : read fl true after data = some (.ok (v, n))) :
    ∃ a m b, (∀ c ∈ a ++ b, Space c) ∧ (data = a ++ 91 :: (m ++ 93 :: b) ∨ data = a ++ 123 :: (m ++ 125 :: b)) := by
  obtain ⟨t, rest, rfl, _, ⟨a, u, b, rfl, ha, hb, hu, hR⟩, hw⟩ := read_sound_partial fl hc hr hd true after data h0 v n h
  have := hw rfl
  subst this
  have key : ∀ x y : UInt8, u.head? = some x → u.getLast? = some y → x ≠ y → ∃ m, u = x :: (m ++ [y]) := by
    intro x y hx hy hxy
    cases u with
    | nil => cases hx
    | cons z u =>
      simp only [List.head?_cons, Option.some.injEq] at hx
      subst hx
      rcases List.eq_nil_or_concat u with rfl | ⟨m, w, rfl⟩
      · simp at hy; exact absurd hy hxy
      · refine ⟨m, ?_⟩
        rw [List.concat_eq_append, ← List.cons_append, List.getLast?_append] at hy
        simp at hy
        rw [hy]
        simp
  rcases loose_last hu hR with ⟨h1, h2⟩ | ⟨h1, h2⟩
  · obtain ⟨m, rfl⟩ := key _ _ h1 h2 (by decide)
    exact ⟨a, m, b, spaces_append ha hb, Or.inl (by simp)⟩
  · obtain ⟨m, rfl⟩ := key _ _ h1 h2 (by decide)
    exact ⟨a, m, b, spaces_append ha hb, Or.inr (by simp)⟩

/-! ### What the standard does not allow -/

theorem blank_mem {w : List UInt8} (h : Blank w) : ∀ c ∈ w, c = 32 ∨ c = 9 ∨ c = 10 ∨ c = 13 := by
  induction h with
  | nil => simp
  | cons h _ ih =>
    intro c hc
    rcases List.mem_cons.1 hc with rfl | hc
    · exact h
    · exact ih c hc

/-- A text in square brackets that the standard allows has blank or proper contents. -/
theorem rfc_arr {m : List UInt8} {v : Json} (h : Doc rfc (91 :: (m ++ [93])) v) : Blank m ∨ ∃ l, Elems rfc m l := by
  obtain ⟨a, u, b, e, ha, hb, hu, hR⟩ := h
  have ea : a = [] := by
    cases a with
    | nil => rfl
    | cons c a =>
      injection e with e _
      have := blank_mem ha c (by simp)
      rw [← e] at this
      exact absurd this (by decide)
  subst ea
  have eb : b = [] := by
    rcases List.eq_nil_or_concat b with rfl | ⟨b', c, rfl⟩
    · rfl
    · have := blank_mem hb c (by simp)
      have e : (91 :: m) ++ [93] = (u ++ b') ++ [c] := by rw [List.cons_append, e]; simp
      have e := (List.append_inj' e rfl).2
      injection e with e _
      rw [← e] at this
      exact absurd this (by decide)
  subst eb
  simp only [List.nil_append, List.append_nil] at e
  cases hu with
  | null => exact hR.elim
  | tru => exact hR.elim
  | fls => exact hR.elim
  | num h =>
    obtain ⟨_, _, _, hn⟩ := h
    cases v <;> first | exact hn.elim | exact hR.elim
  | str => exact hR.elim
  | arr0 h =>
    injection e with _ e
    rw [(List.append_inj' e rfl).1]
    exact Or.inl h
  | arr h =>
    injection e with _ e
    rw [(List.append_inj' e rfl).1]
    exact Or.inr ⟨_, h⟩
  | obj0 => injection e with e _; exact absurd e (by decide)
  | obj => injection e with e _; exact absurd e (by decide)

theorem elems_one {m : List UInt8} {l : List Json} (h : Elems rfc m l) (h44 : (44 : UInt8) ∉ m) : ∃ a t b v, m = a ++ (t ++ b) ∧ Blank a ∧ Blank b ∧ Val rfc t v := by
  cases h with
  | one ha h hb => exact ⟨_, _, _, _, rfl, ha, hb, h⟩
  | @cons _ _ _ s _ _ _ ha h hb hs hu =>
    exfalso
    apply h44
    have : s = [44] := hs
    subst this
    simp

/-- A value that begins with a digit is a number. -/
theorem val_digit {c : UInt8} {q : List UInt8} {v : Json} (h : Val rfc (c :: q) v) (hc : Digit c) : ∃ p : NumParts, p.Ok ∧ c :: q = p.text := by
  generalize e : c :: q = t at h
  cases h with
  | num h => obtain ⟨p, h1, h2, _⟩ := h; exact ⟨p, h1, h2⟩
  | null => injection e with e _; subst e; exact absurd hc (by decide)
  | tru => injection e with e _; subst e; exact absurd hc (by decide)
  | fls => injection e with e _; subst e; exact absurd hc (by decide)
  | str => injection e with e _; subst e; exact absurd hc (by decide)
  | arr0 => injection e with e _; subst e; exact absurd hc (by decide)
  | arr => injection e with e _; subst e; exact absurd hc (by decide)
  | obj0 => injection e with e _; subst e; exact absurd hc (by decide)
  | obj => injection e with e _; subst e; exact absurd hc (by decide)

theorem text_nospace {p : NumParts} (h : p.Ok) : (32 : UInt8) ∉ p.text := by
  obtain ⟨_, h1, _, h2, h3⟩ := h
  have hd : ¬ Digit 32 := by decide
  unfold NumParts.text
  simp only [List.mem_append, not_or]
  refine ⟨⟨⟨?_, fun h => hd (h1 _ h)⟩, ?_⟩, ?_⟩
  · split <;> simp
  · split
    · simp
    · simp only [List.mem_cons, not_or]
      exact ⟨by decide, fun h => hd (h2 _ h)⟩
  · split
    · simp
    · rename_i e sg xs he
      obtain ⟨g1, g2, _, g3⟩ := h3 _ _ _ he
      simp only [List.mem_cons, List.mem_append, not_or]
      refine ⟨?_, ?_, fun h => hd (g3 _ h)⟩
      · rcases g1 with rfl | rfl <;> decide
      · rcases g2 with rfl | rfl | rfl <;> simp

/-- `[1 2]` is read as `[1, 2]`. -/
theorem accepts_missing_comma_fails : read { noComments := true } true [0] [91, 49, 32, 50, 93] = some (.ok (.arr [.int 1, .int 2], 0)) ∧
    ¬ ∃ v, Doc rfc [91, 49, 32, 50, 93] v := by
  refine ⟨by rfl, ?_⟩
  rintro ⟨v, h⟩
  rcases rfc_arr (m := [49, 32, 50]) h with h | ⟨l, h⟩
  · exact absurd (blank_mem h 49 (by simp)) (by decide)
  · obtain ⟨a, t, b, v, e, ha, hb, hv⟩ := elems_one h (by decide)
    cases a with
    | cons c a =>
      injection e with e _
      subst e
      exact absurd (blank_mem ha 49 (by simp)) (by decide)
    | nil =>
      cases t with
      | nil =>
        simp only [List.nil_append] at e
        rw [← e] at hb
        exact absurd (blank_mem hb 49 (by simp)) (by decide)
      | cons c t =>
        injection e with e1 e2
        subst e1
        obtain ⟨p, hp, et⟩ := val_digit hv (by decide)
        have hn := text_nospace hp
        rw [← et] at hn
        cases t with
        | nil =>
          have e2 : [32, 50] = b := e2
          rw [← e2] at hb
          exact absurd (blank_mem hb 50 (by simp)) (by decide)
        | cons d t =>
          injection e2 with e3 _
          subst e3
          simp at hn

/-- `[01]` is read as `[1]`. -/
theorem accepts_leading_zero_fails : read { noComments := true } true [0] [91, 48, 49, 93] = some (.ok (.arr [.int 1], 0)) ∧ ¬ ∃ v, Doc rfc [91, 48, 49, 93] v := by
  refine ⟨by rfl, ?_⟩
  rintro ⟨v, h⟩
  rcases rfc_arr (m := [48, 49]) h with h | ⟨l, h⟩
  · exact absurd (blank_mem h 48 (by simp)) (by decide)
  · obtain ⟨a, t, b, v, e, ha, hb, hv⟩ := elems_one h (by decide)
    cases a with
    | cons c a =>
      injection e with e _
      subst e
      exact absurd (blank_mem ha 48 (by simp)) (by decide)
    | nil =>
      cases t with
      | nil =>
        simp only [List.nil_append] at e
        rw [← e] at hb
        exact absurd (blank_mem hb 48 (by simp)) (by decide)
      | cons c t =>
        injection e with e1 e2
        subst e1
        obtain ⟨p, ⟨p1, p2, p3, p4, p5⟩, et⟩ := val_digit hv (by decide)
        cases t with
        | nil =>
          have e2 : [49] = b := e2
          rw [← e2] at hb
          exact absurd (blank_mem hb 49 (by simp)) (by decide)
        | cons d t =>
          injection e2 with e3 e4
          subst e3
          have et0 : t = [] := (List.append_eq_nil_iff.1 e4.symm).1
          subst et0
          unfold NumParts.text at et
          cases hn : p.neg with
          | true => rw [hn] at et; simp at et
          | false =>
            rw [hn] at et
            simp only [Bool.false_eq_true, if_false, List.nil_append] at et
            cases hds : p.ds with
            | nil => exact p1 hds
            | cons x ds =>
              rw [hds] at et p3
              simp only [List.cons_append] at et
              injection et with e1 e2
              subst e1
              have := p3 rfl
              injection this with _ this
              subst this
              simp only [List.nil_append] at e2
              by_cases hf : p.fs = []
              · rw [if_pos hf, List.nil_append] at e2
                split at e2
                · cases e2
                · rename_i e sg xs he
                  injection e2 with e2 _
                  have := (p5 _ _ _ he).1
                  rw [← e2] at this
                  exact absurd this (by decide)
              · rw [if_neg hf] at e2
                simp only [List.cons_append] at e2
                injection e2 with e2 _
                exact absurd e2 (by decide)

/-- A vertical tab counts as white space. -/
theorem accepts_vertical_tab_fails : read { noComments := true } true [0] [91, 11, 93] = some (.ok (.arr [], 0)) ∧ ¬ ∃ v, Doc rfc [91, 11, 93] v := by
  refine ⟨by rfl, ?_⟩
  rintro ⟨v, h⟩
  rcases rfc_arr (m := [11]) h with h | ⟨l, h⟩
  · exact absurd (blank_mem h 11 (by simp)) (by decide)
  · obtain ⟨a, t, b, v, e, ha, hb, hv⟩ := elems_one h (by decide)
    cases a with
    | cons c a =>
      injection e with e _
      subst e
      exact absurd (blank_mem ha 11 (by simp)) (by decide)
    | nil =>
      cases t with
      | nil =>
        simp only [List.nil_append] at e
        rw [← e] at hb
        exact absurd (blank_mem hb 11 (by simp)) (by decide)
      | cons c t =>
        injection e with e1 e2
        subst e1
        generalize ht : (11 :: t : List UInt8) = u at hv
        cases hv with
        | num h =>
          obtain ⟨p, ⟨p1, p2, p3, p4, p5⟩, et, _⟩ := h
          rw [← ht] at et
          unfold NumParts.text at et
          cases hn : p.neg with
          | true => rw [hn] at et; simp at et
          | false =>
            rw [hn] at et
            simp only [Bool.false_eq_true, if_false, List.nil_append] at et
            cases hds : p.ds with
            | nil => exact p1 hds
            | cons x ds =>
              rw [hds] at et p2
              simp only [List.cons_append] at et
              injection et with e1 _
              have := p2 x (by simp)
              rw [← e1] at this
              exact absurd this (by decide)
        | null => injection ht with e _; exact absurd e (by decide)
        | tru => injection ht with e _; exact absurd e (by decide)
        | fls => injection ht with e _; exact absurd e (by decide)
        | str => injection ht with e _; exact absurd e (by decide)
        | arr0 => injection ht with e _; exact absurd e (by decide)
        | arr => injection ht with e _; exact absurd e (by decide)
        | obj0 => injection ht with e _; exact absurd e (by decide)
        | obj => injection ht with e _; exact absurd e (by decide)

/-- Other texts accepted (that they are not in the grammar of the standard is not proved here): `{"a":1 "b":2}`; `[1. 5]`, read as 1.05; a string with a byte that is not UTF-8; an escape `\u41` cut
short by a zero byte, read as `A`; and a string cut at an escape `\u0000`. -/
theorem accepts_other_fails :
    read { noComments := true } true [0] [123, 34, 97, 34, 58, 49, 32, 34, 98, 34, 58, 50, 125] = some (.ok (.obj [([97], .int 1), ([98], .int 2)], 0)) ∧
    read { noComments := true } true [0] [91, 49, 46, 32, 53, 93] = some (.ok (.arr [.dec ⟨105, 2⟩], 0)) ∧
    read { noComments := true } true [0] [91, 34, 255, 34, 93] = some (.ok (.arr [.str [255]], 0)) ∧
    read { noComments := true } true [0] [91, 34, 92, 117, 52, 49, 0, 120, 34, 93] = some (.ok (.arr [.str [65]], 0)) ∧
    read { noComments := true } true [0] [91, 34, 92, 117, 48, 48, 48, 48, 97, 34, 93] = some (.ok (.arr [.str []], 0)) :=
  ⟨by rfl, by rfl, by rfl, by rfl, by rfl⟩

/-- Surrogate pairs, which the standard allows, are refused. -/
theorem rejects_pair_fails : read { noComments := true } true [0] [91, 34, 92, 117, 68, 56, 51, 68, 92, 117, 68, 69, 48, 48, 34, 93] = some (.error .invalidUnicodeEscape) ∧
    Doc rfc [91, 34, 92, 117, 68, 56, 51, 68, 92, 117, 68, 69, 48, 48, 34, 93] (.arr [.str (utf8 0x1F600)]) := by
  refine ⟨by rfl, [], _, [], by simp; rfl, .nil, .nil, ?_, trivial⟩
  have hx : Hex4 [68, 56, 51, 68] (0xD800 + 0x3D) := ⟨rfl, by decide +kernel, by decide +kernel⟩
  have hy : Hex4 [68, 69, 48, 48] (0xDC00 + 0x200) := ⟨rfl, by decide +kernel, by decide +kernel⟩
  have hs : rfc.str [92, 117, 68, 56, 51, 68, 92, 117, 68, 69, 48, 48] (utf8 0x1F600 ++ []) :=
    StrBody.pair (esc := fun _ => True) (pairs := True) trivial hx hy (by decide) (by decide) .nil
  rw [List.append_nil] at hs
  exact .arr (.one (G := rfc) (a := []) (b := []) Blank.nil (.str hs) Blank.nil)

end Verif.Json
