import Verif.Csv.Model
import Verif.Str.Props
/- What the CSV parser makes of a text, and that it reads back what the writer wrote. -/
namespace Verif.Csv
open Verif.Chr (isSpace)

/- Specification: a byte is inside quotes if the number of quotes before it is odd.  Outside quotes the line feed ends a row,
the delimiter ends a field, and the carriage return is dropped together with the rest of its field. -/

/-- The bytes of a text with their meaning. -/
inductive Tok where
  | byte (c : UInt8)
  | field
  | row
  | cr
deriving DecidableEq

/-- The meaning of every byte of a text. -/
def toks (delim quote : UInt8) : Bool → List UInt8 → List Tok
  | _, [] => []
  | on, c :: r =>
    if c = quote then .byte c :: toks delim quote (!on) r
    else if on then .byte c :: toks delim quote on r
    else if c = delim then .field :: toks delim quote on r
    else if c = 10 then .row :: toks delim quote on r
    else if c = 13 then .cr :: toks delim quote on r
    else .byte c :: toks delim quote on r

/-- The parts of a list between the occurrences of a separator. -/
def split (x : Tok) : List Tok → List (List Tok)
  | [] => [[]]
  | t :: ts =>
    if t = x then [] :: split x ts
    else match split x ts with
      | [] => [[t]]
      | y :: ys => (t :: y) :: ys

/-- The bytes of a field. -/
def content : List Tok → List UInt8
  | [] => []
  | .byte c :: ts => c :: content ts
  | _ :: ts => 0 :: content ts

/-- A last row that does not count: nothing but carriage returns.  (If the carriage return is the delimiter it counts in the
first row only.) -/
def blank (delim : UInt8) (first : Bool) (r : List Tok) : Bool := r.all fun t => t = .cr || (delim = 13 && !first && t = .field)

/-- The rows of a text. -/
def keep (delim : UInt8) : Bool → List (List Tok) → List (List Tok)
  | _, [] => []
  | first, [r] => if blank delim first r then [] else [r]
  | _, r :: s :: rs => r :: keep delim false (s :: rs)

/-- A quoted text without its quotes: of `k` quotes in a row half remain; `k` quotes have been seen. -/
def halve (quote : UInt8) : Nat → List UInt8 → List UInt8
  | k, [] => List.replicate (k / 2) quote
  | k, c :: r => if c = quote then halve quote (k + 1) r else List.replicate (k / 2) quote ++ c :: halve quote 0 r

/-- A text without the white space around it. -/
def strip (s : List UInt8) : List UInt8 := ((s.dropWhile isSpace).reverse.dropWhile isSpace).reverse

/-- The value of a field: with a quote in it what is left without quotes (a lone quote is empty), else the possibly stripped
text, or nothing if that is empty.  The field ends at the first carriage return or zero byte. -/
def value (trim : Bool) (quote : UInt8) (f : List Tok) : Option (List UInt8) :=
  let s := (content f).takeWhile (· ≠ 0)
  if Tok.byte quote ∈ f then some (if halve quote 0 s = [quote] then [] else halve quote 0 s)
  else if trim = true ∧ strip s ≠ [] then some (strip s)
  else if trim = false ∧ s ≠ [] then some s
  else none

/-- A row of `cols` cells, missing cells are null, surplus cells are dropped. -/
def fit (cols : Nat) (xs : List (Option (List UInt8))) : List (Option (List UInt8)) := xs.take cols ++ List.replicate (cols - xs.length) none

/-- The table a text stands for: as many columns as the first row has fields. -/
def table (trim : Bool) (delim quote : UInt8) (text : List UInt8) : Option Matrix :=
  match keep delim true (split .row (toks delim quote false text)) with
  | [] => none
  | r :: rs => some ((r :: rs).map fun s => fit (split .field r).length ((split .field s).map (value trim quote)))

/- The value of a field in the model -/

def value0 (trim : Bool) (quote : UInt8) (f : List Tok) : Option (List UInt8) := finish trim quote (Tok.byte quote ∈ f) (content f)

theorem halve_two (quote : UInt8) (s : List UInt8) : ∀ k, halve quote (k + 2) s = quote :: halve quote k s := by
  have e : ∀ k, (k + 2) / 2 = k / 2 + 1 := by omega
  induction s with
  | nil => intro k; rw [halve, halve, e]; rfl
  | cons c r ih =>
    intro k
    rw [halve, halve]
    split
    · rw [show k + 2 + 1 = k + 1 + 2 by omega]; exact ih (k + 1)
    · rw [e, List.replicate_succ]; rfl

theorem removeLoop_halve (quote : UInt8) (s : List UInt8) : removeLoop quote s = halve quote 0 s := by
  fun_induction removeLoop quote s with
  | case1 => rfl
  | case2 => simp [halve]
  | case3 c h => simp [halve, h]
  | case4 r ih => rw [ih, halve, if_pos rfl, halve, if_pos rfl, ← halve_two]
  | case5 d r h ih => rw [ih, halve, halve, if_pos rfl, halve, if_neg h, if_neg h]
  | case6 c d r h ih =>
    rw [ih]
    conv => rhs; rw [halve, if_neg h]
    rfl

theorem trim_strip (s : List UInt8) : Str.trim s = strip s := by
  have h1 : s = s.takeWhile isSpace ++ s.dropWhile isSpace := List.takeWhile_append_dropWhile.symm
  have hd : ∀ (l : List UInt8) c, (l.dropWhile isSpace).head? = some c → isSpace c = false := by
    intro l c h
    have := List.head?_dropWhile_not isSpace l
    rw [h] at this
    simpa using this
  have h2 : (s.dropWhile isSpace).reverse = (s.dropWhile isSpace).reverse.takeWhile isSpace ++ (s.dropWhile isSpace).reverse.dropWhile isSpace :=
    List.takeWhile_append_dropWhile.symm
  have hm : ∀ (l : List UInt8), ∀ x ∈ l.takeWhile isSpace, isSpace x = true := by
    intro l x hx
    exact List.all_eq_true.1 (List.all_takeWhile) x hx
  refine Str.trim_unique (a := s.takeWhile isSpace) (b := ((s.dropWhile isSpace).reverse.takeWhile isSpace).reverse) ?_ (hm s) ?_ ?_
  · rw [List.append_assoc, strip, ← List.reverse_append, ← h2, List.reverse_reverse, ← h1]
  · intro x hx; exact hm _ x (List.mem_reverse.1 hx)
  · constructor
    · intro c t e
      refine hd s c ?_
      have : s.dropWhile isSpace = strip s ++ ((s.dropWhile isSpace).reverse.takeWhile isSpace).reverse := by
        rw [strip, ← List.reverse_append, ← h2, List.reverse_reverse]
      rw [this, e]; rfl
    · intro c t e
      refine hd (s.dropWhile isSpace).reverse c ?_
      have := congrArg List.reverse e
      rw [strip, List.reverse_reverse] at this
      rw [this]; simp

theorem value0_eq (trim : Bool) (quote : UInt8) : value0 trim quote = value trim quote := by
  funext f
  unfold value0 value finish removeQuotes
  simp only [removeLoop_halve, trim_strip, decide_eq_true_eq]
  split
  · rfl
  · cases trim <;> simp <;> split <;> simp_all

/- The counting pass -/

/-- The counting pass on tokens. -/
def countTok (delim : UInt8) : List Tok → (rowLen rows cols : Nat) → Nat × Nat × Nat
  | [], rowLen, rows, cols => (rowLen, rows, cols)
  | .byte _ :: ts, rowLen, rows, cols => countTok delim ts (rowLen + 1) rows cols
  | .field :: ts, rowLen, rows, cols =>
    if rows = 0 then countTok delim ts (rowLen + 1) rows (cols + 1)
    else countTok delim ts (if delim = 13 then rowLen else rowLen + 1) rows cols
  | .row :: ts, _, rows, cols => countTok delim ts 0 (rows + 1) (if rows = 0 then cols + 1 else cols)
  | .cr :: ts, rowLen, rows, cols => countTok delim ts rowLen rows cols

/-- Two results that agree but for the exact length of the last row. -/
def Agree (a b : Nat × Nat × Nat) : Prop := (a.1 = 0 ↔ b.1 = 0) ∧ a.2 = b.2

theorem countTok_len (delim : UInt8) (ts : List Tok) : ∀ (l l' rows cols : Nat), (l = 0 ↔ l' = 0) → Agree (countTok delim ts l rows cols) (countTok delim ts l' rows cols) := by
  induction ts with
  | nil => intro l l' rows cols h; exact ⟨h, rfl⟩
  | cons t ts ih =>
    intro l l' rows cols h
    cases t with
    | byte c => exact ih _ _ _ _ (by omega)
    | field =>
      simp only [countTok]
      split
      · exact ih _ _ _ _ (by omega)
      · refine ih _ _ _ _ ?_
        split <;> omega
    | row => exact ih _ _ _ _ Iff.rfl
    | cr => exact ih _ _ _ _ h

theorem Agree.trans {a b c : Nat × Nat × Nat} (h : Agree a b) (h' : Agree b c) : Agree a c := ⟨h.1.trans h'.1, h.2.trans h'.2⟩
theorem Agree.refl (a : Nat × Nat × Nat) : Agree a a := ⟨Iff.rfl, rfl⟩

theorem countLoop_cons (delim quote c : UInt8) (r : List UInt8) (on : Bool) (l rows cols : Nat) : countLoop delim quote (c :: r) on l rows cols =
    if c = quote then
      if r.head? = some quote then countLoop delim quote r.tail on (l + 1) rows cols else countLoop delim quote r (!on) (l + 1) rows cols
    else if on = false ∧ c = delim ∧ rows = 0 then countLoop delim quote r on (l + 1) rows (cols + 1)
    else if on = false ∧ c = 10 then countLoop delim quote r on 0 (rows + 1) (if rows = 0 then cols + 1 else cols)
    else if on = true ∨ c ≠ 13 then countLoop delim quote r on (l + 1) rows cols
    else countLoop delim quote r on l rows cols := by
  cases r with
  | nil => simp only [countLoop, List.head?_nil, reduceCtorEq, if_false]
  | cons d r => simp only [countLoop, List.head?_cons, Option.some.injEq, List.tail_cons]

theorem head_tail {r : List UInt8} {q : UInt8} (h : r.head? = some q) : r = q :: r.tail := by
  cases r with
  | nil => cases h
  | cons d r => simp at h; simp [h]

theorem countLoop_tok (delim quote : UInt8) : ∀ (n : Nat) (text : List UInt8), text.length ≤ n → ∀ (on : Bool) (l rows cols : Nat), (rows ≠ 0 → delim ≠ 10 ∨ delim = quote) →
    Agree (countLoop delim quote text on l rows cols) (countTok delim (toks delim quote on text) l rows cols) := by
  intro n
  induction n with
  | zero =>
    intro text h on l rows cols _
    rw [List.length_eq_zero_iff.1 (Nat.le_zero.1 h)]
    exact Agree.refl _
  | succ n ih =>
    intro text h on l rows cols hz
    cases text with
    | nil => exact Agree.refl _
    | cons c r =>
      have hr : r.length ≤ n := by simpa using h
      rw [countLoop_cons, toks]
      by_cases hq : c = quote
      · rw [if_pos hq, if_pos hq, countTok]
        by_cases hd : r.head? = some quote
        · rw [if_pos hd]
          have hrt : r.tail.length ≤ n := by rw [List.length_tail]; omega
          refine (ih r.tail hrt on (l + 1) rows cols hz).trans ?_
          have e := head_tail hd
          have : toks delim quote (!on) r = .byte quote :: toks delim quote on r.tail := by
            rw [e, toks, if_pos rfl, Bool.not_not, List.tail_cons]
          rw [this, countTok]
          exact countTok_len _ _ _ _ _ _ (by omega)
        · rw [if_neg hd]
          exact ih r hr (!on) (l + 1) rows cols hz
      · rw [if_neg hq, if_neg hq]
        cases on with
        | true =>
          simp only [Bool.true_eq_false, false_and, if_false, true_or, if_true, countTok]
          exact ih r hr _ _ _ _ hz
        | false =>
          simp only [true_and, Bool.false_eq_true, if_false, false_or]
          by_cases hd : c = delim
          · rw [if_pos hd]
            by_cases h0 : rows = 0
            · rw [if_pos ⟨hd, h0⟩, countTok, if_pos h0]
              exact ih r hr _ _ _ _ hz
            · rw [if_neg (fun h => h0 h.2)]
              have hn : c ≠ 10 := by
                rcases hz h0 with h | h
                · rw [hd]; exact h
                · exact absurd (hd.trans h) hq
              rw [if_neg hn, hd, countTok, if_neg h0]
              by_cases hc : delim = 13
              · rw [if_neg (by simpa using hc), if_pos hc]; exact ih r hr _ _ _ _ hz
              · rw [if_pos hc, if_neg hc]; exact ih r hr _ _ _ _ hz
          · rw [if_neg (fun h => hd h.1), if_neg hd]
            by_cases hn : c = 10
            · rw [if_pos hn, if_pos hn, countTok]
              refine ih r hr _ _ _ _ fun _ => Or.inl ?_
              rw [← hn]; exact fun h => hd h.symm
            · rw [if_neg hn, if_neg hn]
              by_cases hc : c = 13
              · rw [if_neg (by simpa using hc), if_pos hc, countTok]; exact ih r hr _ _ _ _ hz
              · rw [if_pos hc, if_neg hc, countTok]; exact ih r hr _ _ _ _ hz

theorem split_ne (x : Tok) (ts : List Tok) : split x ts ≠ [] := by
  cases ts with
  | nil => simp [split]
  | cons t ts =>
    simp only [split]
    split
    · simp
    · split <;> simp

/-- Counting tokens counts rows and the fields of the first row. -/
theorem countTok_spec (delim : UInt8) (ts : List Tok) : ∀ (l rows cols : Nat), ∃ r rs, split .row ts = r :: rs ∧
    (countTok delim ts l rows cols).2.1 = rows + rs.length ∧
    (countTok delim ts l rows cols).2.2 = (if rows = 0 then (if rs = [] then cols + (split .field r).length - 1 else cols + (split .field r).length) else cols) ∧
    ((countTok delim ts l rows cols).1 = 0 ↔ if rs = [] then l = 0 ∧ blank delim (rows = 0) r = true else blank delim false (rs.getLastD []) = true) := by
  induction ts with
  | nil => intro l rows cols; exact ⟨[], [], rfl, rfl, by simp [countTok, split], by simp [countTok, blank]⟩
  | cons t ts ih =>
    intro l rows cols
    cases t with
    | byte c =>
      obtain ⟨r, rs, h1, h2, h3, h4⟩ := ih (l + 1) rows cols
      refine ⟨.byte c :: r, rs, by simp [split, h1], h2, ?_, ?_⟩
      · rw [countTok, h3]
        have : (split .field (.byte c :: r)).length = (split .field r).length := by
          simp only [split, reduceCtorEq, if_false]
          split
          · rename_i h; exact absurd h (split_ne _ _)
          · rename_i h; rw [h]; rfl
        rw [this]
      · rw [countTok, h4]
        split
        · simp [blank]
        · rfl
    | field =>
      by_cases h0 : rows = 0
      · obtain ⟨r, rs, h1, h2, h3, h4⟩ := ih (l + 1) rows (cols + 1)
        have hl : 0 < (split .field r).length := List.length_pos_iff.2 (split_ne _ _)
        have : (split .field (.field :: r)).length = (split .field r).length + 1 := by simp [split]
        refine ⟨.field :: r, rs, by simp [split, h1], by rw [countTok, if_pos h0]; exact h2, ?_, ?_⟩
        · rw [countTok, if_pos h0, h3, this, if_pos h0, if_pos h0]
          split <;> omega
        · rw [countTok, if_pos h0, h4]
          split
          · simp [blank, h0]
          · rfl
      · obtain ⟨r, rs, h1, h2, h3, h4⟩ := ih (if delim = 13 then l else l + 1) rows cols
        refine ⟨.field :: r, rs, by simp [split, h1], by rw [countTok, if_neg h0]; exact h2, ?_, ?_⟩
        · rw [countTok, if_neg h0, h3, if_neg h0, if_neg h0]
        · rw [countTok, if_neg h0, h4]
          split
          · by_cases hd : delim = 13
            · simp [blank, h0, hd]
            · simp [blank, h0, hd]
          · rfl
    | row =>
      obtain ⟨r, rs, h1, h2, h3, h4⟩ := ih 0 (rows + 1) (if rows = 0 then cols + 1 else cols)
      refine ⟨[], r :: rs, by simp [split, h1], ?_, ?_, ?_⟩
      · rw [countTok, h2, List.length_cons]; omega
      · rw [countTok, h3]
        simp [split]
      · rw [countTok, h4]
        cases rs with
        | nil => simp
        | cons s rs => simp
    | cr =>
      obtain ⟨r, rs, h1, h2, h3, h4⟩ := ih l rows cols
      refine ⟨.cr :: r, rs, by simp [split, h1], h2, ?_, ?_⟩
      · rw [countTok, h3]
        have : (split .field (.cr :: r)).length = (split .field r).length := by
          simp only [split, reduceCtorEq, if_false]
          split
          · rename_i h; exact absurd h (split_ne _ _)
          · rename_i h; rw [h]; rfl
        rw [this]
      · rw [countTok, h4]
        split
        · simp [blank]
        · rfl

theorem keep_length (delim : UInt8) : ∀ (first : Bool) (r : List Tok) (rs : List (List Tok)), (keep delim first (r :: rs)).length =
    if (if rs = [] then blank delim first r else blank delim false (rs.getLastD [])) = true then rs.length else rs.length + 1
  | first, r, [] => by
    simp only [keep]
    by_cases h : blank delim first r = true <;> simp [h]
  | first, r, s :: rs => by
    rw [keep, List.length_cons, keep_length delim false s rs]
    cases rs with
    | nil => by_cases h : blank delim false s = true <;> simp [h]
    | cons x xs =>
      simp only [reduceCtorEq, if_false, List.getLastD_cons]
      split <;> simp

/-- The counting pass finds the number of rows and the number of fields of the first row. -/
theorem count_correct (delim quote : UInt8) (text : List UInt8) : ∃ r rs, split .row (toks delim quote false text) = r :: rs ∧
    (count delim quote text).1 = (keep delim true (r :: rs)).length ∧ ((count delim quote text).1 ≠ 0 → (count delim quote text).2 = (split .field r).length) := by
  have ha := countLoop_tok delim quote text.length text (Nat.le_refl _) false 0 0 0 (by simp)
  obtain ⟨r, rs, h1, h2, h3, h4⟩ := countTok_spec delim (toks delim quote false text) 0 0 0
  refine ⟨r, rs, h1, ?_⟩
  have hl : 0 < (split .field r).length := List.length_pos_iff.2 (split_ne _ _)
  unfold count
  generalize countLoop delim quote text false 0 0 0 = a at *
  generalize countTok delim (toks delim quote false text) 0 0 0 = b at *
  obtain ⟨a1, a2, a3⟩ := a
  obtain ⟨b1, b2, b3⟩ := b
  obtain ⟨hb, he⟩ := ha
  simp only [Prod.mk.injEq] at he
  obtain ⟨rfl, rfl⟩ := he
  dsimp only at *
  rw [keep_length]
  simp only [Nat.zero_add, if_true] at h2 h3
  subst h2
  have hcount : (if a1 ≠ 0 then rs.length + 1 else rs.length) = (if (if rs = [] then blank delim true r else blank delim false (rs.getLastD [])) = true then rs.length else rs.length + 1) := by
    rw [← hb] at h4
    by_cases hr : rs = []
    · simp only [if_pos hr, true_and, decide_true] at h4 ⊢
      by_cases h : a1 = 0
      · rw [if_neg (by simpa using h), if_pos (h4.1 h)]
      · rw [if_pos h, if_neg (fun h' => h (h4.2 h'))]
    · simp only [if_neg hr] at h4 ⊢
      by_cases h : a1 = 0
      · rw [if_neg (by simpa using h), if_pos (h4.1 h)]
      · rw [if_pos h, if_neg (fun h' => h (h4.2 h'))]
  refine ⟨hcount, ?_⟩
  intro hne
  rw [h3]
  by_cases hr : rs = []
  · subst hr
    by_cases h : a1 = 0
    · simp [h] at hne
    · simp [h]; omega
  · have : rs.length ≠ 0 := by simpa using hr
    simp [hr]

/- The splitting pass -/

/-- The splitting pass on tokens. -/
def tokLoop (trim : Bool) (quote : UInt8) (rows cols : Nat) : List Tok → St → Option St
  | [], s => some s
  | .byte c :: ts, s => tokLoop trim quote rows cols ts { s with had := s.had || c = quote, cur := s.cur ++ [c] }
  | .cr :: ts, s => tokLoop trim quote rows cols ts { s with cur := s.cur ++ [0] }
  | .field :: ts, s => (onDelim trim quote cols s).bind fun s => tokLoop trim quote rows cols ts s
  | .row :: ts, s => (onNewline trim quote rows cols s).bind fun p => if p.2 then some p.1 else tokLoop trim quote rows cols ts p.1

theorem parseLoop_cons (trim : Bool) (delim quote : UInt8) (rows cols : Nat) (c : UInt8) (r : List UInt8) (s : St) : parseLoop trim delim quote rows cols (c :: r) s =
    if c = quote then
      if s.on = true ∧ r.head? = some quote then parseLoop trim delim quote rows cols r.tail { s with had := true, cur := s.cur ++ [c, quote] }
      else parseLoop trim delim quote rows cols r { s with had := true, on := !s.on, cur := s.cur ++ [c] }
    else if s.on = false ∧ c = delim then (onDelim trim quote cols s).bind fun s => parseLoop trim delim quote rows cols r s
    else if s.on = false ∧ c = 10 then
      (onNewline trim quote rows cols s).bind fun p => if p.2 then some p.1 else parseLoop trim delim quote rows cols r p.1
    else if s.on = false ∧ c = 13 then parseLoop trim delim quote rows cols r { s with cur := s.cur ++ [0] }
    else parseLoop trim delim quote rows cols r { s with cur := s.cur ++ [c] } := by
  cases r with
  | nil =>
    simp only [parseLoop, List.head?_nil, reduceCtorEq, and_false, if_false]
    rcases h : onNewline trim quote rows cols s with _ | p <;> rcases h' : onDelim trim quote cols s with _ | p' <;> simp
  | cons d r =>
    simp only [parseLoop, List.head?_cons, Option.some.injEq, List.tail_cons]
    by_cases hq : c = quote
    · rw [if_pos hq, if_pos hq]
      by_cases hd : s.on = true ∧ d = quote
      · rw [if_pos hd, if_pos hd, hd.2]
      · rw [if_neg hd, if_neg hd]
    · rw [if_neg hq, if_neg hq]

def clr (s : St) : St := { s with on := false }

theorem clr_off {s : St} (h : s.on = false) : clr s = s := by cases s; simp only at h; simp [clr, h]

theorem onDelim_off {trim : Bool} {quote : UInt8} {cols : Nat} {s t : St} (h : onDelim trim quote cols s = some t) : t.on = s.on := by
  unfold onDelim at h
  obtain ⟨m, -, rfl⟩ := Option.map_eq_some_iff.1 h
  rfl

theorem onNewline_off {trim : Bool} {quote : UInt8} {rows cols : Nat} {s : St} {p : St × Bool} (h : onNewline trim quote rows cols s = some p) : p.1.on = s.on := by
  unfold onNewline at h
  obtain ⟨m, -, h⟩ := Option.bind_eq_some_iff.1 h
  split at h
  · cases h; rfl
  · split at h
    · cases h; rfl
    · cases h

theorem parseLoop_tok (trim : Bool) (delim quote : UInt8) (rows cols : Nat) : ∀ (n : Nat) (text : List UInt8), text.length ≤ n → ∀ s : St,
    (parseLoop trim delim quote rows cols text s).map clr = tokLoop trim quote rows cols (toks delim quote s.on text) (clr s) := by
  intro n
  induction n with
  | zero => intro text h s; rw [List.length_eq_zero_iff.1 (Nat.le_zero.1 h)]; rfl
  | succ n ih =>
    intro text h s
    cases text with
    | nil => rfl
    | cons c r =>
      have hr : r.length ≤ n := by simpa using h
      rw [parseLoop_cons, toks]
      by_cases hq : c = quote
      · rw [if_pos hq, if_pos hq, tokLoop]
        by_cases hd : s.on = true ∧ r.head? = some quote
        · rw [if_pos hd]
          have hrt : r.tail.length ≤ n := by rw [List.length_tail]; omega
          have : toks delim quote (!s.on) r = .byte quote :: toks delim quote s.on r.tail := by
            rw [head_tail hd.2, toks, if_pos rfl, Bool.not_not, List.tail_cons]
          rw [ih r.tail hrt, this, tokLoop]
          subst hq
          simp [clr]
        · rw [if_neg hd, ih r hr]
          subst hq
          simp [clr]
      · rw [if_neg hq, if_neg hq]
        cases ho : s.on with
        | true =>
          simp only [Bool.true_eq_false, false_and, if_false, if_true, tokLoop]
          rw [ih r hr]
          simp [clr, hq, ho]
        | false =>
          simp only [true_and, Bool.false_eq_true, if_false]
          by_cases hd : c = delim
          · rw [if_pos hd, if_pos hd, tokLoop, clr_off ho]
            cases hk : onDelim trim quote cols s with
            | none => rfl
            | some t =>
              have := (onDelim_off hk).trans ho
              simp only [Option.bind_some]
              rw [ih r hr, this, clr_off this]
          · rw [if_neg hd, if_neg hd]
            by_cases hn : c = 10
            · rw [if_pos hn, if_pos hn, tokLoop, clr_off ho]
              cases hk : onNewline trim quote rows cols s with
              | none => rfl
              | some p =>
                have := (onNewline_off hk).trans ho
                simp only [Option.bind_some]
                cases hp : p.2 with
                | true => simp [clr_off this]
                | false => simp only [Bool.false_eq_true, if_false]; rw [ih r hr, this, clr_off this]
            · rw [if_neg hn, if_neg hn]
              by_cases hc : c = 13
              · rw [if_pos hc, if_pos hc, tokLoop, ih r hr]; simp [clr, ho]
              · rw [if_neg hc, if_neg hc, tokLoop, ih r hr]; simp [clr, hq, ho]

/-- The tokens of fields or rows joined again. -/
def glue (x : Tok) : List (List Tok) → List Tok
  | [] => []
  | [y] => y
  | y :: z :: r => y ++ x :: glue x (z :: r)

theorem glue_split (x : Tok) (ts : List Tok) : glue x (split x ts) = ts ∧ ∀ y ∈ split x ts, x ∉ y := by
  induction ts with
  | nil => simp [split, glue]
  | cons t ts ih =>
    cases hs : split x ts with
    | nil => exact absurd hs (split_ne _ _)
    | cons y ys =>
      rw [hs] at ih
      by_cases h : t = x
      · subst h
        rw [split, if_pos rfl, hs]
        refine ⟨by rw [glue, ih.1]; rfl, ?_⟩
        intro z hz
        rcases List.mem_cons.1 hz with rfl | hz
        · simp
        · exact ih.2 z hz
      · rw [split, if_neg h, hs]
        dsimp only
        refine ⟨?_, ?_⟩
        · cases ys with
          | nil => simp only [glue] at ih ⊢; rw [ih.1]
          | cons z zs => simp only [glue] at ih ⊢; rw [List.cons_append, ih.1]
        · intro z hz
          rcases List.mem_cons.1 hz with rfl | hz
          · rw [List.mem_cons]
            rintro (h' | h')
            · exact h h'.symm
            · exact ih.2 y (by simp) h'
          · exact ih.2 z (by simp [hz])

/-- A field without its separator. -/
theorem tokLoop_field (trim : Bool) (quote : UInt8) (rows cols : Nat) (f rest : List Tok) (h1 : Tok.field ∉ f) (h2 : Tok.row ∉ f) : ∀ s : St,
    tokLoop trim quote rows cols (f ++ rest) s = tokLoop trim quote rows cols rest { s with had := s.had || decide (Tok.byte quote ∈ f), cur := s.cur ++ content f } := by
  induction f with
  | nil => intro s; simp [content]
  | cons t f ih =>
    intro s
    have ih := ih (fun h => h1 (by simp [h])) (fun h => h2 (by simp [h]))
    cases t with
    | byte c =>
      rw [List.cons_append, tokLoop, ih, content]
      have e : (decide (Tok.byte quote ∈ Tok.byte c :: f)) = (decide (c = quote) || decide (Tok.byte quote ∈ f)) := by
        rw [← Bool.decide_or]; congr 1; simp [eq_comm]
      rw [e]
      simp [Bool.or_assoc]
    | cr =>
      rw [List.cons_append, tokLoop, ih, content]
      · simp
      · intro c h; cases h
    | field => exact absurd (by simp) h1
    | row => exact absurd (by simp) h2

theorem fit_length (cols : Nat) (xs : List (Option (List UInt8))) : (fit cols xs).length = cols := by
  simp [fit]; omega

theorem fit_set (cols : Nat) (xs : List (Option (List UInt8))) (x : Option (List UInt8)) (h : xs.length < cols) : (fit cols xs).set xs.length x = fit cols (xs ++ [x]) := by
  unfold fit
  rw [List.take_of_length_le (by omega), List.take_of_length_le (by simp; omega), List.set_append_right _ _ (by omega), Nat.sub_self]
  have : cols - xs.length = (cols - (xs ++ [x]).length) + 1 := by simp; omega
  rw [this, List.replicate_succ, List.set_cons_zero]
  simp

theorem fit_full (cols : Nat) (xs : List (Option (List UInt8))) (x : Option (List UInt8)) (h : cols ≤ xs.length) : fit cols (xs ++ [x]) = fit cols xs := by
  unfold fit
  rw [List.take_append_of_le_length h]
  congr 2
  simp; omega

/-- Closing a cell adds it to the row being filled. -/
theorem closeCell_fit (trim : Bool) (quote : UInt8) (cols : Nat) (done later : Matrix) (xs : List (Option (List UInt8))) (had : Bool) (cur : List UInt8) :
    closeCell trim quote cols (done ++ fit cols xs :: later) done.length xs.length had cur = some (done ++ fit cols (xs ++ [finish trim quote had cur]) :: later) := by
  unfold closeCell
  by_cases h : xs.length < cols
  · rw [if_pos h, store]
    have e : (done ++ fit cols xs :: later).getD done.length [] = fit cols xs := by simp
    rw [e, if_pos ⟨by simp, by rw [fit_length]; exact h⟩, fit_set _ _ _ h]
    simp
  · rw [if_neg h, fit_full _ _ _ (by omega)]

/-- The fields of a row, up to its last one. -/
theorem tokLoop_fields (trim : Bool) (quote : UInt8) (rows cols : Nat) (done later : Matrix) (rest : List Tok) : ∀ (fs : List (List Tok)), fs ≠ [] →
    (∀ f ∈ fs, Tok.field ∉ f ∧ Tok.row ∉ f) → ∀ xs : List (Option (List UInt8)),
    ∃ l init, fs = init ++ [l] ∧ tokLoop trim quote rows cols (glue .field fs ++ rest) ⟨done.length, xs.length, false, false, [], done ++ fit cols xs :: later⟩ =
      tokLoop trim quote rows cols rest ⟨done.length, xs.length + init.length, false, decide (Tok.byte quote ∈ l), content l, done ++ fit cols (xs ++ init.map (value0 trim quote)) :: later⟩ := by
  intro fs
  induction fs with
  | nil => intro h; exact absurd rfl h
  | cons f fs ih =>
    intro _ hf xs
    cases fs with
    | nil =>
      refine ⟨f, [], rfl, ?_⟩
      rw [glue, tokLoop_field _ _ _ _ _ _ (hf f (by simp)).1 (hf f (by simp)).2]
      simp
    | cons g gs =>
      obtain ⟨l, init, e1, e2⟩ := ih (by simp) (fun f h => hf f (by simp [h])) (xs ++ [value0 trim quote f])
      refine ⟨l, f :: init, by rw [e1]; rfl, ?_⟩
      rw [glue, List.append_assoc, tokLoop_field _ _ _ _ _ _ (hf f (by simp)).1 (hf f (by simp)).2, List.cons_append, tokLoop, onDelim]
      simp only [Bool.false_or, List.nil_append]
      rw [closeCell_fit]
      simp only [Option.map_some, Option.bind_some]
      simp only [List.length_append, List.length_singleton] at e2
      change tokLoop trim quote rows cols (glue Tok.field (g :: gs) ++ rest) ⟨done.length, xs.length + 1, false, false, [], done ++ fit cols (xs ++ [value0 trim quote f]) :: later⟩ = _
      rw [e2]
      simp [Nat.add_assoc, Nat.add_comm 1]

theorem keep_nil {delim : UInt8} {first : Bool} {r : List Tok} {rs : List (List Tok)} (h : keep delim first (r :: rs) = []) : rs = [] := by
  cases rs with
  | nil => rfl
  | cons s rs => simp [keep] at h

/-- The rest of `M_csv_parse_inplace` behind the loop. -/
def final (trim : Bool) (quote : UInt8) (rows cols : Nat) (s : St) : Option (Option Matrix) :=
  if s.row < rows ∧ s.col < cols then (closeCell trim quote cols s.m s.row s.col s.had s.cur).map some else some (some s.m)

theorem mem_glue {x t : Tok} {fs : List (List Tok)} {f : List Tok} (hf : f ∈ fs) (ht : t ∈ f) : t ∈ glue x fs := by
  match fs with
  | [] => cases hf
  | [y] => simp at hf; subst hf; exact ht
  | y :: z :: r =>
    rw [glue, List.mem_append]
    rcases List.mem_cons.1 hf with rfl | hf
    · exact Or.inl ht
    · exact Or.inr (List.mem_cons_of_mem _ (mem_glue hf ht))

/-- The rows from any one on. -/
theorem tokLoop_rows (trim : Bool) (delim quote : UInt8) (rows cols : Nat) (hc : 0 < cols) : ∀ (rs : List (List Tok)) (first : Bool) (done : Matrix), (∀ r ∈ rs, Tok.row ∉ r) →
    keep delim first rs ≠ [] → rows = done.length + (keep delim first rs).length →
    (tokLoop trim quote rows cols (glue .row rs) ⟨done.length, 0, false, false, [], done ++ List.replicate (rows - done.length) (List.replicate cols none)⟩).bind (final trim quote rows cols) =
      some (some (done ++ (keep delim first rs).map fun s => fit cols ((split .field s).map (value0 trim quote)))) := by
  intro rs
  induction rs with
  | nil => intro first done _ h; exact absurd rfl h
  | cons r rs ih =>
    intro first done hr hk hn
    obtain ⟨k, hk1⟩ : ∃ k, rows - done.length = k + 1 := ⟨rows - done.length - 1, by have := List.length_pos_iff.2 hk; omega⟩
    have e0 : List.replicate cols (none : Option (List UInt8)) = fit cols [] := by simp [fit]
    have hfs := glue_split .field r
    have hfr : ∀ f ∈ split .field r, Tok.field ∉ f ∧ Tok.row ∉ f := fun f h => ⟨hfs.2 f h, fun h' => hr r (by simp) (by rw [← hfs.1]; exact mem_glue h h')⟩
    cases rs with
    | nil =>
      have hkr : keep delim first [r] = [r] := by
        simp only [keep] at hk ⊢
        split
        · rename_i h; rw [if_pos h] at hk; exact absurd rfl hk
        · rfl
      rw [hkr] at hn ⊢
      simp only [List.length_singleton] at hn
      obtain ⟨l, init, e1, e2⟩ := tokLoop_fields trim quote rows cols done (List.replicate k (fit cols [])) [] (split .field r) (split_ne _ _) hfr []
      simp only [List.append_nil, hfs.1, List.length_nil, Nat.zero_add, List.nil_append] at e2
      rw [hk1, List.replicate_succ, e0, glue, e2, tokLoop, Option.bind_some, final]
      have hk0 : k = 0 := by omega
      subst hk0
      simp only [List.replicate_zero, List.map_cons, List.map_nil]
      have hcl := closeCell_fit trim quote cols done [] (init.map (value0 trim quote)) (decide (Tok.byte quote ∈ l)) (content l)
      rw [List.length_map] at hcl
      have ev : finish trim quote (decide (Tok.byte quote ∈ l)) (content l) = value0 trim quote l := rfl
      rw [ev] at hcl
      have er : (split .field r).map (value0 trim quote) = init.map (value0 trim quote) ++ [value0 trim quote l] := by rw [e1]; simp
      rw [er]
      by_cases h : init.length < cols
      · rw [if_pos ⟨by omega, h⟩, hcl]; rfl
      · rw [if_neg (fun h' => h h'.2), fit_full _ _ _ (by simp; omega)]
    | cons r2 rs =>
      obtain ⟨l, init, e1, e2⟩ := tokLoop_fields trim quote rows cols done (List.replicate k (fit cols [])) (.row :: glue .row (r2 :: rs)) (split .field r) (split_ne _ _) hfr []
      simp only [hfs.1, List.length_nil, Nat.zero_add, List.nil_append] at e2
      rw [hk1, List.replicate_succ, e0, glue, e2, tokLoop, onNewline]
      have hcl := closeCell_fit trim quote cols done (List.replicate k (fit cols [])) (init.map (value0 trim quote)) (decide (Tok.byte quote ∈ l)) (content l)
      rw [List.length_map] at hcl
      have ev : finish trim quote (decide (Tok.byte quote ∈ l)) (content l) = value0 trim quote l := rfl
      rw [ev] at hcl
      have er : (split .field r).map (value0 trim quote) = init.map (value0 trim quote) ++ [value0 trim quote l] := by rw [e1]; simp
      dsimp only
      rw [hcl, Option.bind_some, ← er]
      rw [keep] at hn ⊢
      rw [List.length_cons] at hn
      rw [List.map_cons]
      by_cases hb : done.length + 1 = rows
      · rw [if_pos hb]
        have hk2 : keep delim false (r2 :: rs) = [] := List.length_eq_zero_iff.1 (by omega)
        have hk0 : k = 0 := by omega
        subst hk0
        simp only [Option.bind_some, if_true, hk2, List.map_nil, List.replicate_zero]
        rw [final, if_neg (fun h => by have := h.1; dsimp only at this; omega)]
      · rw [if_neg hb]
        have hk2 : keep delim false (r2 :: rs) ≠ [] := fun h => by rw [h] at hn; simp at hn; omega
        obtain ⟨k', rfl⟩ : ∃ k', k = k' + 1 := ⟨k - 1, by omega⟩
        rw [if_pos]
        · simp only [Option.bind_some, Bool.false_eq_true, if_false]
          have := ih false (done ++ [fit cols ((split .field r).map (value0 trim quote))]) (fun r h => hr r (by simp [h])) hk2 (by simp; omega)
          simp only [List.length_append, List.length_singleton, List.append_assoc, List.singleton_append] at this
          rw [show rows - (done.length + 1) = k' + 1 by omega, e0] at this
          exact this
        · refine ⟨by simp, ?_⟩
          rw [List.getD_eq_getElem?_getD, List.getElem?_append_right (by omega)]
          simp [fit_length, hc, List.replicate_succ]

/-- What the parser makes of any text: never a store outside the matrix, and the table the text stands for. -/
theorem parse_correct (trim : Bool) (delim quote : UInt8) (text : List UInt8) : parse trim delim quote text = some (table trim delim quote text) := by
  obtain ⟨r, rs, h1, h2, h3⟩ := count_correct delim quote text
  unfold parse table
  rw [← value0_eq]
  rw [h1]
  by_cases h0 : text = []
  · subst h0
    simp only [toks, split, List.cons.injEq] at h1
    obtain ⟨rfl, rfl⟩ := h1
    simp [keep, blank]
  · rw [if_neg h0]
    dsimp only
    by_cases hn : (count delim quote text).1 = 0
    · rw [if_pos hn]
      rw [hn] at h2
      rw [List.length_eq_zero_iff.1 h2.symm]
    · have hc := h3 hn
      have hl : 0 < (split .field r).length := List.length_pos_iff.2 (split_ne _ _)
      rw [if_neg hn, if_neg (by omega)]
      have hk : keep delim true (r :: rs) ≠ [] := fun h => by rw [h] at h2; simp at h2; omega
      have hg := glue_split .row (toks delim quote false text)
      rw [h1] at hg
      have ht := tokLoop_rows trim delim quote (count delim quote text).1 (count delim quote text).2 (by omega) (r :: rs) true [] hg.2 hk (by simpa using h2)
      rw [hg.1] at ht
      have hp := parseLoop_tok trim delim quote (count delim quote text).1 (count delim quote text).2 text.length text (Nat.le_refl _)
        ⟨0, 0, false, false, [], List.replicate (count delim quote text).1 (List.replicate (count delim quote text).2 none)⟩
      simp only [List.length_nil, Nat.sub_zero, List.nil_append] at ht
      dsimp only [clr] at hp
      rw [← hp] at ht
      have : ∀ o : Option St, (o.map clr).bind (final trim quote (count delim quote text).1 (count delim quote text).2) = o.bind fun s =>
          if s.row < (count delim quote text).1 ∧ s.col < (count delim quote text).2 then (closeCell trim quote (count delim quote text).2 s.m s.row s.col s.had s.cur).map some else some (some s.m) := by
        intro o; cases o <;> rfl
      have ht := (this _).symm.trans ht
      refine ht.trans ?_
      have hkr : ∃ rs', keep delim true (r :: rs) = r :: rs' := by
        cases rs with
        | nil =>
          simp only [keep] at hk ⊢
          split
          · rename_i h; rw [if_pos h] at hk; exact absurd rfl hk
          · exact ⟨[], rfl⟩
        | cons s rs => exact ⟨_, rfl⟩
      obtain ⟨rs', hkr⟩ := hkr
      rw [hkr, hc]

/- Shape -/

/-- Every row of the table has the same number of cells. -/
theorem table_rect (trim : Bool) (delim quote : UInt8) (text : List UInt8) (m : Matrix) (h : table trim delim quote text = some m) :
    m ≠ [] ∧ ∃ n, 0 < n ∧ ∀ r ∈ m, r.length = n := by
  unfold table at h
  split at h
  · cases h
  · rename_i r rs _
    have := Option.some.inj h
    subst this
    refine ⟨by simp, _, List.length_pos_iff.2 (split_ne .field r), ?_⟩
    intro x hx
    obtain ⟨y, -, rfl⟩ := List.mem_map.1 hx
    exact fit_length _ _

/- Reading what was written -/

/-- Delimiter and quote that can be told apart from the line ends and from each other. -/
structure Good (delim quote : UInt8) : Prop where
  dq : delim ≠ quote
  d0 : delim ≠ 0
  dn : delim ≠ 10
  dr : delim ≠ 13
  q0 : quote ≠ 0
  qn : quote ≠ 10
  qr : quote ≠ 13

/-- How a cell reads back: an empty one as missing. -/
def norm : Option (List UInt8) → Option (List UInt8)
  | some [] => none
  | x => x

theorem remove_double (q : UInt8) : ∀ t : List UInt8, removeLoop q (double q t ++ [q]) = t
  | [] => by simp [double, removeLoop]
  | c :: t => by
    have ih := remove_double q t
    by_cases h : c = q
    · subst h
      simp only [double, if_pos, List.cons_append]
      rw [removeLoop, if_pos rfl, if_pos rfl, ih]
    · simp only [double, if_neg h, List.cons_append]
      cases hd : double q t ++ [q] with
      | nil => simp at hd
      | cons x xs => rw [removeLoop, if_neg h, ← hd, ih]

theorem remove_enclosed (q : UInt8) : ∀ t : List UInt8, (∃ c ∈ t, c ≠ q) → removeLoop q (q :: double q t ++ [q]) = t
  | [], h => by simp at h
  | c :: t, h => by
    by_cases hc : c = q
    · subst hc
      have ih := remove_enclosed c t (by obtain ⟨x, hx, hn⟩ := h; rcases List.mem_cons.1 hx with rfl | hx; exact absurd rfl hn; exact ⟨x, hx, hn⟩)
      simp only [double, if_pos, List.cons_append] at ih ⊢
      rw [removeLoop, if_pos rfl, if_pos rfl, ih]
    · simp only [double, if_neg hc, List.cons_append]
      rw [removeLoop, if_pos rfl, if_neg hc]
      have := remove_double q (c :: t)
      simpa only [double, if_neg hc, List.cons_append] using this

theorem takeWhile_all {p : UInt8 → Bool} {s : List UInt8} (h : ∀ c ∈ s, p c = true) : s.takeWhile p = s := by
  induction s with
  | nil => rfl
  | cons c s ih => rw [List.takeWhile_cons, if_pos (h c (by simp)), ih fun x hx => h x (by simp [hx])]

theorem double_mem {q c : UInt8} {s : List UInt8} (h : c ∈ double q s) : c ∈ s ∨ c = q := by
  induction s with
  | nil => simp [double] at h
  | cons x s ih =>
    simp only [double] at h
    split at h
    · simp only [List.mem_cons] at h ⊢
      rcases h with h | h | h
      · exact Or.inl (Or.inl h)
      · exact Or.inr h
      · exact (ih h).imp Or.inr id
    · simp only [List.mem_cons] at h ⊢
      rcases h with h | h
      · exact Or.inl (Or.inl h)
      · exact (ih h).imp Or.inr id

theorem double_plain {q : UInt8} {s : List UInt8} (h : q ∉ s) : double q s = s := by
  induction s with
  | nil => rfl
  | cons c s ih => rw [double, if_neg (fun e => h (by simp [e])), ih fun h' => h (by simp [h'])]

/-- Plain bytes outside quotes. -/
theorem toks_plain (d q : UInt8) (s rest : List UInt8) (h : ∀ c ∈ s, c ≠ q ∧ c ≠ d ∧ c ≠ 10 ∧ c ≠ 13) : toks d q false (s ++ rest) = s.map .byte ++ toks d q false rest := by
  induction s with
  | nil => rfl
  | cons c s ih =>
    obtain ⟨h1, h2, h3, h4⟩ := h c (by simp)
    simp only [List.cons_append, toks, if_neg h1, if_neg h2, if_neg h3, if_neg h4, Bool.false_eq_true, if_false, List.map_cons]
    rw [ih fun x hx => h x (by simp [hx])]

/-- The inside of quotes. -/
theorem toks_double (d q : UInt8) (s rest : List UInt8) : toks d q true (double q s ++ rest) = (double q s).map .byte ++ toks d q true rest := by
  induction s with
  | nil => rfl
  | cons c s ih =>
    by_cases h : c = q
    · subst h
      simp only [double, if_pos, List.cons_append, toks, Bool.not_true, Bool.not_false, List.map_cons]
      rw [ih]
    · simp only [double, if_neg h, List.cons_append, toks, if_true, List.map_cons]
      rw [ih]

/-- A cell as it is written, without its delimiter. -/
def cellText (d q : UInt8) (cell : Option (List UInt8)) : List UInt8 := (addCell d q cell).dropLast

theorem addCell_eq (d q : UInt8) (cell : Option (List UInt8)) : addCell d q cell = cellText d q cell ++ [d] := by
  unfold cellText addCell
  rw [List.dropLast_concat]

/-- Cells the reader gives back: without zero bytes and not made of quotes only. -/
def CellOk (q : UInt8) (cell : Option (List UInt8)) : Prop := ∀ s, cell = some s → 0 ∉ s ∧ (s ≠ [] → ∃ c ∈ s, c ≠ q)

theorem content_bytes (s : List UInt8) : content (s.map .byte) = s := by
  induction s with
  | nil => rfl
  | cons c s ih => simp [content, ih]

/-- A written cell is one field and its value is the cell. -/
theorem cell_tok {d q : UInt8} (g : Good d q) (trim : Bool) (cell : Option (List UInt8)) (ok : CellOk q cell) (rest : List UInt8) :
    toks d q false (cellText d q cell ++ rest) = (cellText d q cell).map .byte ++ toks d q false rest ∧ value0 trim q ((cellText d q cell).map .byte) = norm cell := by
  have hempty : ∀ t : Bool, value0 t q ([].map Tok.byte) = none := by
    intro t; cases t <;> simp [value0, finish, content, Str.trim, Str.trimMax]
  match cell, ok with
  | none, _ => exact ⟨rfl, hempty _⟩
  | some [], _ => exact ⟨rfl, hempty _⟩
  | some (x :: s), ok =>
    obtain ⟨hz, hne⟩ := ok _ rfl
    have hne := hne (by simp)
    have hcs : [d, q, 10, 13].takeWhile (· ≠ (0 : UInt8)) = [d, q, 10, 13] := takeWhile_all (by simp [g.d0, g.q0])
    have ht : cellText d q (some (x :: s)) = (if needsQuotes d q (x :: s) then [q] else []) ++ double q (x :: s) ++ (if needsQuotes d q (x :: s) then [q] else []) := by
      unfold cellText addCell
      rw [List.dropLast_concat]
    rw [ht]
    cases hq : needsQuotes d q (x :: s) with
    | true =>
      simp only [if_true]
      refine ⟨?_, ?_⟩
      · simp only [List.singleton_append, List.nil_append, List.cons_append, List.append_assoc, toks, if_true, Bool.not_false, List.map_cons, List.map_append, List.map_nil]
        rw [toks_double]
        simp [toks]
      · unfold value0 finish
        rw [content_bytes]
        have hm : Tok.byte q ∈ ([q] ++ double q (x :: s) ++ [q]).map Tok.byte := by simp
        simp only [hm, decide_true, if_true]
        rw [takeWhile_all]
        · rw [removeQuotes, List.append_assoc, List.singleton_append, ← List.cons_append, remove_enclosed q _ hne]
          rw [if_neg]
          · rfl
          · intro e
            obtain ⟨c, hc, hn⟩ := hne
            rw [e] at hc
            exact hn (by simpa using hc)
        · intro c hc
          simp only [List.mem_append, List.mem_singleton] at hc
          have : c ∈ x :: s ∨ c = q := by
            rcases hc with (h | h) | h
            · exact Or.inr h
            · exact double_mem h
            · exact Or.inr h
          rcases this with h | h
          · simpa using fun e : c = 0 => hz (e ▸ h)
          · simpa [h] using g.q0
    | false =>
      simp only [Bool.false_eq_true, if_false, List.nil_append, List.append_nil]
      simp only [needsQuotes, hcs, Bool.or_eq_false_iff, List.any_eq_false, decide_eq_true_eq] at hq
      obtain ⟨⟨h1, h2⟩, h3⟩ := hq
      have hpl : ∀ c ∈ x :: s, c ≠ q ∧ c ≠ d ∧ c ≠ 10 ∧ c ≠ 13 := by
        intro c hc
        have := h3 c hc
        simp only [List.mem_cons, List.not_mem_nil, or_false, not_or] at this
        exact ⟨this.2.1, this.1, this.2.2.1, this.2.2.2⟩
      rw [double_plain fun h => (hpl q h).1 rfl]
      refine ⟨toks_plain d q _ _ hpl, ?_⟩
      unfold value0 finish
      rw [content_bytes]
      have hm : ¬ Tok.byte q ∈ (x :: s).map Tok.byte := by
        rw [List.mem_map]
        rintro ⟨c, hc, e⟩
        exact (hpl c hc).1 (by simpa using e)
      simp only [hm, decide_false, Bool.false_eq_true, if_false]
      rw [takeWhile_all fun c hc => by simpa using fun e : c = 0 => hz (e ▸ hc)]
      have htr : Str.trim (x :: s) = x :: s := by
        apply Str.trim_eq
        refine ⟨?_, ?_⟩
        · intro c t e
          simp only [List.cons.injEq] at e
          rw [← e.1]
          simpa using h1
        · intro c t e
          rw [e, List.getLast?_concat] at h2
          simpa using h2
      cases trim <;> simp [htr, norm]

/-- A row as it is written. -/
def rowText (d q : UInt8) : List (Option (List UInt8)) → List UInt8
  | [] => []
  | [c] => cellText d q c
  | c :: c' :: cs => cellText d q c ++ d :: rowText d q (c' :: cs)

theorem flatMap_row (d q : UInt8) : ∀ row : List (Option (List UInt8)), row ≠ [] → row.flatMap (addCell d q) = rowText d q row ++ [d]
  | [], h => absurd rfl h
  | [c], _ => by simp [rowText, addCell_eq]
  | c :: c' :: cs, _ => by
    rw [List.flatMap_cons, flatMap_row d q (c' :: cs) (by simp), rowText, addCell_eq]; simp

theorem writeRow_eq (d q : UInt8) (row : List (Option (List UInt8))) (h : row ≠ []) : writeRow d q row = rowText d q row ++ [13, 10] := by
  unfold writeRow
  rw [flatMap_row d q row h]
  simp

/-- The tokens of a written row. -/
def rowToks (d q : UInt8) : List (Option (List UInt8)) → List Tok
  | [] => []
  | [c] => (cellText d q c).map .byte
  | c :: c' :: cs => (cellText d q c).map .byte ++ .field :: rowToks d q (c' :: cs)

theorem row_tok {d q : UInt8} (g : Good d q) (rest : List UInt8) : ∀ row : List (Option (List UInt8)), (∀ c ∈ row, CellOk q c) →
    toks d q false (rowText d q row ++ rest) = rowToks d q row ++ toks d q false rest
  | [], _ => rfl
  | [c], h => (cell_tok g false c (h c (by simp)) rest).1
  | c :: c' :: cs, h => by
    rw [rowText, rowToks, List.append_assoc, (cell_tok g false c (h c (by simp)) _).1, List.cons_append, toks, if_neg g.dq]
    simp only [Bool.false_eq_true, if_false, if_true]
    rw [row_tok g rest (c' :: cs) fun x hx => h x (by simp [hx])]
    simp

theorem split_append (x : Tok) (a b : List Tok) (h : x ∉ a) : split x (a ++ x :: b) = a :: split x b := by
  induction a with
  | nil => simp [split]
  | cons t a ih =>
    rw [List.cons_append, split, if_neg (fun e => h (by simp [e])), ih fun h' => h (by simp [h'])]

theorem split_none (x : Tok) (a : List Tok) (h : x ∉ a) : split x a = [a] := by
  induction a with
  | nil => rfl
  | cons t a ih => rw [split, if_neg (fun e => h (by simp [e])), ih fun h' => h (by simp [h'])]

theorem bytes_free (s : List UInt8) : Tok.field ∉ s.map Tok.byte ∧ Tok.row ∉ s.map Tok.byte := by
  constructor <;> simp

theorem rowToks_row (d q : UInt8) : ∀ row : List (Option (List UInt8)), Tok.row ∉ rowToks d q row
  | [] => by simp [rowToks]
  | [c] => (bytes_free _).2
  | c :: c' :: cs => by
    rw [rowToks, List.mem_append, List.mem_cons]
    rintro (h | h | h)
    · exact (bytes_free _).2 h
    · cases h
    · exact rowToks_row d q (c' :: cs) h

/-- The values of the fields of a written row; the carriage return ends up in the last field. -/
theorem rowToks_values {d q : UInt8} (g : Good d q) (trim : Bool) : ∀ row : List (Option (List UInt8)), row ≠ [] → (∀ c ∈ row, CellOk q c) →
    (split .field (rowToks d q row ++ [.cr])).map (value0 trim q) = row.map norm
  | [], h, _ => absurd rfl h
  | [c], _, h => by
    rw [rowToks, split_none]
    · have hv := (cell_tok g trim c (h c (by simp)) []).2
      simp only [List.map_cons, List.map_nil, List.cons.injEq, and_true]
      rw [← hv]
      unfold value0 finish
      have hc : content ((cellText d q c).map .byte ++ [.cr]) = cellText d q c ++ [0] := by
        generalize cellText d q c = s
        induction s with
        | nil => rfl
        | cons x s ih => simp [content, ih]
      rw [hc, content_bytes]
      have hm : decide (Tok.byte q ∈ (cellText d q c).map Tok.byte ++ [Tok.cr]) = decide (Tok.byte q ∈ (cellText d q c).map Tok.byte) := by
        congr 1; simp
      have htw : (cellText d q c ++ [0]).takeWhile (fun x => decide (x ≠ 0)) = (cellText d q c).takeWhile (fun x => decide (x ≠ 0)) := by
        generalize cellText d q c = s
        induction s with
        | nil => simp
        | cons x s ih => simp only [List.cons_append, List.takeWhile_cons, ih]
      rw [hm, htw]
    · rw [List.mem_append]
      rintro (h | h)
      · exact (bytes_free _).1 h
      · simp at h
  | c :: c' :: cs, _, h => by
    rw [rowToks, List.append_assoc, List.cons_append, split_append _ _ _ (bytes_free _).1, List.map_cons,
      rowToks_values g trim (c' :: cs) (by simp) (fun x hx => h x (by simp [hx])), (cell_tok g trim c (h c (by simp)) []).2]
    rfl

theorem write_split {d q : UInt8} (g : Good d q) : ∀ m : Matrix, (∀ r ∈ m, r ≠ [] ∧ ∀ c ∈ r, CellOk q c) →
    split .row (toks d q false (write d q m)) = m.map (fun r => rowToks d q r ++ [.cr]) ++ [[]]
  | [], _ => rfl
  | r :: m, h => by
    obtain ⟨h1, h2⟩ := h r (by simp)
    unfold write
    rw [List.flatMap_cons, writeRow_eq d q r h1, List.append_assoc, row_tok g _ r h2]
    have : toks d q false ([13, 10] ++ m.flatMap (writeRow d q)) = .cr :: .row :: toks d q false (write d q m) := by
      have a1 : (13 : UInt8) ≠ q := Ne.symm g.qr
      have a2 : (13 : UInt8) ≠ d := Ne.symm g.dr
      have a3 : (10 : UInt8) ≠ q := Ne.symm g.qn
      have a4 : (10 : UInt8) ≠ d := Ne.symm g.dn
      simp [toks, a1, a2, a3, a4, write]
    rw [this]
    have e : rowToks d q r ++ Tok.cr :: Tok.row :: toks d q false (write d q m) = (rowToks d q r ++ [Tok.cr]) ++ Tok.row :: toks d q false (write d q m) := by simp
    rw [e, split_append, write_split g m fun r hr => h r (by simp [hr])]
    · simp
    · rw [List.mem_append]
      rintro (h | h)
      · exact rowToks_row d q r h
      · simp at h

theorem keep_written (d : UInt8) : ∀ (first : Bool) (rs : List (List Tok)), keep d first (rs ++ [[]]) = rs
  | _, [] => by simp [keep, blank]
  | _, [r] => by simp [keep, blank]
  | _, r :: s :: rs => by
    have := keep_written d false (s :: rs)
    simp only [List.cons_append] at this ⊢
    rw [keep, this]

/-- Parsing the text written for a table gives the table back, an empty cell reads back as missing.  Missing: cells that
consist of quotes only, see `quotes_fails`. -/
theorem write_parse_partial {d q : UInt8} (g : Good d q) (trim : Bool) (m : Matrix) (n : Nat) (hm : m ≠ []) (hn : 0 < n) (hrect : ∀ r ∈ m, r.length = n)
    (ok : ∀ r ∈ m, ∀ c ∈ r, CellOk q c) : parse trim d q (write d q m) = some (some (m.map (·.map norm))) := by
  have hne : ∀ r ∈ m, r ≠ [] := fun r hr e => by have := hrect r hr; rw [e] at this; simp at this; omega
  rw [parse_correct]
  unfold table
  rw [← value0_eq]
  rw [write_split g m fun r hr => ⟨hne r hr, ok r hr⟩, keep_written]
  cases m with
  | nil => exact absurd rfl hm
  | cons r rs =>
    rw [List.map_cons]
    dsimp only
    congr 2
    rw [← List.map_cons (f := fun r => rowToks d q r ++ [Tok.cr])]
    have hv := fun s hs => rowToks_values g trim s (hne s hs) (ok s hs)
    have hl : (split .field (rowToks d q r ++ [.cr])).length = n := by
      have := congrArg List.length (hv r (by simp))
      simp only [List.length_map] at this
      rw [this, hrect r (by simp)]
    rw [hl, List.map_map]
    apply List.map_congr_left
    intro s hs
    simp only [Function.comp]
    rw [hv s hs, fit]
    have := hrect s hs
    rw [List.take_of_length_le (by simp; omega), List.length_map, this]
    simp

/-- A cell that consists of quotes reads back with one quote more. -/
theorem quotes_fails : write 44 34 [[some [34], some [97]]] = [34, 34, 34, 34, 44, 97, 13, 10] ∧
    parse false 44 34 [34, 34, 34, 34, 44, 97, 13, 10] = some (some [[some [34, 34], some [97]]]) := by decide +kernel

/-- A table that meets the conditions. -/
example : Good 44 34 ∧ (∀ r ∈ [[some [97, 34, 10], none], [some [32], some [44, 98]]], ∀ c ∈ r, CellOk 34 c) ∧
    parse true 44 34 (write 44 34 [[some [97, 34, 10], none], [some [32], some [44, 98]]]) = some (some [[some [97, 34, 10], none], [some [32], some [44, 98]]]) := by
  refine ⟨⟨by decide, by decide, by decide, by decide, by decide, by decide, by decide⟩, ?_, by decide +kernel⟩
  simp only [List.mem_cons, List.not_mem_nil, or_false, forall_eq_or_imp, forall_eq, CellOk, Option.some.injEq, reduceCtorEq, false_implies, implies_true, and_true, true_and]
  refine ⟨?_, ?_, ?_⟩ <;> intro s hs <;> subst hs <;> exact ⟨by decide, fun _ => by decide⟩

end Verif.Csv
