import Verif.Str.Model
/- Quoted and bracketed sections of strings, and breaking text into lines. -/
namespace Verif.Str
open Verif.Chr (isSpace)

/-! ### Quoted sections -/

/-- A string as a reader sees it: ordinary characters, characters behind an escape character, and quotes. -/
inductive Tok where
  | plain (c : UInt8)
  | pair (x : UInt8)
  | quote
deriving DecidableEq

/-- Reading from left to right: an escape character goes with the character behind it. -/
def toks (q e : UInt8) : List UInt8 → List Tok
  | [] => []
  | c :: [] => if c = e then [.plain e] else if c = q then [.quote] else [.plain c]
  | c :: x :: r => if c = e then .pair x :: toks q e r else (if c = q then .quote else .plain c) :: toks q e (x :: r)

/-- The text of the ordinary and escaped characters; quotes and escape characters lose their escape. -/
def text (q e : UInt8) : Tok → List UInt8
  | .plain c => [c]
  | .pair x => if x = q ∨ x = e then [x] else [e, x]
  | .quote => []

/-- The text inside (`keep`) or outside the quotes. -/
def section_ (keep : Bool) (q e : UInt8) : Bool → List Tok → List UInt8
  | _, [] => []
  | on, .quote :: ts => section_ keep q e (!on) ts
  | on, t :: ts => (if on = keep then text q e t else []) ++ section_ keep q e on ts

/-- Whether a quote is open at the end. -/
def openEnd : Bool → List Tok → Bool
  | on, [] => on
  | on, .quote :: ts => openEnd (!on) ts
  | on, _ :: ts => openEnd on ts

theorem isEscaped_other {e c : UInt8} (h : c ≠ e) (rev : List UInt8) : isEscaped e (c :: rev) = false := by
  simp [isEscaped, h]

theorem isEscaped_self (e : UInt8) (rev : List UInt8) : isEscaped e (e :: rev) = !isEscaped e rev := by
  simp only [isEscaped, List.takeWhile_cons, decide_true, if_true, List.length_cons]
  by_cases h : (rev.takeWhile (· = e)).length % 2 = 1
  · simp only [h, decide_true, Bool.not_true, decide_eq_false_iff_not]; omega
  · simp only [h, decide_false, Bool.not_false, decide_eq_true_eq]; omega

theorem quoted_loop (keep : Bool) (q e : UInt8) (hqe : q ≠ e) (s : List UInt8) : ∀ (rev : List UInt8) (on : Bool) (dst : List UInt8), isEscaped e rev = false →
    quotedLoop keep q e s rev on dst = some (openEnd on (toks q e s), dst ++ section_ keep q e on (toks q e s)) := by
  fun_induction toks q e s with
  | case1 => intro rev on dst _; simp [quotedLoop, openEnd, section_]
  | case2 =>
    intro rev on dst hr
    simp only [quotedLoop, hr, openEnd, section_, text]
    by_cases h : on = keep <;> simp [h, Ne.symm hqe]
  | case3 h =>
    intro rev on dst hr
    simp [quotedLoop, hr, openEnd, section_]
  | case4 c h1 h2 =>
    intro rev on dst hr
    simp only [quotedLoop, hr, openEnd, section_, text]
    by_cases h : on = keep <;> simp [h, h1, h2]
  | case5 x r ih =>
    intro rev on dst hr
    have h1 : isEscaped e (e :: rev) = true := by rw [isEscaped_self, hr]; rfl
    have h2 : isEscaped e (x :: e :: rev) = false := by
      by_cases hx : x = e
      · rw [hx, isEscaped_self, h1]; rfl
      · exact isEscaped_other hx _
    rw [quotedLoop, if_neg (fun h => hqe h.1.symm)]
    by_cases h : on = keep
    · rw [if_pos h, if_neg (by rw [hr]; simp [Ne.symm hqe])]
      rw [quotedLoop, if_neg (by rw [h1]; simp), if_pos h]
      simp only [openEnd, section_, text, if_pos h]
      by_cases hx : x = q ∨ x = e
      · rw [if_pos (by rw [h1]; simpa using hx), if_neg (by simp), if_pos hx, ih _ _ _ h2]
        simp
      · rw [if_neg (by rw [h1]; simpa using hx), if_neg hx, ih _ _ _ h2]
        simp
    · rw [if_neg h, quotedLoop, if_neg (by rw [h1]; simp), if_neg h, ih _ _ _ h2]
      simp only [openEnd, section_, if_neg h, List.nil_append]
  | case6 c x r h ih =>
    intro rev on dst hr
    have h2 := isEscaped_other h rev
    rw [quotedLoop]
    by_cases hq : c = q
    · rw [if_pos ⟨hq, hr⟩, ih _ _ _ h2, if_pos hq]
      simp only [openEnd, section_]
    · rw [if_neg (fun h => hq h.1), if_neg hq]
      simp only [openEnd, section_, text]
      by_cases ho : on = keep
      · rw [if_pos ho, if_neg (by simp [hq, h]), ih _ _ _ h2, if_pos ho]; simp
      · rw [if_neg ho, if_neg ho, ih _ _ _ h2]; simp

/-- Removing or keeping the quoted sections never writes outside the new string and gives the text outside or inside the
quotes, with the escape characters of quotes and escape characters taken away; an open quote is an error.  Missing: a
quote that is its own escape character, see `quoted_fails`. -/
theorem quoted_partial (keep : Bool) (s : List UInt8) (q e : UInt8) (hqe : q ≠ e) (hs : s ≠ []) :
    quoted keep s q e = some (if openEnd false (toks q e s) then none else some (section_ keep q e false (toks q e s))) := by
  unfold quoted
  rw [if_neg hs, quoted_loop keep q e hqe s [] false [] rfl]
  rfl

/-- If quote and escape are the same, keeping the quoted sections of `""` stores a byte before the allocation. -/
theorem quoted_fails : quoted true [34, 34] 34 34 = none := by decide

example : quoted false [97, 34, 98, 34, 92, 34, 99] 34 92 = some (some [97, 34, 99]) ∧ quoted true [97, 34, 98, 92, 92, 34, 99] 34 92 = some (some [98, 92]) ∧
    quoted true [97, 34, 98] 34 92 = some none := by decide

/-! ### Brackets -/

/-- Text with balanced brackets. -/
inductive Doc where
  | nil
  | char (x : UInt8) (rest : Doc)
  | group (inner rest : Doc)

def Doc.render (o c : UInt8) : Doc → List UInt8
  | .nil => []
  | .char x r => x :: r.render o c
  | .group i r => o :: (i.render o c ++ c :: r.render o c)

/-- The text outside all brackets. -/
def Doc.outer : Doc → List UInt8
  | .nil => []
  | .char x r => x :: r.outer
  | .group _ r => r.outer

/-- The text inside the outermost brackets. -/
def Doc.inside (o c : UInt8) : Doc → List UInt8
  | .nil => []
  | .char _ r => r.inside o c
  | .group i r => i.render o c ++ r.inside o c

/-- The characters are no brackets. -/
def Doc.Ok (o c : UInt8) : Doc → Prop
  | .nil => True
  | .char x r => x ≠ o ∧ x ≠ c ∧ r.Ok o c
  | .group i r => i.Ok o c ∧ r.Ok o c

/-- What a piece of text adds to the result at nesting depth `n`. -/
def added (keep : Bool) (o c : UInt8) (n : Nat) (t : Doc) : List UInt8 :=
  if keep then (if n > 0 then t.render o c else t.inside o c) else (if n = 0 then t.outer else [])

theorem bracket_doc (keep : Bool) (o c : UInt8) (hoc : o ≠ c) (h0 : o ≠ 0) (h1 : c ≠ 0) (t : Doc) : ∀ (rest rev : List UInt8) (n : Nat) (dst : List UInt8),
    t.Ok o c → 0 ∉ t.render o c → ∃ rev', bracketLoop keep o c 0 0 (t.render o c ++ rest) rev false n dst = bracketLoop keep o c 0 0 rest rev' false n (dst ++ added keep o c n t) := by
  induction t with
  | nil => intro rest rev n dst _ _; exact ⟨rev, by cases keep <;> simp [added, Doc.render, Doc.inside, Doc.outer]⟩
  | char x r ih =>
    intro rest rev n dst hok hz
    simp only [Doc.render, List.mem_cons, not_or] at hz
    have hx : x ≠ 0 := Ne.symm hz.1
    simp only [Doc.render, List.cons_append]
    obtain ⟨h2, h3, h4⟩ := hok
    cases keep with
    | true =>
      obtain ⟨rev', ih⟩ := ih rest (x :: rev) n (if n > 0 then dst ++ [x] else dst) h4 hz.2
      refine ⟨rev', ?_⟩
      rw [bracketLoop]
      simp only [hx, false_and, if_false, if_true, h2, h3, ih]
      by_cases hn : n > 0 <;> simp [hn, added, Doc.render, Doc.inside]
    | false =>
      obtain ⟨rev', ih⟩ := ih rest (x :: rev) n (if n = 0 then dst ++ [x] else dst) h4 hz.2
      refine ⟨rev', ?_⟩
      rw [bracketLoop]
      simp only [hx, false_and, if_false, Bool.false_eq_true, h2, h3, ih]
      by_cases hn : n = 0 <;> simp [hn, added, Doc.outer]
  | group i r ih1 ih2 =>
    intro rest rev n dst hok hz
    simp only [Doc.render, List.mem_cons, not_or, List.mem_append] at hz
    simp only [Doc.render, List.cons_append, List.append_assoc]
    obtain ⟨h2, h3⟩ := hok
    cases keep with
    | true =>
      obtain ⟨rev1, i1⟩ := ih1 (c :: (r.render o c ++ rest)) (o :: rev) (n + 1) (if n > 0 then dst ++ [o] else dst) h2 hz.2.1
      obtain ⟨rev2, i2⟩ := ih2 rest (c :: rev1) n (if n > 0 then (if n > 0 then dst ++ [o] else dst) ++ added true o c (n + 1) i ++ [c] else (if n > 0 then dst ++ [o] else dst) ++ added true o c (n + 1) i) h3 hz.2.2.2
      refine ⟨rev2, ?_⟩
      rw [bracketLoop]
      simp only [h0, false_and, if_false, if_true, hoc, true_and]
      rw [i1, bracketLoop]
      simp only [h1, false_and, if_false, if_true, Ne.symm hoc, true_and, Nat.add_sub_cancel, Nat.add_one_ne_zero, i2]
      by_cases hn : n > 0 <;> simp [hn, added, Doc.render, Doc.inside]
    | false =>
      obtain ⟨rev1, i1⟩ := ih1 (c :: (r.render o c ++ rest)) (o :: rev) (n + 1) dst h2 hz.2.1
      obtain ⟨rev2, i2⟩ := ih2 rest (c :: rev1) n (dst ++ added false o c (n + 1) i) h3 hz.2.2.2
      refine ⟨rev2, ?_⟩
      rw [bracketLoop]
      simp only [h0, false_and, if_false, if_true, hoc, true_and, Bool.false_eq_true, Nat.add_one_ne_zero]
      rw [i1, bracketLoop]
      simp only [h1, false_and, if_false, if_true, Ne.symm hoc, true_and, Bool.false_eq_true, Nat.add_sub_cancel, Nat.add_one_ne_zero, i2]
      by_cases hn : n = 0 <;> simp [hn, added, Doc.outer]

/-- Closing brackets, each followed by balanced text. -/
def tails (o c : UInt8) : List Doc → List UInt8
  | [] => []
  | t :: ts => c :: (t.render o c ++ tails o c ts)

theorem bracket_parse (keep : Bool) (o c : UInt8) (hoc : o ≠ c) (s : List UInt8) (hz : 0 ∉ s) : ∀ (rev : List UInt8) (n : Nat) (dst : List UInt8) (on : Bool) (out : List UInt8),
    bracketLoop keep o c 0 0 s rev false n dst = some (on, 0, out) →
    ∃ (t : Doc) (ts : List Doc), t.Ok o c ∧ (∀ u ∈ ts, u.Ok o c) ∧ ts.length = n ∧ s = t.render o c ++ tails o c ts := by
  induction s with
  | nil =>
    intro rev n dst on out h
    simp only [bracketLoop, Option.some.injEq, Prod.mk.injEq] at h
    exact ⟨.nil, [], trivial, by simp, by simp [h.2.1], rfl⟩
  | cons x s ih =>
    intro rev n dst on out h
    have hz' : 0 ∉ s := fun h => hz (by simp [h])
    have hx : x ≠ 0 := fun h => hz (by simp [h])
    have key : ∃ dst' : List UInt8, (x = c → n ≠ 0) ∧ bracketLoop keep o c 0 0 s (x :: rev) false (if x = o then n + 1 else if x = c then n - 1 else n) dst' = some (on, 0, out) := by
      rw [bracketLoop] at h
      cases keep with
      | true =>
        simp only [hx, false_and, if_false, if_true] at h
        by_cases ho : x = o
        · have hc : x ≠ c := by rw [ho]; exact hoc
          simp only [hc, false_and, if_false, ho, true_and, if_true, hoc] at h
          rw [ho]
          exact ⟨_, fun e => absurd e hoc, by simpa using h⟩
        · simp only [ho, false_and, if_false, and_true] at h
          by_cases hc : x = c
          · simp only [hc, true_and, if_true] at h
            by_cases hn : n = 0
            · rw [if_pos hn] at h; cases h
            · rw [if_neg hn] at h
              rw [if_neg ho, if_pos hc]
              exact ⟨_, fun _ => hn, by rw [hc]; exact h⟩
          · simp only [hc, false_and, if_false] at h
            exact ⟨_, fun e => absurd e hc, by simpa [ho, hc] using h⟩
      | false =>
        simp only [hx, false_and, if_false, Bool.false_eq_true] at h
        by_cases ho : x = o
        · have hc : x ≠ c := by rw [ho]; exact hoc
          simp only [hc, false_and, if_false, ho, true_and, if_true, hoc] at h
          rw [ho]
          exact ⟨_, fun e => absurd e hoc, by simpa using h⟩
        · simp only [ho, false_and, if_false, and_true] at h
          by_cases hc : x = c
          · simp only [hc, true_and, if_true] at h
            by_cases hn : n = 0
            · rw [if_pos hn] at h; cases h
            · rw [if_neg hn] at h
              rw [if_neg ho, if_pos hc]
              exact ⟨_, fun _ => hn, by rw [hc]; exact h⟩
          · simp only [hc, false_and, if_false] at h
            exact ⟨_, fun e => absurd e hc, by simpa [ho, hc] using h⟩
    obtain ⟨dst', hn, h⟩ := key
    obtain ⟨t, ts, h1, h2, h3, h4⟩ := ih hz' _ _ _ _ _ h
    by_cases ho : x = o
    · rw [if_pos ho] at h3
      cases ts with
      | nil => simp at h3
      | cons u ts =>
        refine ⟨.group t u, ts, ⟨h1, h2 u (by simp)⟩, fun v hv => h2 v (by simp [hv]), by simpa using h3, ?_⟩
        rw [h4, ho]; simp [Doc.render, tails]
    · rw [if_neg ho] at h3
      by_cases hc : x = c
      · rw [if_pos hc] at h3
        have := hn hc
        refine ⟨.nil, t :: ts, trivial, by simpa using ⟨h1, h2⟩, by simp; omega, ?_⟩
        rw [h4, hc]; simp [Doc.render, tails]
      · rw [if_neg hc] at h3
        exact ⟨.char x t, ts, ⟨ho, hc, h1⟩, h2, h3, by rw [h4]; simp [Doc.render]⟩

/-- Removing or keeping bracketed sections (without quotes): it succeeds exactly for text with balanced brackets, and the
result is the text outside all brackets, or that inside the outermost ones. -/
theorem bracketed_correct (keep : Bool) (o c : UInt8) (hoc : o ≠ c) (h0 : o ≠ 0) (h1 : c ≠ 0) (s : List UInt8) (hs : s ≠ []) (hz : 0 ∉ s) (out : List UInt8) :
    bracketed keep s o c 0 0 = some out ↔ ∃ t : Doc, t.Ok o c ∧ s = t.render o c ∧ out = if keep then t.inside o c else t.outer := by
  have fwd : ∀ t : Doc, t.Ok o c → s = t.render o c → bracketed keep s o c 0 0 = some (if keep then t.inside o c else t.outer) := by
    intro t h2 h3
    unfold bracketed
    rw [if_neg (by simp [hoc, h0, h1, hs])]
    obtain ⟨rev', h⟩ := bracket_doc keep o c hoc h0 h1 t [] [] 0 [] h2 (h3 ▸ hz)
    rw [List.append_nil] at h
    rw [h3, h]
    cases keep <;> simp [bracketLoop, added]
  constructor
  · intro h
    have h' := h
    unfold bracketed at h
    rw [if_neg (by simp [hoc, h0, h1, hs])] at h
    obtain ⟨⟨on, n, d⟩, h2, h3⟩ := Option.bind_eq_some_iff.1 h
    dsimp only at h3
    by_cases hn : n > 0 ∨ on = true
    · rw [if_pos hn] at h3; cases h3
    · have hn0 : n = 0 := by omega
      subst hn0
      obtain ⟨t, ts, h4, _, h6, h7⟩ := bracket_parse keep o c hoc s hz [] 0 [] on d h2
      have : ts = [] := List.length_eq_zero_iff.1 h6
      subst this
      simp only [tails, List.append_nil] at h7
      refine ⟨t, h4, h7, ?_⟩
      rw [fwd t h4 h7] at h'
      exact (Option.some.inj h').symm
  · rintro ⟨t, h2, h3, rfl⟩
    exact fwd t h2 h3

example : bracketed false [97, 40, 98, 40, 99, 41, 41, 100] 40 41 0 0 = some [97, 100] ∧ bracketed true [97, 40, 98, 40, 99, 41, 41, 100] 40 41 0 0 = some [98, 40, 99, 41] ∧
    bracketed true [41, 40] 40 41 0 0 = none := by decide

/-! ### Lines -/

/-- Text broken into lines of at most `w` characters: white space is dropped around the lines only, and a line ends within
a word only if it is a piece of a word longer than a line. -/
inductive Wrapped (w : Nat) : List UInt8 → List (List UInt8) → List UInt8 → Prop
  | done (rest : List UInt8) : Wrapped w rest [] rest
  | line (gap l rest end_ : List UInt8) (ls : List (List UInt8)) (hg : ∀ x ∈ gap, isSpace x = true) (hl : l ≠ []) (hw : l.length ≤ w)
      (hf : ∀ c t, l = c :: t → isSpace c = false) (he : ∀ c t, l = t ++ [c] → isSpace c = false)
      (hb : (∃ c t, rest = c :: t ∧ isSpace c = false) → l.length = w ∧ ∀ x ∈ l, isSpace x = false) (t : Wrapped w rest ls end_) : Wrapped w (gap ++ l ++ rest) (l :: ls) end_

theorem backToSpace_spec (s : List UInt8) (k : Nat) : backToSpace s k ≤ k ∧ (backToSpace s k ≠ 0 → isSpace (s.getD (backToSpace s k) 0) = true) ∧
    (∀ j, backToSpace s k < j → j ≤ k → isSpace (s.getD j 0) = false) := by
  induction k with
  | zero => exact ⟨Nat.le_refl _, by simp [backToSpace], fun j h1 h2 => by unfold backToSpace at h1; omega⟩
  | succ k ih =>
    unfold backToSpace
    by_cases h : isSpace (s.getD (k + 1) 0) = true
    · rw [if_pos h]
      exact ⟨Nat.le_refl _, fun _ => h, fun j h1 h2 => by omega⟩
    · rw [if_neg h]
      refine ⟨by omega, ih.2.1, fun j h1 h2 => ?_⟩
      by_cases hj : j = k + 1
      · rw [hj]; simpa using h
      · exact ih.2.2 j h1 (by omega)

theorem dropWhile_parts (s : List UInt8) : ∃ a, s = a ++ s.dropWhile isSpace ∧ (∀ x ∈ a, isSpace x = true) ∧ ∀ c t, s.dropWhile isSpace = c :: t → isSpace c = false := by
  induction s with
  | nil => exact ⟨[], rfl, by simp, by simp⟩
  | cons c s ih =>
    rw [List.dropWhile_cons]
    by_cases h : isSpace c = true
    · rw [if_pos h]
      obtain ⟨a, e, h1, h2⟩ := ih
      exact ⟨c :: a, by rw [List.cons_append, ← e], by simpa [h] using h1, h2⟩
    · rw [if_neg h]
      refine ⟨[], rfl, by simp, ?_⟩
      intro d t e
      simp only [List.cons.injEq] at e
      rw [← e.1]; simpa using h

theorem wrapped_gap {w : Nat} {g s end_ : List UInt8} {ls : List (List UInt8)} (hg : ∀ x ∈ g, isSpace x = true) (h : Wrapped w s ls end_) (hne : ls ≠ []) : Wrapped w (g ++ s) ls end_ := by
  cases h with
  | done => exact absurd rfl hne
  | line gap l rest _ ls hg' hl hw hf he hb t =>
    have : g ++ (gap ++ l ++ rest) = (g ++ gap) ++ l ++ rest := by simp
    rw [this]
    exact .line (g ++ gap) l rest end_ ls (by intro x hx; simp only [List.mem_append] at hx; exact hx.elim (hg x) (hg' x)) hl hw hf he hb t

/-- The line made of text that begins with a word. -/
theorem chunk_line (w : Nat) (hw : 0 < w) (t : List UInt8) (ht : t ≠ []) (hf : ∀ c r, t = c :: r → isSpace c = false) :
    ∃ g, t.take (chunk w t) = ((t.take (chunk w t)).reverse.dropWhile isSpace).reverse ++ g ∧ (∀ x ∈ g, isSpace x = true) ∧
      (((t.take (chunk w t)).reverse.dropWhile isSpace).reverse) ≠ [] ∧ (((t.take (chunk w t)).reverse.dropWhile isSpace).reverse).length ≤ w ∧ 0 < chunk w t ∧
      (∀ c r, ((t.take (chunk w t)).reverse.dropWhile isSpace).reverse = c :: r → isSpace c = false) ∧
      (∀ c r, ((t.take (chunk w t)).reverse.dropWhile isSpace).reverse = r ++ [c] → isSpace c = false) ∧
      ((∃ c r, g ++ t.drop (chunk w t) = c :: r ∧ isSpace c = false) → (((t.take (chunk w t)).reverse.dropWhile isSpace).reverse).length = w ∧
        ∀ x ∈ ((t.take (chunk w t)).reverse.dropWhile isSpace).reverse, isSpace x = false) := by
  have hb := backToSpace_spec t w
  have hpos : 0 < t.length := List.length_pos_iff.2 ht
  have hcw : chunk w t ≤ w ∧ chunk w t ≤ t.length ∧ 0 < chunk w t := by
    unfold chunk; split
    · omega
    · split <;> omega
  obtain ⟨c0, r0, ht0⟩ := List.exists_cons_of_ne_nil ht
  have hc0 := hf c0 r0 ht0
  have htk : t.take (chunk w t) = c0 :: r0.take (chunk w t - 1) := by
    rw [ht0] at hcw ⊢
    obtain ⟨k, hk⟩ : ∃ k, chunk w (c0 :: r0) = k + 1 := ⟨chunk w (c0 :: r0) - 1, by omega⟩
    rw [hk, List.take_succ_cons, Nat.add_sub_cancel]
  obtain ⟨g, e, h1, h2⟩ := dropWhile_parts (t.take (chunk w t)).reverse
  generalize hu : (t.take (chunk w t)).reverse.dropWhile isSpace = u at *
  have e2 : t.take (chunk w t) = u.reverse ++ g.reverse := by have := congrArg List.reverse e; simpa using this
  have hune : u ≠ [] := by
    rintro rfl
    rw [List.reverse_nil, List.nil_append] at e2
    have : c0 ∈ g := by
      have : c0 ∈ g.reverse := by rw [← e2, htk]; simp
      simpa using this
    rw [h1 c0 this] at hc0; cases hc0
  have hlen : u.length + g.length = chunk w t := by
    have := congrArg List.length e2
    rw [List.length_take, List.length_append, List.length_reverse, List.length_reverse] at this; omega
  refine ⟨g.reverse, e2, by simpa using h1, by simpa using hune, by rw [List.length_reverse]; omega, hcw.2.2, ?_, ?_, ?_⟩
  · intro c r hc
    rw [hc, htk] at e2
    simp only [List.cons_append, List.cons.injEq] at e2
    rw [← e2.1]; exact hc0
  · intro c r hc
    have : u = c :: r.reverse := by have := congrArg List.reverse hc; simpa using this
    exact h2 c _ this
  · rintro ⟨c, r, hc, hsp⟩
    cases hg : g.reverse with
    | cons x y =>
      rw [hg] at hc
      simp only [List.cons_append, List.cons.injEq] at hc
      have := h1 x (by have : x ∈ g.reverse := by rw [hg]; simp
                       simpa using this)
      rw [hc.1, hsp] at this; cases this
    | nil =>
      rw [hg] at hc
      simp only [List.nil_append] at hc
      have hg0 : g = [] := by simpa using hg
      have hut : u.reverse = t.take (chunk w t) := by rw [e2, hg, List.append_nil]
      have hget : t.getD (chunk w t) 0 = c := by
        have := congrArg List.head? hc
        rw [List.head?_drop] at this
        simp only [List.head?_cons] at this
        rw [List.getD_eq_getElem?_getD, this]; rfl
      have hlt : chunk w t < t.length := by
        have := congrArg List.length hc
        rw [List.length_drop, List.length_cons] at this; omega
      unfold chunk at hget hlt
      by_cases hle : t.length ≤ w
      · rw [if_pos hle] at hlt; omega
      · have hch : chunk w t = if backToSpace t w = 0 then w else backToSpace t w := by unfold chunk; rw [if_neg hle]
        rw [if_neg hle] at hget
        by_cases h0 : backToSpace t w = 0
        · rw [if_pos h0] at hch
          rw [hg0, List.length_nil, Nat.add_zero] at hlen
          refine ⟨by rw [List.length_reverse]; omega, ?_⟩
          intro x hx
          rw [hut, hch] at hx
          obtain ⟨i, hi, rfl⟩ := List.getElem_of_mem hx
          rw [List.length_take] at hi
          rw [List.getElem_take]
          by_cases hi0 : i = 0
          · subst hi0; simp only [ht0, List.getElem_cons_zero]; exact hc0
          · have := hb.2.2 i (by omega) (by omega)
            rw [List.getD_eq_getElem?_getD, List.getElem?_eq_getElem (by omega)] at this
            exact this
        · rw [if_neg h0] at hget
          have := hb.2.1 h0
          rw [hget, hsp] at this; cases this

theorem linesLoop_spec (w : Nat) (hw : 0 < w) : ∀ (n room : Nat) (s : List UInt8) (out : List (List UInt8)), s.length + n ≤ room →
    ∃ ls end_ g, linesLoop w n room s out = some (out ++ ls, end_) ∧ Wrapped w s ls (g ++ end_) ∧ (∀ x ∈ g, isSpace x = true) ∧ ls.length ≤ n ∧ (ls.length < n → end_ = []) := by
  intro n
  induction n with
  | zero => intro room s out _; exact ⟨[], s, [], by simp [linesLoop], .done s, by simp, by simp, by simp⟩
  | succ n ih =>
    intro room s out hroom
    obtain ⟨gap, e, h1, h2⟩ := dropWhile_parts s
    unfold linesLoop
    generalize s.dropWhile isSpace = t at *
    by_cases ht : t = []
    · subst ht
      refine ⟨[], [], s, by simp, by rw [List.append_nil]; exact .done s, ?_, by simp, by simp⟩
      rw [e, List.append_nil]; exact h1
    · dsimp only
      rw [if_neg ht]
      obtain ⟨g, c1, c2, c3, c4, c5, c6, c7, c8⟩ := chunk_line w hw t ht h2
      generalize ((t.take (chunk w t)).reverse.dropWhile isSpace).reverse = l at *
      have hl : l.length + g.length = min (chunk w t) t.length := by
        have := congrArg List.length c1
        rw [List.length_take, List.length_append] at this; omega
      have hst : s.length = gap.length + t.length := by rw [e, List.length_append]
      rw [if_neg (by omega)]
      obtain ⟨ls, end_, g', i1, i2, i3, i4, i5⟩ := ih (room - (l.length + 1)) (t.drop (chunk w t)) (out ++ [l]) (by rw [List.length_drop]; omega)
      have es : s = gap ++ l ++ (g ++ t.drop (chunk w t)) := by
        have : t = (l ++ g) ++ t.drop (chunk w t) := by rw [← c1, List.take_append_drop]
        conv => lhs; rw [e, this]
        simp
      by_cases hls : ls = []
      · subst hls
        have hdone : t.drop (chunk w t) = g' ++ end_ := by
          generalize g' ++ end_ = z at i2
          generalize t.drop (chunk w t) = y at i2
          cases i2; rfl
        refine ⟨[l], end_, g ++ g', by rw [i1]; simp, ?_, ?_, by simp, ?_⟩
        · rw [es, hdone, List.append_assoc g]
          rw [hdone] at c8
          exact .line gap l _ _ [] h1 c3 c4 c6 c7 c8 (.done _)
        · intro x hx; simp only [List.mem_append] at hx; exact hx.elim (c2 x) (i3 x)
        · intro h; exact i5 (by simp at h ⊢; omega)
      · refine ⟨l :: ls, end_, g', by rw [i1]; simp, ?_, i3, by simp; omega, fun h => i5 (by simp at h; omega)⟩
        rw [es]
        exact .line gap l _ _ ls h1 c3 c4 c6 c7 c8 (wrapped_gap c2 i2 hls)

/-- Breaking text into lines never writes past its buffer; there are at most as many lines as allowed, and the text is
broken as a reader expects.  Text is only left over, apart from white space, when the lines were used up and truncation was
allowed. -/
theorem explodeLines_correct (maxLines w : Nat) (hm : 0 < maxLines) (hw : 0 < w) (s : List UInt8) (truncate : Bool) :
    ∃ ls, explodeLines maxLines w s truncate = some ls ∧ ls.length ≤ maxLines ∧
      (∃ end_ ls', Wrapped w s ls' end_ ∧ (ls' = ls ∨ (ls = [] ∧ truncate = false ∧ ls'.length = maxLines ∧ ¬ ∀ x ∈ end_, isSpace x = true)) ∧
        (ls ≠ [] → truncate = false ∨ ls.length < maxLines → ∀ x ∈ end_, isSpace x = true)) := by
  unfold explodeLines
  rw [if_neg (by omega)]
  obtain ⟨ls, end_, g, h1, h2, h3, h4, h5⟩ := linesLoop_spec w hw maxLines (s.length + maxLines) s [] (by omega)
  rw [h1]
  simp only [List.nil_append, Option.map_some]
  obtain ⟨a, e, ha, hb⟩ := dropWhile_parts end_
  by_cases ht : truncate = false ∧ end_.dropWhile isSpace ≠ []
  · rw [if_pos ht]
    refine ⟨[], rfl, by simp, g ++ end_, ls, h2, Or.inr ⟨rfl, ht.1, ?_, ?_⟩, fun h => absurd rfl h⟩
    · by_cases hl : ls.length < maxLines
      · have := h5 hl; rw [this] at ht; exact absurd rfl ht.2
      · omega
    · intro hall
      obtain ⟨c, r, hc⟩ := List.exists_cons_of_ne_nil ht.2
      have h6 := hb c r hc
      have : c ∈ end_ := by rw [e, hc]; simp
      have := hall c (by simp [this])
      rw [h6] at this; cases this
  · rw [if_neg ht]
    refine ⟨ls, rfl, h4, g ++ end_, ls, h2, Or.inl rfl, ?_⟩
    intro _ h x hx
    simp only [List.mem_append] at hx
    rcases hx with hx | hx
    · exact h3 x hx
    · rcases h with h | h
      · have : end_.dropWhile isSpace = [] := by
          by_cases h0 : end_.dropWhile isSpace = []
          · exact h0
          · exact absurd ⟨h, h0⟩ ht
        rw [e, this, List.append_nil] at hx
        exact ha x hx
      · rw [h5 h] at hx; cases hx

example : explodeLines 9 5 [32, 97, 98, 32, 99, 100, 32, 101, 101, 101, 101, 101, 101, 32] false = some [[97, 98, 32, 99, 100], [101, 101, 101, 101, 101], [101]] ∧
    explodeLines 1 3 [97, 32, 98, 98, 98] false = some [] ∧ explodeLines 1 3 [97, 32, 98, 98, 98] true = some [[97]] := by decide +kernel

end Verif.Str
