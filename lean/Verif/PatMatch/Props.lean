import Verif.PatMatch.Lemmas
/-! C21: wildcard matching.

A pattern is the text of a list of tokens (`render`); its language (`Matches`) is given by concatenation of the token
languages, independently of the matcher. -/
namespace Verif.PatMatch
open Verif.Chr

theorem pm_cons (ci : Bool) (c : UInt8) (p s : List UInt8) : pm ci (c :: p) s =
    (
    if c = 92 then
      match p with
      | [] => false
      | c2 :: p => if escapable c2 then match s with
          | [] => false
          | x :: s => if x = c2 then pm ci p s else false
        else false
    else if c = 91 then
      match s with
      | [] => false
      | x :: s =>
        match rangeClose p.head? p 0 false with
        | none => false
        | some k =>
          let neg := p.head? == some 33
          let start := if neg then 1 else 0
          match bracket ci p k start x (k - start) start with
          | .hit => if neg then false else pm ci (p.drop (k + 1)) s
          | .err => false
          | .miss => if neg then pm ci (p.drop (k + 1)) s else false
    else if c = 93 then false
    else if c = 63 then
      match s with
      | [] => false
      | _ :: s => pm ci p s
    else if c = 42 then
      if p.isEmpty then true else (List.range (s.length + 1)).any fun i => pm ci p (s.drop i)
    else
      match s with
      | [] => false
      | x :: s => if chrEq ci x c then pm ci p s else false) := by
  rw [pm.eq_def]
  rfl

theorem pm_tok {ci : Bool} {t : Tok} (h : t.WF ci) (p s : List UInt8) :
    pm ci (t.text ++ p) s = true ↔ ∃ a b, s = a ++ b ∧ t.Lang ci a ∧ pm ci p b = true := by
  cases t with
  | lit c =>
    obtain ⟨h1, h2, h3, h4, h5⟩ := h
    simp only [Tok.text, List.cons_append, List.nil_append, Tok.Lang]
    rw [pm_cons, if_neg h1, if_neg h2, if_neg h3, if_neg h4, if_neg h5]
    cases s with
    | nil =>
      constructor
      · intro k; simp at k
      · rintro ⟨a, b, k1, ⟨x, rfl, _⟩, _⟩; simp at k1
    | cons x s =>
      simp only
      constructor
      · intro k
        by_cases hc : chrEq ci x c = true
        · rw [if_pos hc] at k
          exact ⟨[x], s, rfl, ⟨x, rfl, chrEq_iff.1 hc⟩, k⟩
        · rw [if_neg hc] at k; cases k
      · rintro ⟨a, b, k1, ⟨y, rfl, k2⟩, k3⟩
        simp only [List.cons_append, List.nil_append, List.cons.injEq] at k1
        obtain ⟨rfl, rfl⟩ := k1
        rw [if_pos (chrEq_iff.2 k2)]; exact k3
  | esc c =>
    simp only [Tok.text, List.cons_append, List.nil_append, Tok.Lang]
    rw [pm_cons, if_pos rfl]
    simp only
    rw [if_pos (show escapable c = true from h)]
    cases s with
    | nil =>
      constructor
      · intro k; simp at k
      · rintro ⟨a, b, k1, rfl, _⟩; simp at k1
    | cons x s =>
      simp only
      constructor
      · intro k
        by_cases hc : x = c
        · rw [if_pos hc] at k
          exact ⟨[c], s, by rw [hc]; rfl, rfl, k⟩
        · rw [if_neg hc] at k; cases k
      · rintro ⟨a, b, k1, rfl, k3⟩
        simp only [List.cons_append, List.nil_append, List.cons.injEq] at k1
        obtain ⟨rfl, rfl⟩ := k1
        rw [if_pos rfl]; exact k3
  | any =>
    simp only [Tok.text, List.cons_append, List.nil_append, Tok.Lang]
    rw [pm_cons, if_neg (by decide), if_neg (by decide), if_neg (by decide), if_pos rfl]
    cases s with
    | nil =>
      constructor
      · intro k; simp at k
      · rintro ⟨a, b, k1, ⟨x, rfl⟩, _⟩; simp at k1
    | cons x s =>
      simp only
      constructor
      · intro k; exact ⟨[x], s, rfl, ⟨x, rfl⟩, k⟩
      · rintro ⟨a, b, k1, ⟨y, rfl⟩, k3⟩
        simp only [List.cons_append, List.nil_append, List.cons.injEq] at k1
        obtain ⟨rfl, rfl⟩ := k1
        exact k3
  | star =>
    simp only [Tok.text, List.cons_append, List.nil_append, Tok.Lang, true_and]
    rw [pm_cons, if_neg (by decide), if_neg (by decide), if_neg (by decide), if_neg (by decide), if_pos rfl]
    cases p with
    | nil =>
      simp only [List.isEmpty_nil, if_true, true_iff]
      exact ⟨s, [], by simp, by simp [pm]⟩
    | cons c p =>
      simp only [List.isEmpty_cons, Bool.false_eq_true, if_false, List.any_eq_true, List.mem_range]
      constructor
      · rintro ⟨i, _, k⟩
        exact ⟨s.take i, s.drop i, (List.take_append_drop i s).symm, k⟩
      · rintro ⟨a, b, rfl, k⟩
        refine ⟨a.length, by rw [List.length_append]; omega, ?_⟩
        rw [List.drop_left]; exact k
  | set t =>
    have hw : t.WF ci := h
    simp only [Tok.text, List.cons_append, Tok.Lang, List.append_assoc, List.nil_append]
    rw [pm_cons, if_neg (by decide), if_pos rfl]
    cases s with
    | nil =>
      constructor
      · intro k; simp at k
      · rintro ⟨a, b, k1, ⟨x, rfl, _⟩, _⟩; simp at k1
    | cons x s =>
      simp only
      rw [rangeClose_set hw p]
      have hneg : ((((if t.neg then [33] else []) ++ (t.body ++ 93 :: p)).head? : Option UInt8) == some 33) = t.neg := by
        cases hn : t.neg with
        | true => simp
        | false =>
          have := hw.bang
          rw [hn] at this
          have hb : t.body.head? ≠ some 33 := by simpa using this
          cases hbd : t.body with
          | nil => exact absurd hbd hw.nonempty
          | cons c b => rw [hbd] at hb; simpa using hb
      simp only [hneg]
      have hq : ((if t.neg then [33] else []) ++ (t.body ++ 93 :: p) : List UInt8).drop (if t.neg then 1 else 0) = t.body ++ 93 :: p := by
        cases t.neg <;> simp
      have hdrop : ((if t.neg then [33] else []) ++ (t.body ++ 93 :: p) : List UInt8).drop ((if t.neg then 1 else 0) + t.body.length + 1) = p := by
        rw [Nat.add_assoc, ← List.drop_drop, hq, ← List.drop_drop, List.drop_left]; rfl
      rw [bracket_set hw x hq rfl, hdrop]
      by_cases hm : t.Match ci x
      · rw [if_pos hm]
        simp only
        cases hn : t.neg with
        | true =>
          simp only [if_true, Bool.false_eq_true, false_iff]
          rintro ⟨a, b, k1, ⟨y, rfl, k2⟩, k3⟩
          simp only [List.cons_append, List.nil_append, List.cons.injEq] at k1
          obtain ⟨rfl, rfl⟩ := k1
          exact k2 hm
        | false =>
          simp only [Bool.false_eq_true, if_false]
          constructor
          · intro k; exact ⟨[x], s, rfl, ⟨x, rfl, hm⟩, k⟩
          · rintro ⟨a, b, k1, ⟨y, rfl, k2⟩, k3⟩
            simp only [List.cons_append, List.nil_append, List.cons.injEq] at k1
            obtain ⟨rfl, rfl⟩ := k1
            exact k3
      · rw [if_neg hm]
        simp only
        cases hn : t.neg with
        | false =>
          simp only [Bool.false_eq_true, if_false, false_iff]
          rintro ⟨a, b, k1, ⟨y, rfl, k2⟩, k3⟩
          simp only [List.cons_append, List.nil_append, List.cons.injEq] at k1
          obtain ⟨rfl, rfl⟩ := k1
          exact hm k2
        | true =>
          simp only [if_true]
          constructor
          · intro k; exact ⟨[x], s, rfl, ⟨x, rfl, hm⟩, k⟩
          · rintro ⟨a, b, k1, ⟨y, rfl, k2⟩, k3⟩
            simp only [List.cons_append, List.nil_append, List.cons.injEq] at k1
            obtain ⟨rfl, rfl⟩ := k1
            exact k3

/-- A well formed prefix of a pattern matches some split of the string. -/
theorem pm_prefix {ci : Bool} (ts : List Tok) (p : List UInt8) : ∀ s, (∀ t ∈ ts, t.WF ci) →
    (pm ci (render ts ++ p) s = true ↔ ∃ a b, s = a ++ b ∧ Matches ci ts a ∧ pm ci p b = true) := by
  induction ts with
  | nil =>
    intro s _
    simp only [render, List.flatMap_nil, List.nil_append, Matches]
    constructor
    · intro k; exact ⟨[], s, rfl, rfl, k⟩
    · rintro ⟨a, b, rfl, rfl, k⟩; exact k
  | cons t ts ih =>
    intro s h
    rw [render, List.flatMap_cons, List.append_assoc, pm_tok (h t (by simp))]
    constructor
    · rintro ⟨a, b, rfl, k1, k2⟩
      obtain ⟨a', b', rfl, k3, k4⟩ := (ih b (fun t ht => h t (by simp [ht]))).1 k2
      exact ⟨a ++ a', b', by simp, ⟨a, a', rfl, k1, k3⟩, k4⟩
    · rintro ⟨a, b, rfl, ⟨a1, a2, rfl, k1, k2⟩, k3⟩
      exact ⟨a1, a2 ++ b, by simp, k1, (ih _ (fun t ht => h t (by simp [ht]))).2 ⟨a2, b, rfl, k2, k3⟩⟩

/-- C21: on the text of a well formed pattern the matcher decides its language, in both case modes.  Missing: `\]` and `\\`
inside brackets, and for the case-insensitive matcher ranges not closed under change of case; both are wrong in the code. -/
theorem match_correct_partial (ci : Bool) (ts : List Tok) (s : List UInt8) (h : ∀ t ∈ ts, t.WF ci) :
    pm ci (render ts) s = true ↔ Matches ci ts s := by
  have := pm_prefix ts [] s h
  rw [List.append_nil] at this
  rw [this]
  constructor
  · rintro ⟨a, b, rfl, k1, k2⟩
    rw [pm] at k2
    rw [List.isEmpty_iff.1 k2, List.append_nil]; exact k1
  · intro k
    exact ⟨s, [], by simp, k, by simp [pm]⟩

/-- `a*[!x-z]` -/
example : render [.lit 97, .star, .set ⟨true, false, false, [.range 120 122], false⟩] = [97, 42, 91, 33, 120, 45, 122, 93] ∧
    (∀ t ∈ [Tok.lit 97, .star, .set ⟨true, false, false, [.range 120 122], false⟩], t.WF false) := by
  refine ⟨by decide, ?_⟩
  intro t ht
  simp only [List.mem_cons, List.not_mem_nil, or_false] at ht
  rcases ht with rfl | rfl | rfl
  · exact ⟨by decide, by decide, by decide, by decide, by decide⟩
  · trivial
  · refine ⟨?_, by simp, by decide, Or.inl rfl⟩
    intro it hit
    simp only [List.mem_cons, List.not_mem_nil, or_false] at hit
    subst hit
    exact ⟨⟨by decide, by decide, by decide⟩, ⟨by decide, by decide, by decide⟩, by decide, by decide, by simp⟩

example : patternMatch [97, 42, 91, 33, 120, 45, 122, 93] [97, 120, 121, 119] = true ∧
    patternMatch [97, 42, 91, 33, 120, 45, 122, 93] [97, 120, 121] = false := by decide +kernel

/-- Malformed patterns match nothing: a stray `]`, a trailing backslash, an escape of another character, an unclosed
bracket, after any well formed beginning. -/
theorem malformed_no_match (ci : Bool) (ts : List Tok) (bad s : List UInt8) (h : ∀ t ∈ ts, t.WF ci)
    (hb : (∃ r, bad = 93 :: r) ∨ bad = [92] ∨ (∃ c r, bad = 92 :: c :: r ∧ escapable c = false) ∨
      (∃ r, bad = 91 :: r ∧ (93 : UInt8) ∉ r)) :
    pm ci (render ts ++ bad) s = false := by
  have hbad : ∀ b, pm ci bad b = false := by
    intro b
    rcases hb with ⟨r, rfl⟩ | rfl | ⟨c, r, rfl, hc⟩ | ⟨r, rfl, hr⟩
    · rw [pm_cons, if_neg (by decide), if_neg (by decide), if_pos rfl]
    · rw [pm_cons, if_pos rfl]
    · rw [pm_cons, if_pos rfl]
      simp [hc]
    · have hcl : ∀ (r : List UInt8) c0 i e, (93 : UInt8) ∉ r → rangeClose c0 r i e = none := by
        intro r
        induction r with
        | nil => intros; rfl
        | cons c r ih =>
          intro c0 i e hm
          simp only [List.mem_cons, not_or] at hm
          rw [rangeClose]
          split
          · exact ih _ _ _ hm.2
          · rw [if_neg (fun e => hm.1 e.symm)]; exact ih _ _ _ hm.2
      rw [pm_cons, if_neg (by decide), if_pos rfl, hcl r _ _ _ hr]
      cases b <;> rfl
  cases hp : pm ci (render ts ++ bad) s with
  | false => rfl
  | true =>
    obtain ⟨a, b, _, _, k⟩ := (pm_prefix ts bad s h).1 hp
    rw [hbad b] at k; cases k

example : patternMatch [97, 42, 91, 98] [97, 98] = false := by decide +kernel

/-- An escaped `]` in a bracket ends the set: `[\]a]` does not match `a`; and `[\\]` matches `]`. -/
theorem escape_in_bracket_fails :
    patternMatch [91, 92, 93, 97, 93] [97] = false ∧ patternMatch [91, 92, 92, 93] [93] = true := by decide +kernel

/-- Ranges ignore the case option: `[a-c]` does not match `B`, although it matches `A`. -/
theorem case_range_fails :
    casePatternMatch [91, 97, 45, 99, 93] [66] = false ∧ casePatternMatch [91, 97, 45, 99, 93] [65] = true := by decide +kernel

end Verif.PatMatch
