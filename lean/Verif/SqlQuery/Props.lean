import Verif.SqlQuery.Tokens
import Verif.SqlQuery.Values
import Verif.SqlQuery.Rows
/- What the rewriting of queries and the execution of bound rows guarantee. -/
namespace Verif.SqlQuery
open Verif.Chr (isSpace)

/-! ### White space -/

theorem minimize_some {q m : List UInt8} (h : minimize q = some m) : Str.trim q ≠ [] ∧ m = squeeze none (Str.trim q) := by
  unfold minimize at h
  by_cases e : Str.trim q = []
  · rw [if_pos e] at h; cases h
  · rw [if_neg e] at h
    exact ⟨e, (Option.some.inj h).symm⟩

/-- The text sent has the words and the listed characters of the query, in the same order. -/
theorem squeeze_words {q m : List UInt8} (h : minimize q = some m) : marks words none m = marks words none q := by
  rw [(minimize_some h).2, (squeeze_marks_aux words (Str.trim q)).2.2.2 (sep_words _), trim_marks]

/-- Nothing else is in it: one space where two words meet, and none elsewhere. -/
theorem squeeze_canonical {q m : List UInt8} (h : minimize q = some m) : m = render none (marks words none q) := by
  obtain ⟨hne, e⟩ := minimize_some h
  obtain ⟨a, b, hq, ha, hb, h1, h2⟩ := Str.trim_correct q
  rw [← trim_marks, e]
  have hE : Ended (Str.trim q) := by
    intro x hx
    rw [← blank_iff]
    obtain ⟨t, ht⟩ := List.getLast?_eq_some_iff.1 hx
    exact h2 x t ht
  cases ht : Str.trim q with
  | nil => exact absurd ht hne
  | cons c r =>
    rw [ht] at hE
    have hs := h1 c r ht
    have hb' : blank c = false := by rw [← blank_iff]; exact hs
    rw [squeeze, hs, Bool.false_and, if_neg (by simp), if_neg (by simp), marks, if_neg (by simp [hb']), render, (squeeze_render_aux r hE.tail).1 c hb']
    rfl

/-- Only a query of nothing but white space is refused. -/
theorem minimize_none (q : List UInt8) : minimize q = none ↔ ∀ c ∈ q, blank c = true := by
  obtain ⟨a, b, hq, ha, hb, h1, h2⟩ := Str.trim_correct q
  unfold minimize
  constructor
  · intro h
    by_cases e : Str.trim q = []
    · rw [e] at hq
      intro c hc
      rw [hq] at hc
      rw [← blank_iff]
      simp only [List.append_nil, List.mem_append] at hc
      rcases hc with hc | hc
      · exact ha c hc
      · exact hb c hc
    · rw [if_neg e] at h; cases h
  · intro h
    refine if_pos ?_
    cases ht : Str.trim q with
    | nil => rfl
    | cons c r =>
      exfalso
      have h3 := h1 c r ht
      have h4 := h c (by rw [hq, ht]; simp)
      rw [blank_iff] at h3
      rw [h3] at h4
      cases h4

/-- Queries that differ only in white space between their tokens are sent as the same text. -/
theorem squeeze_same {q q' : List UInt8} (h : marks words none q = marks words none q') : minimize q = minimize q' := by
  have key : ∀ {x y : List UInt8}, marks words none x = marks words none y → minimize x = none → minimize y = none := by
    intro x y e hx
    rw [minimize_none] at hx ⊢
    have h0 : marks words none y = [] := by rw [← e]; exact marks_blanks words x hx none
    clear e hx h
    have gen : ∀ (l : List UInt8) p, marks words p l = [] → ∀ c ∈ l, blank c = true := by
      intro l
      induction l with
      | nil => intro p _ c hc; cases hc
      | cons z l ih =>
        intro p hm c hc
        rw [marks] at hm
        by_cases hz : blank z = true
        · rw [if_pos hz] at hm
          rcases List.mem_cons.1 hc with rfl | hc
          · exact hz
          · exact ih none hm c hc
        · rw [if_neg hz] at hm; cases hm
    exact gen y none h0
  cases hq : minimize q with
  | none => exact (key h hq).symm
  | some m =>
    cases hq' : minimize q' with
    | none => rw [key h.symm hq'] at hq; cases hq
    | some m' => rw [squeeze_canonical hq, squeeze_canonical hq', h]

/-- Some text with runs of the listed characters as tokens: `a >= b` and `x , y` read the same after squeezing, provided white
space separates no two of the listed characters.  Missing: with `a - -1` or `( -1` it joins them (`squeeze_comment_fails`). -/
theorem squeeze_runs_partial {q m : List UInt8} (h : minimize q = some m)
    (hs : ∀ a d w c b, q = a ++ d :: (w ++ c :: b) → w ≠ [] → (∀ x ∈ w, blank x = true) → op d = true → op c = true → False) :
    marks runs none m = marks runs none q := by
  have hS : Sep runs q := by
    intro a d w c b e hw hwb hd hc ho
    unfold runs
    cases h1 : op d <;> cases h2 : op c
    · rw [h1, h2] at ho; cases ho
    · rfl
    · rfl
    · exact absurd (hs a d w c b e hw hwb h1 h2) (by simp)
  rw [(minimize_some h).2, (squeeze_marks_aux runs (Str.trim q)).2.2.2 hS.trim, trim_marks]

/-! ### Values for several rows and numbered placeholders -/

/-- Rewriting for several rows: the first `values(` of the text, up to the parenthesis that closes it, is repeated. -/
theorem expand_correct (q t : List UInt8) (rows : Nat) : expand q rows = some t ↔
    ∃ a v g b, q = a ++ v ++ g ++ b ∧ ValuesWord v ∧ ¬ HasValues (a ++ v) ∧ Group g ∧ t = a ++ v ++ List.intercalate [44] (List.replicate rows g) ++ b := by
  have hc := casestr_values q
  unfold expand
  constructor
  · intro h
    obtain ⟨k, hk, h⟩ := Option.bind_eq_some_iff.1 h
    rw [hk] at hc
    obtain ⟨a, v, b, e, hv, rfl, hn, -⟩ := hc
    obtain ⟨⟨r, s⟩, hr, rfl⟩ := Option.map_eq_some_iff.1 h
    have l1 := alike_length hv
    simp at l1
    have hd : q.drop (a.length + 7) = b := by
      rw [e, show a ++ v ++ 40 :: b = (a ++ v ++ [40]) ++ b by simp]
      exact List.drop_left' (by simp; omega)
    have ht : q.take (a.length + 6) = a ++ v := by
      rw [e]
      exact List.take_left' (by simp; omega)
    rw [hd] at hr
    obtain ⟨e2, h3, h4⟩ := (closeParen_some _ _ _ _).1 hr
    refine ⟨a, v, 40 :: r, s, by rw [e, e2]; simp, hv, hn, (group_iff r).2 ⟨h3, h4⟩, ?_⟩
    dsimp only
    rw [ht, copies_eq]
  · rintro ⟨a, v, g, b, e, hv, hn, hg, rfl⟩
    obtain ⟨r, rfl⟩ : ∃ r, g = 40 :: r := by
      cases g with
      | nil => cases hg.1
      | cons x r => exact ⟨r, by have := hg.1; simp at this; rw [this]⟩
    have l1 := alike_length hv
    simp at l1
    have e' : q = a ++ v ++ 40 :: (r ++ b) := by rw [e]; simp
    cases hk : Str.casestr q valuesParen with
    | none =>
      rw [hk] at hc
      exact absurd ⟨a, v, r ++ b, e', hv⟩ hc
    | some k =>
      rw [hk] at hc
      obtain ⟨a', v', b', e2, hv', rfl, hn', hf⟩ := hc
      have l2 := alike_length hv'
      simp at l2
      have hle := hf a v _ e' hv
      have hla : a'.length = a.length := by
        refine Nat.le_antisymm hle ?_
        refine Nat.le_of_not_lt fun hlt => hn ?_
        have hp : a' ++ v' ++ [40] <+: a ++ v := by
          refine List.prefix_of_prefix_length_le (l₃ := q) ⟨b', by rw [e2]; simp⟩ ⟨40 :: (r ++ b), e'.symm⟩ ?_
          simp
          omega
        obtain ⟨z, hz⟩ := hp
        exact ⟨a', v', z, by rw [← hz]; simp, hv'⟩
      have hd : q.drop (a'.length + 7) = r ++ b := by
        rw [e', show a ++ v ++ 40 :: (r ++ b) = (a ++ v ++ [40]) ++ (r ++ b) by simp]
        exact List.drop_left' (by simp; omega)
      have ht : q.take (a'.length + 6) = a ++ v := by
        rw [e']
        exact List.take_left' (by simp; omega)
      rw [Option.bind_some, hd, (closeParen_some (r ++ b) 1 r b).2 ⟨rfl, (group_iff r).1 hg⟩, ht]
      simp only [Option.map_some, copies_eq]

/-- It fails exactly if there is no `values(`, or if the first one is never closed. -/
theorem expand_none (q : List UInt8) (rows : Nat) : expand q rows = none ↔
    ¬ HasValues q ∨ ∃ a v b, q = a ++ v ++ 40 :: b ∧ ValuesWord v ∧ ¬ HasValues (a ++ v) ∧ ∀ p s, 40 :: b = p ++ s → p ≠ [] → depth p > 0 := by
  constructor
  · intro h
    have hc := casestr_values q
    unfold expand at h
    cases hk : Str.casestr q valuesParen with
    | none => rw [hk] at hc; exact Or.inl hc
    | some k =>
      rw [hk] at hc h
      obtain ⟨a, v, b, e, hv, rfl, hn, -⟩ := hc
      have l1 := alike_length hv
      simp at l1
      have hd : q.drop (a.length + 7) = b := by
        rw [e, show a ++ v ++ 40 :: b = (a ++ v ++ [40]) ++ b by simp]
        exact List.drop_left' (by simp; omega)
      rw [Option.bind_some, Option.map_eq_none_iff, hd, closeParen_none] at h
      refine Or.inr ⟨a, v, b, e, hv, hn, ?_⟩
      intro p s ep hp
      cases p with
      | nil => exact absurd rfl hp
      | cons x p =>
        simp only [List.cons_append, List.cons.injEq] at ep
        obtain ⟨rfl, ep⟩ := ep
        rw [depth_cons, if_pos rfl]
        have := h p s ep
        omega
  · intro h
    cases ht : expand q rows with
    | none => rfl
    | some t =>
      exfalso
      obtain ⟨a, v, g, b, e, hv, hn, hg, -⟩ := (expand_correct q t rows).1 ht
      obtain ⟨r, rfl⟩ : ∃ r, g = 40 :: r := by
        cases g with
        | nil => cases hg.1
        | cons x r => exact ⟨r, by have := hg.1; simp at this; rw [this]⟩
      rcases h with h | ⟨a', v', b', e', hv', hn', hd⟩
      · exact h ⟨a, v, r ++ b, by rw [e]; simp, hv⟩
      · have l1 := alike_length hv
        have l2 := alike_length hv'
        simp at l1 l2
        have gen : ∀ {a v b a' v' b' : List UInt8}, v.length = 6 → v'.length = 6 → a ++ v ++ 40 :: b = a' ++ v' ++ 40 :: b' → ValuesWord v → ¬ HasValues (a' ++ v') → a'.length ≤ a.length := by
          intro a v b a' v' b' l1 l2 e hv hn
          refine Nat.le_of_not_lt fun hlt => hn ?_
          have hp : a ++ v ++ [40] <+: a' ++ v' := by
            refine List.prefix_of_prefix_length_le (l₃ := a ++ v ++ 40 :: b) ⟨b, by simp⟩ ⟨40 :: b', e.symm⟩ ?_
            simp
            omega
          obtain ⟨z, hz⟩ := hp
          exact ⟨a, v, z, by rw [← hz]; simp, hv⟩
        have e3 : a ++ v ++ 40 :: (r ++ b) = a' ++ v' ++ 40 :: b' := by rw [← e', e]; simp
        have q1 := gen l1 l2 e3 hv hn'
        have q2 := gen l2 l1 e3.symm hv' hn
        have := List.append_inj e3 (by simp; omega)
        have hz := hd (40 :: r) b (by rw [← this.2]; rfl) (by simp)
        rw [hg.2.1] at hz
        omega

/-- How a placeholder is written: as `?`, or as a sigil and its number. -/
def Hole : Option UInt8 → Nat → List UInt8 → Prop
  | none, _, h => h = [63]
  | some s, k, h => ∃ d, Dec k d ∧ h = s :: d

/-- The text `t` is `u` with its placeholders, numbered from `k` on, written that way. -/
inductive Placed (sigil : Option UInt8) : Nat → List UInt8 → List UInt8 → Prop
  | last {k : Nat} {p : List UInt8} (h : (63 : UInt8) ∉ p) : Placed sigil k p p
  | more {k : Nat} {p w u t : List UInt8} (h : (63 : UInt8) ∉ p) (hw : Hole sigil k w) (r : Placed sigil (k + 1) u t) : Placed sigil k (p ++ 63 :: u) (p ++ w ++ t)

theorem split_hole (q : List UInt8) : (63 : UInt8) ∉ q ∨ ∃ p u, q = p ++ 63 :: u ∧ (63 : UInt8) ∉ p := by
  by_cases h : (63 : UInt8) ∈ q
  · obtain ⟨p, u, e, hp⟩ := List.eq_append_cons_of_mem h
    exact Or.inr ⟨p, u, e, hp⟩
  · exact Or.inl h

/-- Every placeholder becomes the sigil and its number, counting from one; the rest of the text stays. -/
theorem number_correct (s : UInt8) (q : List UInt8) : Placed (some s) 1 q (number s 1 q) := by
  have gen : ∀ (n : Nat) (q : List UInt8), q.length ≤ n → ∀ k, k ≠ 0 → Placed (some s) k q (number s k q) := by
    intro n
    induction n with
    | zero =>
      intro q hq k _
      have : q = [] := List.length_eq_zero_iff.1 (by omega)
      subst this
      exact .last (by simp)
    | succ n ih =>
      intro q hq k hk
      rcases split_hole q with h | ⟨p, u, rfl, hp⟩
      · have := number_append_free s q [] h k
        rw [List.append_nil] at this
        rw [this, number, List.append_nil]
        exact .last h
      · rw [number_append_free s p _ hp, number, if_pos rfl, ← List.append_assoc]
        refine .more hp ⟨digits k, digits_dec k hk, rfl⟩ (ih u ?_ (k + 1) (by omega))
        simp at hq
        omega
  exact gen q.length q (Nat.le_refl _) 1 (by omega)

theorem placed_plain (k : Nat) (q : List UInt8) : Placed none k q q := by
  have gen : ∀ (n : Nat) (q : List UInt8), q.length ≤ n → ∀ k, Placed none k q q := by
    intro n
    induction n with
    | zero =>
      intro q hq k
      have : q = [] := List.length_eq_zero_iff.1 (by omega)
      subst this
      exact .last (by simp)
    | succ n ih =>
      intro q hq k
      rcases split_hole q with h | ⟨p, u, rfl, hp⟩
      · exact .last h
      · have := Placed.more (sigil := none) (k := k) (w := [63]) hp rfl (ih u (by simp at hq; omega) (k + 1))
        simpa using this
  exact gen q.length q (Nat.le_refl _) k

/-- The sigil a driver's flags ask for. -/
def sigil (f : Flags) (params : Nat) : Option UInt8 :=
  if params = 0 then none else if f.dollar then some 36 else if f.colon then some 58 else none

/-- A text starts with the word `insert` in either case. -/
def StartsInsert (t : List UInt8) : Prop := ∃ x y, t = x ++ y ∧ Str.Alike true x [73, 78, 83, 69, 82, 84]

/-- ` ON CONFLICT DO NOTHING` -/
def conflictClause : List UInt8 := [32, 79, 78, 32, 67, 79, 78, 70, 76, 73, 67, 84, 32, 68, 79, 32, 78, 79, 84, 72, 73, 78, 71]

/-- What may stand behind the text. -/
def Ending (f : Flags) (t e : List UInt8) : Prop :=
  ∃ c, ((f.onConflict = true ∧ StartsInsert t ∧ c = conflictClause) ∨ (¬ (f.onConflict = true ∧ StartsInsert t) ∧ c = [])) ∧
    e = c ++ (if f.terminator then [59] else [])

/-- The rewriting as a whole: for several rows of a database that takes lists of values the group is repeated, then
the placeholders are written, then the endings follow. -/
theorem queryformat_correct (q t : List UInt8) (f : Flags) (params rows : Nat) (h : queryformat q f params rows = some t) :
    ∃ m u w e, minimize q = some m ∧
      ((f.multiValue = true ∧ rows > 1 ∧ ∃ a v g b, m = a ++ v ++ g ++ b ∧ ValuesWord v ∧ ¬ HasValues (a ++ v) ∧ Group g ∧
          u = a ++ v ++ List.intercalate [44] (List.replicate rows g) ++ b) ∨
        (¬ (f.multiValue = true ∧ rows > 1) ∧ u = m)) ∧
      Placed (sigil f params) 1 u w ∧ Ending f w e ∧ t = w ++ e := by
  unfold queryformat at h
  obtain ⟨m, hm, h⟩ := Option.bind_eq_some_iff.1 h
  obtain ⟨u, hu, rfl⟩ := Option.map_eq_some_iff.1 h
  have hP : Placed (sigil f params) 1 u (fmtParams f params u) := by
    unfold fmtParams sigil
    by_cases hp : params = 0
    · simp only [hp, ne_eq, not_true_eq_false, and_false, if_false, if_true]
      exact placed_plain 1 u
    · simp only [hp, if_false, ne_eq, not_false_eq_true, and_true]
      cases hd : f.dollar
      · cases hc : f.colon
        · exact placed_plain 1 u
        · exact number_correct 58 u
      · exact number_correct 36 u
  have hI : ∀ w, Str.eqMaxInt true w insertWord 6 = true ↔ StartsInsert w := by
    intro w
    have := Str.eqMax_iff true w insertWord 6
    rw [this]
    constructor
    · intro ha
      exact ⟨w.take 6, w.drop 6, (List.take_append_drop 6 w).symm, ha⟩
    · rintro ⟨x, y, rfl, ha⟩
      have hl := alike_length ha
      simp at hl
      rw [List.take_left' hl]
      exact ha
  generalize fmtParams f params u = w at hP
  have hu' : (f.multiValue = true ∧ rows > 1 ∧ ∃ a v g b, m = a ++ v ++ g ++ b ∧ ValuesWord v ∧ ¬ HasValues (a ++ v) ∧ Group g ∧
          u = a ++ v ++ List.intercalate [44] (List.replicate rows g) ++ b) ∨ (¬ (f.multiValue = true ∧ rows > 1) ∧ u = m) := by
    unfold fmtValues at hu
    by_cases hc : f.multiValue = true ∧ rows > 1
    · rw [if_pos hc] at hu
      exact Or.inl ⟨hc.1, hc.2, (expand_correct m u rows).1 hu⟩
    · rw [if_neg hc] at hu
      exact Or.inr ⟨hc, (Option.some.inj hu).symm⟩
  have hE : ∃ c, ((f.onConflict = true ∧ StartsInsert w ∧ c = conflictClause) ∨ (¬ (f.onConflict = true ∧ StartsInsert w) ∧ c = [])) ∧ fmtConflict f w = w ++ c := by
    unfold fmtConflict
    by_cases hc : f.onConflict = true ∧ Str.eqMaxInt true w insertWord 6 = true
    · rw [if_pos hc]
      exact ⟨conflictClause, Or.inl ⟨hc.1, (hI w).1 hc.2, rfl⟩, rfl⟩
    · rw [if_neg hc]
      exact ⟨[], Or.inr ⟨by rw [← hI]; exact hc, rfl⟩, by simp⟩
  obtain ⟨c, hc, ec⟩ := hE
  refine ⟨m, u, w, c ++ (if f.terminator then [59] else []), hm, hu', hP, ⟨c, hc, rfl⟩, ?_⟩
  rw [ec, fmtTerm]
  cases f.terminator <;> simp

end Verif.SqlQuery
