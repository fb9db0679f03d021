import Verif.PatMatch.Model
namespace Verif.PatMatch
open Verif.Chr

/-! ### Specification: the syntax tree of a pattern, its text and its language -/

/-- An element of a bracket set. -/
inductive Item
  | chr (c : UInt8)
  | esc (c : UInt8)
  | range (lo hi : UInt8)
deriving DecidableEq, Repr

/-- A bracket set: negated, with a leading `]`, a leading `-`, a trailing `-`. -/
structure SetTok where
  neg : Bool
  close : Bool
  lead : Bool
  items : List Item
  trail : Bool
deriving DecidableEq, Repr

inductive Tok
  | lit (c : UInt8)
  | esc (c : UInt8)
  | any
  | star
  | set (t : SetTok)
deriving DecidableEq, Repr

def Item.text : Item → List UInt8
  | .chr c => [c]
  | .esc c => [92, c]
  | .range lo hi => [lo, 45, hi]

def SetTok.body (t : SetTok) : List UInt8 :=
  (if t.close then [93] else []) ++ ((if t.lead then [45] else []) ++ (t.items.flatMap Item.text ++ (if t.trail then [45] else [])))

def Tok.text : Tok → List UInt8
  | .lit c => [c]
  | .esc c => [92, c]
  | .any => [63]
  | .star => [42]
  | .set t => 91 :: ((if t.neg then [33] else []) ++ (t.body ++ [93]))

/-- Equality of characters, up to case when `ci`. -/
def ChrEq (ci : Bool) (x c : UInt8) : Prop := if ci then toLower x = toLower c else x = c

def Item.Match (ci : Bool) (x : UInt8) : Item → Prop
  | .chr c => ChrEq ci x c
  | .esc c => x = c
  | .range lo hi => ∃ c, lo ≤ c ∧ c ≤ hi ∧ ChrEq ci x c

def SetTok.Match (ci : Bool) (t : SetTok) (x : UInt8) : Prop :=
  (t.close ∧ x = 93) ∨ ((t.lead ∨ t.trail) ∧ x = 45) ∨ ∃ it ∈ t.items, it.Match ci x

/-- The strings matched by one token. -/
def Tok.Lang (ci : Bool) : Tok → List UInt8 → Prop
  | .lit c, a => ∃ x, a = [x] ∧ ChrEq ci x c
  | .esc c, a => a = [c]
  | .any, a => ∃ x, a = [x]
  | .star, _ => True
  | .set t, a => ∃ x, a = [x] ∧ (if t.neg then ¬ t.Match ci x else t.Match ci x)

/-- The strings matched by a pattern. -/
def Matches (ci : Bool) : List Tok → List UInt8 → Prop
  | [], s => s = []
  | t :: ts, s => ∃ a b, s = a ++ b ∧ t.Lang ci a ∧ Matches ci ts b

def render (ts : List Tok) : List UInt8 := ts.flatMap Tok.text

/-- Not one of `\ ] -`. -/
def Plain (c : UInt8) : Prop := c ≠ 92 ∧ c ≠ 93 ∧ c ≠ 45

/-- Well formed bracket elements.  Escapes of `]` and `\` inside brackets are left out: the code gets them wrong
(`escape_in_bracket_fails`).  For case-insensitive matching ranges have to be closed under change of case
(`case_range_fails`). -/
def Item.WF (ci : Bool) : Item → Prop
  | .chr c => Plain c
  | .esc c => c = 91 ∨ c = 63 ∨ c = 42
  | .range lo hi => Plain lo ∧ Plain hi ∧ lo ≤ hi ∧ hi < 128 ∧ (ci = true → ∀ c, (lo ≤ c ∧ c ≤ hi) ↔ (lo ≤ toLower c ∧ toLower c ≤ hi))

structure SetTok.WF (ci : Bool) (t : SetTok) : Prop where
  items : ∀ it ∈ t.items, it.WF ci
  one : ¬ (t.close = true ∧ t.lead = true)
  nonempty : t.body ≠ []
  bang : t.neg = true ∨ t.body.head? ≠ some 33

def Tok.WF (ci : Bool) : Tok → Prop
  | .lit c => c ≠ 92 ∧ c ≠ 91 ∧ c ≠ 93 ∧ c ≠ 63 ∧ c ≠ 42
  | .esc c => escapable c = true
  | .any => True
  | .star => True
  | .set t => t.WF ci

/-! ### Brackets -/

theorem chrEq_iff {ci : Bool} {x c : UInt8} : chrEq ci x c = true ↔ ChrEq ci x c := by
  unfold chrEq ChrEq
  cases ci <;> simp

theorem rangeClose_plain (c0 : Option UInt8) {c : UInt8} (h1 : c ≠ 92) (h2 : c ≠ 93) (r : List UInt8) (i : Nat) (e : Bool) :
    rangeClose c0 (c :: r) i e = rangeClose c0 r (i + 1) false := by
  rw [rangeClose, if_neg h1, if_neg h2]

theorem rangeClose_item (c0 : Option UInt8) {ci : Bool} {it : Item} (h : it.WF ci) (r : List UInt8) (i : Nat) :
    rangeClose c0 (it.text ++ r) i false = rangeClose c0 r (i + it.text.length) false := by
  cases it with
  | chr c => exact rangeClose_plain c0 h.1 h.2.1 r i false
  | esc c =>
    have h1 : c ≠ 92 := by rcases h with h | h | h <;> subst h <;> decide
    have h2 : c ≠ 93 := by rcases h with h | h | h <;> subst h <;> decide
    simp only [Item.text, List.cons_append, List.nil_append]
    rw [rangeClose, if_pos rfl, rangeClose_plain c0 h1 h2]; rfl
  | range lo hi =>
    obtain ⟨h1, h2, _⟩ := h
    simp only [Item.text, List.cons_append, List.nil_append]
    rw [rangeClose_plain c0 h1.1 h1.2.1, rangeClose_plain c0 (by decide) (by decide), rangeClose_plain c0 h2.1 h2.2.1]
    rfl

theorem rangeClose_items (c0 : Option UInt8) {ci : Bool} (items : List Item) (h : ∀ it ∈ items, it.WF ci) (r : List UInt8) : ∀ i,
    rangeClose c0 (items.flatMap Item.text ++ r) i false = rangeClose c0 r (i + (items.flatMap Item.text).length) false := by
  induction items with
  | nil => intro i; rfl
  | cons it items ih =>
    intro i
    rw [List.flatMap_cons, List.append_assoc, rangeClose_item c0 (h it (by simp)), ih (fun it h' => h it (by simp [h'])),
      List.length_append, Nat.add_assoc]

theorem rangeClose_set {ci : Bool} {t : SetTok} (h : t.WF ci) (r : List UInt8) :
    rangeClose (((if t.neg then [33] else []) ++ (t.body ++ 93 :: r)).head?) ((if t.neg then [33] else []) ++ (t.body ++ 93 :: r)) 0 false =
      some ((if t.neg then 1 else 0) + t.body.length) := by
  -- after the optional `!`
  have main : ∀ c0 i, (i = 0 ∧ c0 ≠ some 33 ∨ i = 1 ∧ c0 = some 33) → 
      rangeClose c0 (t.body ++ 93 :: r) i false = some (i + t.body.length) := by
    intro c0 i hi
    have hne := h.nonempty
    have hfinal : rangeClose c0 (93 :: r) (i + t.body.length) false = some (i + t.body.length) := by
      have : 0 < t.body.length := List.length_pos_iff.2 hne
      rw [rangeClose, if_neg (by decide), if_pos rfl, if_pos]
      refine ⟨?_, by simp⟩
      rintro (k | ⟨k1, k2⟩)
      · omega
      · rcases hi with ⟨_, hi⟩ | ⟨hi, _⟩
        · exact hi k2
        · omega
    have hbody : rangeClose c0 (t.body ++ 93 :: r) i false = rangeClose c0 (93 :: r) (i + t.body.length) false := by
      have tail : ∀ j, rangeClose c0 (t.items.flatMap Item.text ++ ((if t.trail then [45] else []) ++ 93 :: r)) j false =
          rangeClose c0 (93 :: r) (j + (t.items.flatMap Item.text ++ (if t.trail then [45] else [])).length) false := by
        intro j
        rw [rangeClose_items c0 t.items h.items]
        cases t.trail with
        | false => simp
        | true =>
          rw [if_pos rfl, List.cons_append, rangeClose_plain c0 (by decide) (by decide)]
          simp [Nat.add_assoc]
      unfold SetTok.body
      simp only [List.append_assoc]
      cases hc : t.close with
      | true =>
        have hl : t.lead = false := by
          cases hl : t.lead with
          | false => rfl
          | true => exact absurd ⟨hc, hl⟩ h.one
        rw [if_pos rfl, hl, List.cons_append, rangeClose, if_neg (by decide), if_pos rfl, if_neg]
        · simp only [Bool.false_eq_true, if_false, List.nil_append, tail]
          congr 1
          simp; omega
        · rintro ⟨k, _⟩
          apply k
          rcases hi with ⟨hi, _⟩ | hi
          · exact Or.inl hi
          · exact Or.inr hi
      | false =>
        cases hl : t.lead with
        | true =>
          simp only [Bool.false_eq_true, if_false, List.nil_append, if_true, List.cons_append]
          rw [rangeClose_plain c0 (by decide) (by decide), tail]
          congr 1
          simp; omega
        | false =>
          simp only [Bool.false_eq_true, if_false, List.nil_append, tail]
    rw [hbody, hfinal]
  cases hn : t.neg with
  | true =>
    simp only [if_true, List.cons_append, List.nil_append, List.head?_cons]
    rw [rangeClose_plain _ (by decide) (by decide)]
    exact main (some 33) 1 (Or.inr ⟨rfl, rfl⟩)
  | false =>
    simp only [Bool.false_eq_true, if_false, List.nil_append]
    apply main
    left
    refine ⟨rfl, ?_⟩
    have := h.bang
    rw [hn] at this
    have hb : t.body.head? ≠ some 33 := by simpa using this
    cases hbd : t.body with
    | nil => exact absurd hbd h.nonempty
    | cons c b => rw [hbd] at hb; simpa using hb

theorem getD_drop {q a r : List UInt8} {i : Nat} (h : q.drop i = a ++ r) (j : Nat) : q[i + j]?.getD 0 = (a ++ r)[j]?.getD 0 := by
  rw [← h, List.getElem?_drop]

theorem bracket_plain {ci : Bool} {q : List UInt8} {k start : Nat} {x c : UInt8} {l i : Nat} (hc : Plain c) (h : q[i]?.getD 0 = c) :
    bracket ci q k start x (l + 1) i = if chrEq ci x c then .hit else bracket ci q k start x l (i + 1) := by
  rw [bracket, h]
  simp only [if_neg hc.1, if_neg hc.2.1, if_neg hc.2.2]

theorem toLower_nonletter {x c : UInt8} (hc : c = 91 ∨ c = 63 ∨ c = 42) : toLower x = toLower c ↔ x = c := by
  have h : ∀ n : Fin 256, ∀ c ∈ [(91 : UInt8), 63, 42], (toLower (UInt8.ofNat n.val) = toLower c ↔ UInt8.ofNat n.val = c) := by
    decide +kernel
  have := h ⟨x.toNat, x.toNat_lt⟩ c (by rcases hc with h | h | h <;> simp [h])
  simpa using this

open Classical in
theorem bracket_item {ci : Bool} {q : List UInt8} {k start : Nat} {x : UInt8} {it : Item} (hw : it.WF ci) {r : List UInt8} {l i : Nat}
    (hq : q.drop i = it.text ++ r) (hs : start ≤ i) (hk : l + it.text.length + i = k) :
    bracket ci q k start x (l + it.text.length) i =
      if it.Match ci x then .hit else bracket ci q k start x l (i + it.text.length) := by
  have g0 : q[i]?.getD 0 = (it.text ++ r)[0]?.getD 0 := getD_drop hq 0
  have g1 := getD_drop hq 1
  have g2 := getD_drop hq 2
  cases it with
  | chr c =>
    simp only [Item.text, List.length_singleton]
    rw [bracket_plain hw (by simpa [Item.text] using g0)]
    simp only [Item.Match, ← chrEq_iff]
  | esc c =>
    have hesc : escapable c = true := by rcases hw with h | h | h <;> subst h <;> decide
    have hp : Plain c := by rcases hw with h | h | h <;> subst h <;> exact ⟨by decide, by decide, by decide⟩
    have e0 : q[i]?.getD 0 = 92 := by simpa [Item.text] using g0
    have e1 : q[i + 1]?.getD 0 = c := by simpa [Item.text] using g1
    simp only [Item.text, List.length_cons, List.length_nil, Nat.zero_add, Item.Match]
    rw [show l + (1 + 1) = (l + 1) + 1 by omega, bracket, e0]
    simp only [if_true]
    rw [e1, if_pos hesc]
    by_cases hx : x = c
    · rw [if_pos hx, if_pos hx]
    · rw [if_neg hx, if_neg hx, bracket_plain hp e1, if_neg]
      rw [chrEq_iff]
      unfold ChrEq
      split
      · rw [toLower_nonletter hw]; exact hx
      · exact hx
  | range lo hi =>
    obtain ⟨p1, p2, h1, h2, h3⟩ := hw
    have e0 : q[i]?.getD 0 = lo := by simpa [Item.text] using g0
    have e1 : q[i + 1]?.getD 0 = 45 := by simpa [Item.text] using g1
    have e2 : q[i + 2]?.getD 0 = hi := by simpa [Item.text] using g2
    simp only [Item.text, List.length_cons, List.length_nil, Nat.zero_add] at hk ⊢
    rw [show l + (1 + 1 + 1) = (l + 2) + 1 by omega, bracket_plain p1 e0, show l + 2 = (l + 1) + 1 by omega]
    have hdash : bracket ci q k start x (l + 1 + 1) (i + 1) =
        if sgn lo < sgn x ∧ sgn x < sgn hi then .hit else bracket ci q k start x (l + 1) (i + 2) := by
      rw [bracket, e1]
      simp only
      rw [if_neg (by decide), if_pos True.intro, if_neg (by omega), show i + 1 - 1 = i by omega, e0, show i + 1 + 1 = i + 2 by omega, e2]
    rw [hdash, bracket_plain p2 e2]
    have l1 : hi.toNat < 128 := by simpa [UInt8.lt_iff_toNat_lt] using h2
    have l2 : lo.toNat ≤ hi.toNat := by simpa [UInt8.le_iff_toNat_le] using h1
    have s1 : sgn lo = lo.toNat := by
      unfold sgn; rw [if_pos]; rw [UInt8.lt_iff_toNat_lt]; exact Nat.lt_of_le_of_lt l2 l1
    have s2 : sgn hi = hi.toNat := by
      unfold sgn; rw [if_pos h2]
    have key : (lo ≤ x ∧ x ≤ hi) ↔ (x = lo ∨ (sgn lo < sgn x ∧ sgn x < sgn hi) ∨ x = hi) := by
      rw [UInt8.le_iff_toNat_le, UInt8.le_iff_toNat_le, ← UInt8.toNat_inj, ← UInt8.toNat_inj, s1, s2]
      unfold sgn
      have hx := x.toNat_lt
      split
      · omega
      next hh =>
        rw [UInt8.lt_iff_toNat_lt] at hh
        have : (128 : UInt8).toNat = 128 := rfl
        omega
    have hm : (Item.range lo hi).Match ci x ↔
        (chrEq ci x lo = true ∨ (sgn lo < sgn x ∧ sgn x < sgn hi) ∨ chrEq ci x hi = true) := by
      rw [chrEq_iff, chrEq_iff]
      unfold Item.Match ChrEq
      cases ci with
      | false =>
        simp only [Bool.false_eq_true, if_false]
        constructor
        · rintro ⟨c, k1, k2, rfl⟩; exact key.1 ⟨k1, k2⟩
        · intro hh; exact ⟨x, (key.2 hh).1, (key.2 hh).2, rfl⟩
      | true =>
        simp only [if_true]
        have h3 := h3 rfl
        constructor
        · rintro ⟨c, k1, k2, k3⟩
          have a := (h3 c).1 ⟨k1, k2⟩
          rw [← k3] at a
          rcases key.1 ((h3 x).2 a) with b | b | b
          · left; rw [b]
          · right; left; exact b
          · right; right; rw [b]
        · rintro (b | b | b)
          · exact ⟨lo, by rw [UInt8.le_iff_toNat_le]; exact Nat.le_refl _, h1, b⟩
          · have := key.2 (Or.inr (Or.inl b))
            exact ⟨x, this.1, this.2, rfl⟩
          · exact ⟨hi, h1, by rw [UInt8.le_iff_toNat_le]; exact Nat.le_refl _, b⟩
    by_cases c1 : chrEq ci x lo = true
    · rw [if_pos c1, if_pos (hm.2 (Or.inl c1))]
    · rw [if_neg c1]
      by_cases c2 : sgn lo < sgn x ∧ sgn x < sgn hi
      · rw [if_pos c2, if_pos (hm.2 (Or.inr (Or.inl c2)))]
      · rw [if_neg c2]
        by_cases c3 : chrEq ci x hi = true
        · rw [if_pos c3, if_pos (hm.2 (Or.inr (Or.inr c3)))]
        · rw [if_neg c3, if_neg (by rw [hm]; rintro (h | h | h) <;> contradiction)]

open Classical in
theorem bracket_items {ci : Bool} {q : List UInt8} {k start : Nat} {x : UInt8} (items : List Item) (hw : ∀ it ∈ items, it.WF ci) (r : List UInt8) :
    ∀ l i, q.drop i = items.flatMap Item.text ++ r → start ≤ i → l + (items.flatMap Item.text).length + i = k →
    bracket ci q k start x (l + (items.flatMap Item.text).length) i =
      if ∃ it ∈ items, it.Match ci x then .hit else bracket ci q k start x l (i + (items.flatMap Item.text).length) := by
  induction items with
  | nil => intro l i _ _ _; simp
  | cons it items ih =>
    intro l i hq hs hk
    rw [List.flatMap_cons, List.length_append] at hk ⊢
    rw [List.flatMap_cons, List.append_assoc] at hq
    rw [Nat.add_comm it.text.length, ← Nat.add_assoc, bracket_item (hw it (by simp)) hq hs (by omega)]
    have hq' : q.drop (i + it.text.length) = items.flatMap Item.text ++ r := by
      rw [← List.drop_drop, hq, List.drop_left]
    by_cases h : it.Match ci x
    · rw [if_pos h, if_pos ⟨it, by simp, h⟩]
    · rw [if_neg h, ih (fun it h' => hw it (by simp [h'])) l _ hq' (by omega) (by omega)]
      have : (∃ it' ∈ it :: items, it'.Match ci x) ↔ ∃ it' ∈ items, it'.Match ci x := by
        constructor
        · rintro ⟨it', h1, h2⟩
          simp only [List.mem_cons] at h1
          rcases h1 with rfl | h1
          · contradiction
          · exact ⟨it', h1, h2⟩
        · rintro ⟨it', h1, h2⟩; exact ⟨it', by simp [h1], h2⟩
      simp only [this]
      rw [show i + it.text.length + (items.flatMap Item.text).length = i + ((items.flatMap Item.text).length + it.text.length) by omega]

open Classical in
theorem bracket_set {ci : Bool} {t : SetTok} (h : t.WF ci) {q r : List UInt8} {start k : Nat} (x : UInt8)
    (hq : q.drop start = t.body ++ r) (hk : start + t.body.length = k) :
    bracket ci q k start x (k - start) start = if t.Match ci x then .hit else .miss := by
  have hl : k - start = t.body.length := by omega
  rw [hl]
  -- the items and the trailing dash, from index `i`
  have tail : ∀ i, start ≤ i → q.drop i = t.items.flatMap Item.text ++ ((if t.trail then [45] else []) ++ r) →
      (t.items.flatMap Item.text ++ (if t.trail then [45] else [])).length + i = k →
      bracket ci q k start x (t.items.flatMap Item.text ++ (if t.trail then [45] else [])).length i =
        if (t.trail ∧ x = 45) ∨ ∃ it ∈ t.items, it.Match ci x then .hit else .miss := by
    intro i hi hq hk
    rw [List.length_append] at hk ⊢
    rw [Nat.add_comm, bracket_items t.items h.items _ _ _ hq hi (by omega)]
    by_cases hm : ∃ it ∈ t.items, it.Match ci x
    · rw [if_pos hm, if_pos (Or.inr hm)]
    · rw [if_neg hm]
      cases ht : t.trail with
      | false =>
        simp only [Bool.false_eq_true, if_false, List.length_nil, bracket, false_and, false_or]
        rw [if_neg hm]
      | true =>
        rw [ht] at hq hk
        simp only [if_true, List.length_singleton] at hk ⊢
        have e : q[i + (t.items.flatMap Item.text).length]?.getD 0 = 45 := by
          rw [getD_drop hq]
          simp
        rw [show (1 : Nat) = 0 + 1 by rfl, bracket, e]
        simp only [true_and]
        rw [if_neg (by decide), if_pos True.intro, if_pos (by omega)]
        by_cases hx : x = 45
        · rw [if_pos hx, if_pos (Or.inl hx)]
        · rw [if_neg hx, if_neg (by rintro (h | h) <;> contradiction)]; rfl
  unfold SetTok.body at hq hk ⊢
  simp only [List.append_assoc] at hq
  cases hc : t.close with
  | true =>
    have hld : t.lead = false := by
      cases hl : t.lead with
      | false => rfl
      | true => exact absurd ⟨hc, hl⟩ h.one
    rw [hc, hld] at hq hk
    rw [hld]
    simp only [if_true, Bool.false_eq_true, if_false, List.nil_append, List.cons_append, List.length_cons] at hq hk ⊢
    have e : q[start]?.getD 0 = 93 := by
      have := getD_drop (a := [93]) hq 0
      simpa using this
    have hq' : q.drop (start + 1) = t.items.flatMap Item.text ++ ((if t.trail then [45] else []) ++ r) := by
      rw [← List.drop_drop, hq]; rfl
    rw [bracket, e]
    simp only
    rw [if_neg (by decide), if_neg (by decide), if_pos True.intro, if_pos True.intro, tail (start + 1) (by omega) hq' (by omega)]
    unfold SetTok.Match
    rw [hc, hld]
    by_cases hx : x = 93
    · simp [hx]
    · simp [hx]
  | false =>
    rw [hc] at hq hk
    cases hld : t.lead with
    | true =>
      rw [hld] at hq hk
      simp only [if_true, Bool.false_eq_true, if_false, List.nil_append, List.cons_append, List.length_cons] at hq hk ⊢
      have e : q[start]?.getD 0 = 45 := by
        have := getD_drop (a := [45]) hq 0
        simpa using this
      have hq' : q.drop (start + 1) = t.items.flatMap Item.text ++ ((if t.trail then [45] else []) ++ r) := by
        rw [← List.drop_drop, hq]; rfl
      rw [bracket, e]
      simp only
      rw [if_neg (by decide), if_pos True.intro, if_pos (Or.inl True.intro), tail (start + 1) (by omega) hq' (by omega)]
      unfold SetTok.Match
      rw [hc, hld]
      by_cases hx : x = 45
      · simp [hx]
      · simp [hx]
    | false =>
      rw [hld] at hq hk
      simp only [Bool.false_eq_true, if_false, List.nil_append] at hq hk ⊢
      rw [tail start (by omega) hq (by omega)]
      unfold SetTok.Match
      rw [hc, hld]
      simp

end Verif.PatMatch
