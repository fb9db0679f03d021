import Verif.Ini.Seg
import Verif.Ini.Store
/- What an INI file means: lines with their layout, and reading one line. -/
namespace Verif.Ini
open Verif.Chr Verif.Str

/-! ## Files -/

/-- The characters that the settings may use together. -/
structure Sane (st : Settings) : Prop where
  small : st.delim < 128 ∧ st.quote < 128 ∧ st.escape < 128 ∧ st.comment < 128 ∧ st.kv < 128
  zero : st.delim ≠ 0 ∧ st.comment ≠ 0 ∧ st.kv ≠ 0
  diff : st.delim ≠ st.comment ∧ st.delim ≠ st.kv ∧ st.comment ≠ st.kv ∧ st.comment ≠ st.escape
  space : isSpace st.comment = false ∧ isSpace st.kv = false
  bracket : ∀ b ∈ [91, 93], st.delim ≠ b ∧ st.comment ≠ b ∧ st.quote ≠ b
  quote : st.quote ≠ 0 → isSpace st.quote = false ∧ st.quote ≠ st.delim ∧ st.quote ≠ st.comment ∧ st.quote ≠ st.kv
  escape : st.quote ≠ 0 → st.escape ≠ 0 ∧ isSpace st.escape = false ∧ st.escape ≠ st.delim ∧ st.escape ≠ st.comment ∧ st.escape ≠ st.kv

/-- A text with every quote and escape character behind an escape character. -/
def esc (q e : UInt8) (t : List UInt8) : List UInt8 := t.flatMap fun c => if c = q ∨ c = e then [e, c] else [c]

/-- A value as it stands in the file. -/
inductive Val
  | bare (t : List UInt8)
  | quoted (t : List UInt8)
deriving DecidableEq, Repr

/-- The value that is meant. -/
def Val.meant : Val → List UInt8
  | bare t | quoted t => t

def Val.text (st : Settings) : Val → List UInt8
  | bare t => t
  | quoted t => [st.quote] ++ esc st.quote st.escape t ++ [st.quote]

/-- A comment behind something: blanks, the comment character, blanks and the comment. -/
structure Tail where
  before : List UInt8
  after : List UInt8
  text : List UInt8
deriving DecidableEq, Repr

def tailText (st : Settings) : Option Tail → List UInt8
  | none => []
  | some t => t.before ++ [st.comment] ++ t.after ++ t.text

/-- A line without the white space around it. -/
inductive Core
  | blank
  | comment (t : List UInt8)
  | sect (a name b : List UInt8) (c : Option Tail)
  | key (key : List UInt8) (c : Option Tail)
  | pair (key a b : List UInt8) (v : Val) (c : Option Tail)
deriving DecidableEq, Repr

def Core.text (st : Settings) : Core → List UInt8
  | blank => []
  | comment t => [st.comment] ++ t
  | sect a name b c => [91] ++ a ++ name ++ b ++ [93] ++ tailText st c
  | key k c => k ++ tailText st c
  | pair k a b v c => k ++ a ++ [st.kv] ++ b ++ v.text st ++ tailText st c

/-- A line. -/
structure Line where
  left : List UInt8
  core : Core
  right : List UInt8
deriving DecidableEq, Repr

def Line.text (st : Settings) (l : Line) : List UInt8 := l.left ++ l.core.text st ++ l.right

/-- White space within a line. -/
def Spaces (st : Settings) (w : List UInt8) : Prop := ∀ c ∈ w, isSpace c = true ∧ c ≠ st.delim

/-- A text that begins and ends without white space. -/
def Bare (w : List UInt8) : Prop := (∀ c ∈ w.head?, isSpace c = false) ∧ (∀ c ∈ w.getLast?, isSpace c = false)

/-- A text without characters that mean something. -/
def Clean (st : Settings) (w : List UInt8) : Prop := ∀ c ∈ w, c ≠ st.delim ∧ c ≠ st.comment ∧ (st.quote ≠ 0 → c ≠ st.quote) ∧ c ≠ 0

def Val.good (st : Settings) : Val → Prop
  | bare t => Bare t ∧ Clean st t
  | quoted t => st.quote ≠ 0 ∧ 0 ∉ t ∧ (st.quote = st.escape ∨ t.getLast? ≠ some st.escape)

def Tail.good (st : Settings) (t : Tail) : Prop :=
  Spaces st t.before ∧ Spaces st t.after ∧ Bare t.text ∧ (∀ c ∈ t.text, c ≠ st.delim) ∧ (t.text = [] → t.after = [])

def Core.good (st : Settings) : Core → Prop
  | blank => True
  | comment t => (∀ c ∈ t, c ≠ st.delim) ∧ (∀ c ∈ t.getLast?, isSpace c = false)
  | sect a name b c => Spaces st a ∧ Spaces st b ∧ Bare name ∧ Clean st name ∧ 93 ∉ name ∧ (∀ t ∈ c, t.good st)
  | key k c => k ≠ [] ∧ Bare k ∧ Clean st k ∧ st.kv ∉ k ∧ k.head? ≠ some 91 ∧ (∀ t ∈ c, t.good st)
  | pair k a b v c => k ≠ [] ∧ Bare k ∧ Clean st k ∧ st.kv ∉ k ∧ k.head? ≠ some 91 ∧ Spaces st a ∧ Spaces st b ∧ v.good st ∧ (v = .bare [] → b = []) ∧ (∀ t ∈ c, t.good st)

def Line.good (st : Settings) (l : Line) : Prop := Spaces st l.left ∧ Spaces st l.right ∧ l.core.good st

/-- What a line says. -/
def Core.elem : Core → Elem
  | blank => .empty
  | comment t => .comment t
  | sect _ name _ c => .section name (c.map (·.text))
  | key k c => .kv k none (c.map fun t => t.after ++ t.text)
  | pair k _ _ v c => .kv k (some v.meant) (c.map (·.text))

/-! ## One line -/

theorem esc_eq {q e : UInt8} (hq : q < 128) (he : e < 128) (t : List UInt8) : esc q e t = escape q e t := by
  induction t with
  | nil => rfl
  | cons c t ih =>
    have h1 : (ceq c q = true ∨ ceq c e = true) ↔ (c = q ∨ c = e) := by rw [ceq_iff c q hq, ceq_iff c e he]
    unfold esc at ih ⊢
    rw [List.flatMap_cons, ih]
    conv => rhs; unfold escape
    by_cases h : c = q ∨ c = e
    · rw [if_pos h, if_pos (h1.2 h)]; rfl
    · rw [if_neg h, if_neg (fun x => h (h1.1 x))]; rfl

theorem Bare.no {w : List UInt8} (h : Bare w) : NoOuter w := by
  constructor
  · rintro c t rfl; exact h.1 c rfl
  · rintro c t rfl; exact h.2 c (by simp)

theorem Spaces.sp {st : Settings} {w : List UInt8} (h : Spaces st w) : ∀ c ∈ w, isSpace c = true := fun c hc => (h c hc).1

theorem unquote_trim {s s' : List UInt8} {q e : UInt8} (h : trim s = trim s') : unquote s q e = unquote s' q e := by
  unfold unquote unquoteMax
  have e1 : trimMax s s.length = trim s := rfl
  have e2 : trimMax s' s'.length = trim s' := rfl
  have l1 : ∀ s : List UInt8, (trim s).take s.length = trim s := by
    intro s
    obtain ⟨a, b, e, _⟩ := trim_correct s
    apply List.take_of_length_le
    have := congrArg List.length e
    simp at this
    omega
  rw [e1, e2]
  simp only [l1]
  rw [h]

theorem ceq_false {c u : UInt8} (h : c ≠ u) : ceq c u = false := by
  unfold ceq; simp [h]

theorem takeWhile_cut {p : UInt8 → Bool} {x : List UInt8} {c : UInt8} {r : List UInt8} (hx : ∀ y ∈ x, p y = true) (hc : p c = false) :
    (x ++ c :: r).takeWhile p = x := by
  rw [List.takeWhile_append_of_pos hx, List.takeWhile_cons, if_neg (by simp [hc]), List.append_nil]

theorem takeWhile_all {p : UInt8 → Bool} {x : List UInt8} (hx : ∀ y ∈ x, p y = true) : x.takeWhile p = x := by
  induction x with
  | nil => rfl
  | cons c x ih => rw [List.takeWhile_cons, if_pos (hx c (by simp)), ih fun y hy => hx y (by simp [hy])]

section
variable {st : Settings} (hs : Sane st)
include hs

/-- White space is none of the characters that mean something. -/
theorem Spaces.other {w : List UInt8} (h : Spaces st w) : ∀ c ∈ w, c ≠ st.delim ∧ c ≠ st.comment ∧ c ≠ st.kv ∧ (st.quote ≠ 0 → c ≠ st.quote) ∧ c ≠ 0 ∧ (st.quote ≠ 0 → c ≠ st.escape) := by
  intro c hc
  have h1 := (h c hc).1
  refine ⟨(h c hc).2, ?_, ?_, ?_, ?_, ?_⟩
  · rintro rfl; rw [hs.space.1] at h1; cases h1
  · rintro rfl; rw [hs.space.2] at h1; cases h1
  · rintro hq rfl; rw [(hs.quote hq).1] at h1; cases h1
  · rintro rfl; revert h1; decide
  · rintro hq rfl; rw [(hs.escape hq).2.1] at h1; cases h1

/-- The white space around a value, and the quotes. -/
theorem unquote_val {a b : List UInt8} (ha : Spaces st a) (hb : Spaces st b) {v : Val} (hv : v.good st) : unquote (a ++ v.text st ++ b) st.quote st.escape = v.meant := by
  cases v with
  | bare t =>
    obtain ⟨hb1, hc⟩ := hv
    rw [unquote_bare]
    · exact trim_unique rfl ha.sp hb.sp hb1.no
    · intro c hc'
      have : c ≠ st.quote := by
        by_cases hq : st.quote = 0
        · rw [hq]
          simp only [List.mem_append] at hc'
          rcases hc' with (h | h) | h
          · exact (Spaces.other hs ha c h).2.2.2.2.1
          · exact (hc c h).2.2.2
          · exact (Spaces.other hs hb c h).2.2.2.2.1
        · simp only [List.mem_append] at hc'
          rcases hc' with (h | h) | h
          · exact (Spaces.other hs ha c h).2.2.2.1 hq
          · exact (hc c h).2.2.1 hq
          · exact (Spaces.other hs hb c h).2.2.2.1 hq
      exact ceq_false this
  | quoted t =>
    obtain ⟨hq, _, _⟩ := hv
    have hsp := (hs.quote hq).1
    have hno : NoOuter ([st.quote] ++ esc st.quote st.escape t ++ [st.quote]) := by
      constructor
      · intro c r h
        simp only [List.singleton_append, List.cons_append, List.cons.injEq] at h
        rw [← h.1]; exact hsp
      · intro c r h
        have := List.append_inj_right' h rfl
        rw [← List.singleton_inj.1 this]; exact hsp
    have e1 : trim (a ++ Val.text st (.quoted t) ++ b) = [st.quote] ++ esc st.quote st.escape t ++ [st.quote] := trim_unique rfl ha.sp hb.sp hno
    rw [unquote_trim (e1.trans (trim_eq hno).symm), unquote_enclosed _ _ hs.small.2.1 hsp, esc_eq hs.small.2.1 hs.small.2.2.1, unescape_escape _ _ hs.small.2.1 hs.small.2.2.1]
    rfl

/-- Text without characters that mean something. -/
theorem seg_clean {cut : UInt8 → Bool} (n : UInt8) (x : List UInt8) (hx : ∀ c ∈ x, cut c = false ∧ (st.quote ≠ 0 → c ≠ st.quote)) (p : Option UInt8) :
    Seg st.quote st.escape cut n x p false (x.getLast?.or p) false := by
  by_cases hq : st.quote = 0
  · rw [hq]; exact Seg.noquote n x (fun c hc => (hx c hc).1) p
  · exact Seg.plain hs.small.2.1 n x (fun c hc => ⟨(hx c hc).1, (hx c hc).2 hq⟩) p

/-- A value with its white space: what the loops go over without stopping. -/
theorem seg_val {cut : UInt8 → Bool} (hcut : ∀ c, cut c = true → c = st.delim ∨ c = st.comment) {a b : List UInt8} (ha : Spaces st a) (hb : Spaces st b) {v : Val} (hv : v.good st)
    (n : UInt8) (hn : st.quote ≠ 0 → n ≠ st.quote) (p : Option UInt8) (hp : st.quote ≠ 0 → p.any (ceq · st.escape) = false) :
    ∃ p', Seg st.quote st.escape cut n (a ++ v.text st ++ b) p false p' false := by
  have hno : ∀ c, c ≠ st.delim → c ≠ st.comment → cut c = false := fun c h1 h2 => by
    rw [Bool.eq_false_iff]; exact fun e => (hcut c e).elim h1 h2
  have sa : ∀ n p, Seg st.quote st.escape cut n a p false (a.getLast?.or p) false := fun n p =>
    seg_clean hs n a (fun c hc => ⟨hno c (Spaces.other hs ha c hc).1 (Spaces.other hs ha c hc).2.1, (Spaces.other hs ha c hc).2.2.2.1⟩) p
  have sb : ∀ n p, Seg st.quote st.escape cut n b p false (b.getLast?.or p) false := fun n p =>
    seg_clean hs n b (fun c hc => ⟨hno c (Spaces.other hs hb c hc).1 (Spaces.other hs hb c hc).2.1, (Spaces.other hs hb c hc).2.2.2.1⟩) p
  cases v with
  | bare t =>
    obtain ⟨_, hc⟩ := hv
    have sv : ∀ n p, Seg st.quote st.escape cut n t p false (t.getLast?.or p) false := fun n p =>
      seg_clean hs n t (fun c h => ⟨hno c (hc c h).1 (hc c h).2.1, (hc c h).2.2.1⟩) p
    exact ⟨_, ((sa _ p).append rfl (sv _ _)).append rfl (sb n _)⟩
  | quoted t =>
    obtain ⟨hq, _, hl⟩ := hv
    have hh : b.headD n ≠ st.quote := by
      cases b with
      | nil => exact hn hq
      | cons c b => exact (Spaces.other hs hb c (by simp)).2.2.2.1 hq
    have hpa : (a.getLast?.or p).any (ceq · st.escape) = false := by
      cases hl : a.getLast? with
      | none => exact hp hq
      | some c =>
        have := (Spaces.other hs ha c (List.mem_of_getLast? hl)).2.2.2.2.2 hq
        simp [ceq_false this]
    have hcq : cut st.quote = false := hno _ (hs.quote hq).2.1 (hs.quote hq).2.2.1
    obtain ⟨p', h⟩ := Seg.quoted hs.small.2.1 hs.small.2.2.1 hq (hs.escape hq).1 hcq (b.headD n) hh t hl (a.getLast?.or p) hpa
    rw [← esc_eq hs.small.2.1 hs.small.2.2.1] at h
    exact ⟨_, ((sa _ p).append rfl h).append rfl (sb n _)⟩

/-- The comment behind something is not white space. -/
theorem tail_last {c : Option Tail} (hc : ∀ t ∈ c, t.good st) {x : List UInt8} (hx : ∀ d ∈ x.getLast?, isSpace d = false) : ∀ d ∈ (x ++ tailText st c).getLast?, isSpace d = false := by
  cases c with
  | none => simpa [tailText] using hx
  | some t =>
    obtain ⟨_, _, h3, _, h5⟩ := hc t rfl
    intro d hd
    change d ∈ (x ++ (t.before ++ [st.comment] ++ t.after ++ t.text)).getLast? at hd
    by_cases ht : t.text = []
    · rw [ht, h5 ht] at hd
      simp at hd
      rw [← hd]; exact hs.space.1
    · rw [← List.append_assoc, List.getLast?_append] at hd
      cases hl : t.text.getLast? with
      | none => exact absurd (List.getLast?_eq_none_iff.1 hl) ht
      | some y =>
        rw [hl] at hd
        simp at hd
        rw [← hd]; exact h3.2 y hl

theorem bare_core {l : Core} (hl : l.good st) : Bare (l.text st) := by
  have nosp : ∀ {b : UInt8}, b = 91 ∨ b = 93 → isSpace b = false := by rintro b (rfl | rfl) <;> decide
  cases l with
  | blank => exact ⟨by simp [Core.text], by simp [Core.text]⟩
  | comment t =>
    refine ⟨by simp [Core.text, hs.space.1], ?_⟩
    intro c hc
    simp only [Core.text, List.getLast?_append] at hc
    cases h : t.getLast? with
    | none => rw [h] at hc; simp at hc; rw [← hc]; exact hs.space.1
    | some y => rw [h] at hc; simp at hc; rw [← hc]; exact hl.2 y h
  | sect a name b c =>
    refine ⟨by simp [Core.text]; decide, ?_⟩
    exact tail_last hs hl.2.2.2.2.2 (by intro d hd; rw [List.getLast?_append] at hd; simp at hd; rw [← hd]; decide)
  | key k c =>
    obtain ⟨h0, h1, _, _, _, h5⟩ := hl
    refine ⟨?_, tail_last hs h5 h1.2⟩
    intro d hd
    cases k with
    | nil => exact absurd rfl h0
    | cons x k => exact h1.1 d (by simpa [Core.text] using hd)
  | pair k a b v c =>
    obtain ⟨h0, h1, _, _, _, _, h6, h7, h8, h9⟩ := hl
    refine ⟨?_, tail_last hs h9 ?_⟩
    · intro d hd
      cases k with
      | nil => exact absurd rfl h0
      | cons x k => exact h1.1 d (by simpa [Core.text] using hd)
    · intro d hd
      rw [List.getLast?_append] at hd
      cases v with
      | bare t =>
        by_cases ht : t = []
        · subst ht
          rw [h8 rfl] at hd
          simp [Val.text] at hd
          rw [← hd]; exact hs.space.2
        · simp only [Val.text] at hd
          cases hl : t.getLast? with
          | none => exact absurd (List.getLast?_eq_none_iff.1 hl) ht
          | some y => rw [hl] at hd; simp at hd; rw [← hd]; exact h7.1.2 y hl
      | quoted t =>
        simp only [Val.text, List.getLast?_append] at hd
        simp at hd
        rw [← hd]; exact (hs.quote h7.1).1

/-- The value and the comment of a line. -/
theorem parse_rhs {b : List UInt8} (hb : Spaces st b) {v : Val} (hv : v.good st) {c : Option Tail} (hc : ∀ t ∈ c, t.good st) (k r : List UInt8)
    (hr : r = b ++ v.text st ++ tailText st c) : kvOf st k (explodeQ st.comment st.quote st.escape 2 r) = some (Elem.kv k (some v.meant) (c.map (·.text))) := by
  have hcut : ∀ c, ceq c st.comment = true → c = st.delim ∨ c = st.comment := fun c h => Or.inr ((ceq_iff c _ hs.small.2.2.2.1).1 h)
  by_cases h0 : r = []
  · have h1 : b = [] ∧ v.text st = [] ∧ tailText st c = [] := by rw [h0] at hr; simpa [and_assoc] using hr.symm
    have h2 : c = none := by cases c with
      | none => rfl
      | some t => simp [tailText] at h1
    have h3 : v.meant = [] := by cases v with
      | bare t => exact h1.2.1
      | quoted t => simp [Val.text] at h1
    rw [h0, h2, h3]
    rfl
  · obtain ⟨xs, e1, _, _⟩ := explodeQ_partial st.comment st.quote st.escape 2 hs.diff.2.2.2 r h0
    rw [e1]
    unfold explodeQ at e1
    rw [if_neg h0] at e1
    simp only at e1
    obtain ⟨n, hn⟩ : ∃ n, countQ st.comment st.quote st.escape 2 r none false 0 + 1 = n := ⟨_, rfl⟩
    rw [hn] at e1
    have pk : ∀ {out x o}, push n out x = some o → o = out ++ [x] := fun h => push_some h
    cases c with
    | none =>
      obtain ⟨p', sg⟩ := seg_val (cut := (ceq · st.comment)) hs hcut hb (b := []) (by simp [Spaces]) hv 0 (fun h => h.symm) none (fun _ => rfl)
      have e2 := fillQ_seg (max := 2) (slots := n) (rest := []) sg rfl [] []
      have er : b ++ v.text st ++ [] ++ [] = r := by rw [hr]; simp [tailText]
      rw [er] at e2
      rw [e2] at e1
      unfold fillQ at e1
      obtain ⟨o, ho, e1⟩ := Option.map_eq_some_iff.1 e1
      have := pk ho
      simp only [Prod.mk.injEq] at e1
      rw [← e1.2, this]
      simp only [List.nil_append, Option.map_none, kvOf]
      rw [unquote_val hs hb (by simp [Spaces]) hv]
    | some t =>
      obtain ⟨h1, h2, h3, h4, h5⟩ := hc t rfl
      obtain ⟨p', sg⟩ := seg_val (cut := (ceq · st.comment)) hs hcut hb h1 hv st.comment (fun h => (hs.quote h).2.2.1.symm) none (fun _ => rfl)
      have e2 := fillQ_seg (max := 2) (slots := n) (rest := st.comment :: (t.after ++ t.text)) sg rfl [] []
      have er : b ++ v.text st ++ t.before ++ (st.comment :: (t.after ++ t.text)) = r := by rw [hr]; simp [tailText]
      rw [er] at e2
      rw [e2] at e1
      obtain ⟨o, ho, e1⟩ := Option.map_eq_some_iff.1 e1
      simp only [Prod.mk.injEq] at e1
      have hq : ∀ n, qstep st.quote st.escape p' false st.comment n = .go false := by
        intro n
        unfold qstep
        rw [if_neg]
        rintro ⟨h, h'⟩
        exact (hs.quote h).2.2.1 ((ceq_iff _ _ hs.small.2.1).1 h').symm
      have hcc : ceq st.comment st.comment = true := (ceq_iff _ _ hs.small.2.2.2.1).2 rfl
      have key : o = [b ++ v.text st ++ t.before, t.after ++ t.text] := by
        generalize t.after ++ t.text = w at ho
        cases w with
        | nil =>
          unfold fillQ at ho
          rw [hq] at ho
          simp only [hcc, true_and, if_true] at ho
          obtain ⟨o1, h1, h2⟩ := Option.bind_eq_some_iff.1 ho
          rw [pk h2, pk h1]; simp
        | cons x w =>
          unfold fillQ at ho
          rw [hq] at ho
          simp only [hcc, true_and, if_true] at ho
          obtain ⟨o1, h1, h2⟩ := Option.bind_eq_some_iff.1 ho
          have h3 := pk h1
          rw [if_pos ⟨by decide, by rw [h3]; rfl⟩] at h2
          rw [pk h2, h3]; simp
      rw [← e1.2, key]
      simp only [Option.map_some, kvOf]
      rw [unquote_val hs hb h1 hv, trim_unique (s := t.after ++ t.text) (a := t.after) (b := []) (t := t.text) (by simp) h2.sp (by simp) h3.no]

/-- A line of an INI file says what it says. -/
theorem parseLine_text {l : Line} (hl : l.good st) : parseLine st (l.text st) = some (some l.core.elem) := by
  obtain ⟨hl1, hl2, hg⟩ := hl
  unfold parseLine
  have ht : trim (l.text st) = l.core.text st := trim_unique rfl hl1.sp hl2.sp (bare_core hs hg).no
  rw [ht]
  cases hc : l.core with
  | blank => rfl
  | comment t => simp [Core.text, parseComment, Core.elem]
  | sect a name b c =>
    rw [hc] at hg
    obtain ⟨g1, g2, g3, g4, g5, g6⟩ := hg
    have hx : ∀ y ∈ a ++ name ++ b, (!(ceq y st.comment || decide (y = 93))) = true := by
      intro y hy
      simp only [List.mem_append] at hy
      have : y ≠ st.comment ∧ y ≠ 93 := by
        rcases hy with (h | h) | h
        · exact ⟨(Spaces.other hs g1 y h).2.1, fun e => by have := (g1 y h).1; rw [e] at this; revert this; decide⟩
        · exact ⟨(g4 y h).2.1, fun e => g5 (e ▸ h)⟩
        · exact ⟨(Spaces.other hs g2 y h).2.1, fun e => by have := (g2 y h).1; rw [e] at this; revert this; decide⟩
      simp [ceq_false this.1, this.2]
    have h91 := (hs.bracket 91 (by simp)).2.1
    have h93 := (hs.bracket 93 (by simp)).2.1
    have e1 : Core.text st (.sect a name b c) = 91 :: ((a ++ name ++ b) ++ 93 :: tailText st c) := by simp [Core.text]
    rw [e1]
    simp only [if_neg (Ne.symm h91), if_true]
    unfold parseSection
    simp only [List.drop_succ_cons, List.drop_zero]
    rw [takeWhile_cut hx (by simp), List.drop_left]
    simp only [ceq_false (Ne.symm h93), Bool.false_eq_true, if_false]
    rw [trim_unique rfl g1.sp g2.sp g3.no, List.dropWhile_cons, if_pos (by simp [ceq_false (Ne.symm h93)])]
    cases c with
    | none => simp [tailText, Core.elem]
    | some t =>
      obtain ⟨k1, k2, k3, _⟩ := g6 t rfl
      have hcc : ceq st.comment st.comment = true := (ceq_iff _ _ hs.small.2.2.2.1).2 rfl
      have e2 : (tailText st (some t)).dropWhile (fun c => !(ceq c st.comment)) = st.comment :: (t.after ++ t.text) := by
        have : tailText st (some t) = t.before ++ st.comment :: (t.after ++ t.text) := by simp [tailText]
        rw [this, List.dropWhile_append_of_pos (fun y hy => by simp [ceq_false (Spaces.other hs k1 y hy).2.1]), List.dropWhile_cons, if_neg (by simp [hcc])]
      rw [e2]
      simp only [Core.elem, Option.map_some, Bool.false_eq_true, if_false]
      rw [trim_unique (a := t.after) (b := []) (t := t.text) (by simp) k2.sp (by simp) k3.no]
  | key k c =>
    rw [hc] at hg
    obtain ⟨h0, h1, h2, h3, h4, h5⟩ := hg
    cases k with
    | nil => exact absurd rfl h0
    | cons x k =>
      have hx1 : x ≠ st.comment := (h2 x (by simp)).2.1
      have hx2 : x ≠ 91 := fun e => h4 (by simp [e])
      have e1 : Core.text st (.key (x :: k) c) = x :: (k ++ tailText st c) := rfl
      rw [e1]
      simp only [if_neg hx1, if_neg hx2]
      have e2 : x :: (k ++ tailText st c) = (x :: k) ++ tailText st c := rfl
      rw [e2]
      have hk : ∀ y ∈ x :: k, (!(ceq y st.kv || ceq y st.comment)) = true := by
        intro y hy
        simp [ceq_false (h2 y hy).2.1, ceq_false (fun e : y = st.kv => h3 (e ▸ hy))]
      unfold parseKv
      cases c with
      | none =>
        simp only [tailText, List.append_nil]
        rw [takeWhile_all hk, List.drop_length]
        simp [Core.elem, trim_eq h1.no]
      | some t =>
        obtain ⟨k1, k2, k3, _⟩ := h5 t rfl
        have hb : ∀ y ∈ (x :: k) ++ t.before, (!(ceq y st.kv || ceq y st.comment)) = true := by
          intro y hy
          rcases List.mem_append.1 hy with h | h
          · exact hk y h
          · simp [ceq_false (Spaces.other hs k1 y h).2.1, ceq_false (Spaces.other hs k1 y h).2.2.1]
        have hcc : ceq st.comment st.comment = true := (ceq_iff _ _ hs.small.2.2.2.1).2 rfl
        have e3 : (x :: k) ++ tailText st (some t) = ((x :: k) ++ t.before) ++ st.comment :: (t.after ++ t.text) := by simp [tailText]
        rw [e3]
        simp only
        rw [takeWhile_cut hb (by simp [hcc]), List.drop_left]
        simp only [hcc, if_true]
        rw [trim_unique (a := []) (b := t.before) (t := x :: k) (by simp) (by simp) k1.sp h1.no]
        rfl
  | pair k a b v c =>
    rw [hc] at hg
    obtain ⟨h0, h1, h2, h3, h4, h5, h6, h7, h8, h9⟩ := hg
    cases k with
    | nil => exact absurd rfl h0
    | cons x k =>
      have hx1 : x ≠ st.comment := (h2 x (by simp)).2.1
      have hx2 : x ≠ 91 := fun e => h4 (by simp [e])
      have e1 : Core.text st (.pair (x :: k) a b v c) = x :: (k ++ (a ++ st.kv :: (b ++ v.text st ++ tailText st c))) := by simp [Core.text]
      rw [e1]
      simp only [if_neg hx1, if_neg hx2]
      have e2 : x :: (k ++ (a ++ st.kv :: (b ++ v.text st ++ tailText st c))) = ((x :: k) ++ a) ++ st.kv :: (b ++ v.text st ++ tailText st c) := by simp
      rw [e2]
      have hk : ∀ y ∈ (x :: k) ++ a, (!(ceq y st.kv || ceq y st.comment)) = true := by
        intro y hy
        rcases List.mem_append.1 hy with h | h
        · simp [ceq_false (h2 y h).2.1, ceq_false (fun e : y = st.kv => h3 (e ▸ h))]
        · simp [ceq_false (Spaces.other hs h5 y h).2.1, ceq_false (Spaces.other hs h5 y h).2.2.1]
      have hkk : ceq st.kv st.kv = true := (ceq_iff _ _ hs.small.2.2.2.2).2 rfl
      unfold parseKv
      simp only
      rw [takeWhile_cut hk (by simp [hkk]), List.drop_left]
      simp only [ceq_false (Ne.symm hs.diff.2.2.1)]
      have e4 := parse_rhs hs h6 h7 h9 (trim ((x :: k) ++ a)) _ rfl
      simp only [Bool.false_eq_true, if_false]
      rw [e4, trim_unique (a := []) (b := a) (t := x :: k) (by simp) (by simp) h5.sp h1.no]
      rfl

end

end Verif.Ini
