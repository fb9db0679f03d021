import Verif.Dict.Model
import Verif.Str.SplitProps
/-! C77: the text form of dictionaries. -/
namespace Verif.Dict
open Verif.Chr Verif.Str

/-! ### Specification -/

/-- The characters: ASCII and not zero, the delimiters differ from each other, from the quote and from the escape character, and the
quote is no white space. -/
structure GoodChars (ch : Chars) : Prop where
  d1 : ch.delim < 128
  k1 : ch.kv < 128
  q1 : ch.quote < 128
  e1 : ch.escape < 128
  q0 : ch.quote ≠ 0
  e0 : ch.escape ≠ 0
  dq : ch.delim ≠ ch.quote
  de : ch.delim ≠ ch.escape
  kq : ch.kv ≠ ch.quote
  ke : ch.kv ≠ ch.escape
  dk : ch.delim ≠ ch.kv
  qs : isSpace ch.quote = false

/-- Neither the first nor the last character is white space. -/
def NoEdge (s : List UInt8) : Prop := s.head?.any isSpace = false ∧ s.getLast?.any isSpace = false

/-- A key that comes back. -/
structure GoodKey (ch : Chars) (trimWs : Bool) (k : List UInt8) : Prop where
  ne : k ≠ []
  nd : ch.delim ∉ k
  nk : ch.kv ∉ k
  nq : ch.quote ∉ k
  edge : trimWs = true → NoEdge k

/-- A value that comes back.  If it is null, values must not all be quoted, and the line must not be trimmed behind the key. -/
structure GoodVal (ch : Chars) (fl : SerFlags) (trimWs : Bool) (v : Option (List UInt8)) : Prop where
  null : v = none → fl.alwaysQuote = false ∧ (trimWs = true → isSpace ch.kv = false)
  last : ch.quote = ch.escape ∨ (v.getD []).getLast? ≠ some ch.escape
  print : fl.hex = false ∨ ∀ c ∈ v.getD [], isPrint c = true

/-- Carriage returns are added only if they are trimmed off again, and none is taken for the delimiter. -/
structure GoodCr (ch : Chars) (fl : SerFlags) (trimWs : Bool) : Prop where
  trim : fl.crlf = true → ch.delim = 10 ∨ ch.kv = 10 → trimWs = true
  delim : fl.crlf = true → ch.kv = 10 → ch.delim ≠ 13

/-! ### Values -/

theorem quoteLoop_on {ch : Chars} {fl : SerFlags} : ∀ (v : List UInt8) (t : Quote), t ≠ .off → quoteLoop ch fl v t = .escape ∨ (quoteLoop ch fl v t = t ∧
    ∀ c ∈ v, c ≠ ch.quote ∧ c ≠ ch.escape) := by
  intro v
  induction v with
  | nil => intro t ht; exact Or.inr ⟨rfl, by simp⟩
  | cons c cs ih =>
    intro t ht
    unfold quoteLoop
    rw [if_neg (c := t = .off ∧ ((fl.quoteNonAns = true ∧ isAlnumSp c = false) ∨ c = ch.delim ∨ c = ch.kv)) (fun h => ht h.1)]
    by_cases h : c = ch.quote ∨ c = ch.escape ∨ (isPrint c = false ∧ fl.hex = true)
    · rw [if_pos h]; exact Or.inl rfl
    · rw [if_neg h]
      rcases ih t ht with h1 | ⟨h1, h2⟩
      · exact Or.inl h1
      · refine Or.inr ⟨h1, ?_⟩
        intro x hx
        rcases List.mem_cons.1 hx with rfl | hx
        · exact ⟨fun h3 => h (Or.inl h3), fun h3 => h (Or.inr (Or.inl h3))⟩
        · exact h2 x hx

theorem quoteLoop_off {ch : Chars} {fl : SerFlags} : ∀ (v : List UInt8), quoteLoop ch fl v .off = .escape ∨ (quoteLoop ch fl v .off = .on ∧
    ∀ c ∈ v, c ≠ ch.quote ∧ c ≠ ch.escape) ∨
    (quoteLoop ch fl v .off = .off ∧ ∀ c ∈ v, c ≠ ch.quote ∧ c ≠ ch.escape ∧ c ≠ ch.delim ∧ c ≠ ch.kv) := by
  intro v
  induction v with
  | nil => exact Or.inr (Or.inr ⟨rfl, by simp⟩)
  | cons c cs ih =>
    unfold quoteLoop
    by_cases h : c = ch.quote ∨ c = ch.escape ∨ (isPrint c = false ∧ fl.hex = true)
    · rw [if_pos h]; exact Or.inl rfl
    · rw [if_neg h]
      have hc : c ≠ ch.quote ∧ c ≠ ch.escape := ⟨fun h3 => h (Or.inl h3), fun h3 => h (Or.inr (Or.inl h3))⟩
      by_cases h2 : Quote.off = .off ∧ ((fl.quoteNonAns = true ∧ isAlnumSp c = false) ∨ c = ch.delim ∨ c = ch.kv)
      · rw [if_pos h2]
        rcases quoteLoop_on (ch := ch) (fl := fl) cs .on (by decide) with h3 | ⟨h3, h4⟩
        · exact Or.inl h3
        · refine Or.inr (Or.inl ⟨h3, ?_⟩)
          intro x hx
          rcases List.mem_cons.1 hx with rfl | hx
          · exact hc
          · exact h4 x hx
      · rw [if_neg h2]
        rcases ih with h3 | ⟨h3, h4⟩ | ⟨h3, h4⟩
        · exact Or.inl h3
        · refine Or.inr (Or.inl ⟨h3, ?_⟩)
          intro x hx
          rcases List.mem_cons.1 hx with rfl | hx
          · exact hc
          · exact h4 x hx
        · refine Or.inr (Or.inr ⟨h3, ?_⟩)
          intro x hx
          rcases List.mem_cons.1 hx with rfl | hx
          · exact ⟨hc.1, hc.2, fun h5 => h2 ⟨rfl, Or.inr (Or.inl h5)⟩, fun h5 => h2 ⟨rfl, Or.inr (Or.inr h5)⟩⟩
          · exact h4 x hx

theorem escVal_eq {ch : Chars} (g : GoodChars ch) {fl : SerFlags} {v : List UInt8} (h : fl.hex = false ∨ ∀ c ∈ v, isPrint c = true) :
    escVal ch fl v = escape ch.quote ch.escape v := by
  induction v with
  | nil => rfl
  | cons c cs ih =>
    unfold escVal escape
    rw [ih (h.imp id fun h x hx => h x (by simp [hx])), if_neg (c := isPrint c = false ∧ _)]
    · simp only [ceq_iff c _ g.q1, ceq_iff c _ g.e1]
      split <;> rfl
    · rintro ⟨h1, h2⟩
      rcases h with h | h
      · rw [h] at h2; cases h2
      · rw [h c (by simp)] at h1; cases h1

theorem escape_plain {ch : Chars} (g : GoodChars ch) {v : List UInt8} (h : ∀ c ∈ v, c ≠ ch.quote ∧ c ≠ ch.escape) : escape ch.quote ch.escape v = v := by
  apply escape_none
  intro c hc
  have := h c hc
  refine ⟨?_, ?_⟩
  · rw [Bool.eq_false_iff]; intro h1; exact this.1 ((ceq_iff c _ g.q1).1 h1)
  · rw [Bool.eq_false_iff]; intro h1; exact this.2 ((ceq_iff c _ g.e1).1 h1)

/-- The text of a value. -/
inductive VText (ch : Chars) : Option (List UInt8) → List UInt8 → Prop
  | null : VText ch none []
  | bare {v : List UInt8} (ne : v ≠ []) (edge : NoEdge v) (h : ∀ c ∈ v, c ≠ ch.quote ∧ c ≠ ch.escape ∧ c ≠ ch.delim ∧ c ≠ ch.kv) : VText ch (some v) v
  | quoted (v : List UInt8) : VText ch (some v) ([ch.quote] ++ escape ch.quote ch.escape v ++ [ch.quote])

theorem valText_spec {ch : Chars} (g : GoodChars ch) {fl : SerFlags} {tr : Bool} {v : Option (List UInt8)} (hv : GoodVal ch fl tr v) {before : Option UInt8} {t : Quote}
    (h : quoteType before ch fl v = some t) : VText ch v (valText ch fl v t) := by
  cases v with
  | none =>
    simp only [quoteType, (hv.null rfl).1] at h
    simp only [Bool.false_eq_true, if_false, Option.some.injEq] at h
    subst h
    exact VText.null
  | some v =>
    have hesc : ∀ t, t = .escape → VText ch (some v) (valText ch fl (some v) t) := by
      rintro t rfl
      simp only [valText, Option.getD_some, if_true]
      have hp : fl.hex = false ∨ ∀ c ∈ v, isPrint c = true := hv.print
      rw [escVal_eq g hp]
      exact VText.quoted v
    have hon : ∀ t, t = .on → (∀ c ∈ v, c ≠ ch.quote ∧ c ≠ ch.escape) → VText ch (some v) (valText ch fl (some v) t) := by
      rintro t rfl h1
      have := VText.quoted (ch := ch) v
      rw [escape_plain g h1] at this
      exact this
    simp only [quoteType] at h
    by_cases h1 : v.head?.any isSpace = true
    · rw [if_pos h1] at h
      have ht := (Option.some.inj h).symm
      rcases quoteLoop_on (ch := ch) (fl := fl) v .on (by decide) with h2 | ⟨h2, h3⟩
      · exact hesc t (ht.trans h2)
      · exact hon t (ht.trans h2) h3
    · rw [if_neg h1] at h
      cases hl : v.getLast?.or before with
      | none => rw [hl] at h; cases h
      | some c =>
        rw [hl] at h
        have ht := (Option.some.inj h).symm
        by_cases hs : isSpace c = true
        · rw [if_pos hs] at ht
          rcases quoteLoop_on (ch := ch) (fl := fl) v .on (by decide) with h2 | ⟨h2, h3⟩
          · exact hesc t (ht.trans h2)
          · exact hon t (ht.trans h2) h3
        · rw [if_neg hs] at ht
          by_cases h4 : fl.alwaysQuote = true ∨ v = []
          · rw [if_pos h4] at ht
            rcases quoteLoop_on (ch := ch) (fl := fl) v .on (by decide) with h2 | ⟨h2, h3⟩
            · exact hesc t (ht.trans h2)
            · exact hon t (ht.trans h2) h3
          · rw [if_neg h4] at ht
            rcases quoteLoop_off (ch := ch) (fl := fl) v with h2 | ⟨h2, h3⟩ | ⟨h2, h3⟩
            · exact hesc t (ht.trans h2)
            · exact hon t (ht.trans h2) h3
            · rw [ht, h2]
              have hne : v ≠ [] := fun h => h4 (Or.inr h)
              have : valText ch fl (some v) .off = v := by simp [valText]
              rw [this]
              refine VText.bare hne ⟨by simpa using h1, ?_⟩ h3
              obtain ⟨x, hx⟩ : ∃ x, v.getLast? = some x := by
                cases hx : v.getLast? with
                | none => exact absurd (List.getLast?_eq_none_iff.1 hx) hne
                | some x => exact ⟨x, rfl⟩
              rw [hx] at hl ⊢
              simp only [Option.some_or, Option.some.injEq] at hl
              simpa [hl] using hs

theorem unescLoop_escape {ch : Chars} (g : GoodChars ch) (v : List UInt8) : unescLoop ch.escape (escape ch.quote ch.escape v) false = v := by
  induction v with
  | nil => rfl
  | cons c cs ih =>
    unfold escape
    simp only [ceq_iff c _ g.q1, ceq_iff c _ g.e1]
    by_cases h : c = ch.quote ∨ c = ch.escape
    · rw [if_pos h]
      simp [unescLoop, ih]
    · rw [if_neg h]
      have : c ≠ ch.escape := fun h1 => h (Or.inr h1)
      simp [unescLoop, ih, this]

theorem unescLoop_plain {e : UInt8} {v : List UInt8} (h : ∀ c ∈ v, c ≠ e) : unescLoop e v false = v := by
  induction v with
  | nil => rfl
  | cons c cs ih =>
    have := h c (by simp)
    simp [unescLoop, this, ih fun x hx => h x (by simp [hx])]

theorem fromUnquote_text {ch : Chars} (g : GoodChars ch) {v : Option (List UInt8)} {x : List UInt8} (h : VText ch v x) :
    fromUnquote ch.quote ch.escape x = v := by
  cases h with
  | null => rfl
  | bare ne edge h =>
    have h1 : x.head? ≠ some ch.quote := by
      intro h2
      exact (h _ (List.mem_of_head? h2)).1 rfl
    rw [fromUnquote, if_neg ne, if_neg (fun h2 => h1 h2.2.1), unescLoop_plain fun c hc => (h c hc).2.1]
  | quoted v =>
    have hl : ([ch.quote] ++ escape ch.quote ch.escape v ++ [ch.quote]).length = (escape ch.quote ch.escape v).length + 2 := by simp
    rw [fromUnquote, if_neg (by simp), if_pos ⟨by omega, by simp, List.getLast?_concat⟩, hl]
    have : ([ch.quote] ++ escape ch.quote ch.escape v ++ [ch.quote]).tail.take ((escape ch.quote ch.escape v).length + 2 - 2) = escape ch.quote ch.escape v := by
      simp
    rw [this, unescLoop_escape g]

/-! ### Lines -/

theorem noOuter_of_edge {s : List UInt8} (h : NoEdge s) : NoOuter s := by
  refine ⟨?_, ?_⟩
  · rintro c t rfl; simpa using h.1
  · rintro c t rfl; simpa using h.2

theorem vtext_edge {ch : Chars} (g : GoodChars ch) {v : Option (List UInt8)} {x : List UInt8} (h : VText ch v x) (hx : x ≠ []) : NoEdge x := by
  cases h with
  | null => exact absurd rfl hx
  | bare ne edge h => exact edge
  | quoted v => exact ⟨by simp [g.qs], by rw [List.getLast?_concat]; simp [g.qs]⟩

theorem vtext_null {ch : Chars} {v : Option (List UInt8)} {x : List UInt8} (h : VText ch v x) (hx : x = []) : v = none := by
  cases h with
  | null => rfl
  | bare ne edge h => exact absurd hx ne
  | quoted v => simp at hx

/-- The characters for splitting at `d`. -/
theorem good_d {ch : Chars} (g : GoodChars ch) : Good ch.delim ch.quote ch.escape := ⟨g.d1, g.q1, g.e1, g.q0, g.e0, g.dq, g.de⟩

theorem good_k {ch : Chars} (g : GoodChars ch) : Good ch.kv ch.quote ch.escape := ⟨g.k1, g.q1, g.e1, g.q0, g.e0, g.kq, g.ke⟩

/-- The line of a pair, with what stands in front of the delimiters. -/
def line (ch : Chars) (fl : SerFlags) (k x : List UInt8) : List UInt8 :=
  k ++ sep fl ch.kv ++ x ++ (if fl.crlf = true ∧ ch.delim = 10 then [13] else [])

theorem sep_eq (fl : SerFlags) (c : UInt8) : sep fl c = (if fl.crlf = true ∧ c = 10 then [13] else []) ++ [c] := by
  unfold sep
  by_cases h : fl.crlf = true ∧ c = 10
  · rw [if_pos h, if_pos h, h.2]; rfl
  · rw [if_neg h, if_neg h]; rfl

theorem parts_line {ch : Chars} (g : GoodChars ch) {fl : SerFlags} {tr : Bool} (hc : GoodCr ch fl tr) {k : List UInt8} (hk : GoodKey ch tr k)
    {v : Option (List UInt8)} (hv : GoodVal ch fl tr v) {x : List UInt8} (h : VText ch v x) (rest : List UInt8) (prev : Option UInt8) :
    partsQ ch.delim ch.quote ch.escape (line ch fl k x ++ [ch.delim] ++ rest) prev false [] =
      line ch fl k x :: partsQ ch.delim ch.quote ch.escape rest (some 0) false [] := by
  have gd := good_d g
  have hq13 : ch.quote ≠ 13 := by
    intro h1
    have := g.qs
    rw [h1] at this
    revert this; decide
  -- the key and the carriage return
  have hkey : ∀ c ∈ k ++ (if fl.crlf = true ∧ ch.kv = 10 then [13] else []), c ≠ ch.delim ∧ c ≠ ch.quote := by
    intro c hcm
    rcases List.mem_append.1 hcm with hcm | hcm
    · exact ⟨fun h1 => hk.nd (h1 ▸ hcm), fun h1 => hk.nq (h1 ▸ hcm)⟩
    · split at hcm
      · rename_i hcr
        simp only [List.mem_singleton] at hcm
        subst hcm
        exact ⟨fun h1 => hc.delim hcr.1 hcr.2 h1.symm, fun h1 => hq13 h1.symm⟩
      · cases hcm
  let tail := (if fl.crlf = true ∧ ch.delim = 10 then [13] else []) ++ [ch.delim] ++ rest
  have htail : tail.headD 0 ≠ ch.quote := by
    show ((if fl.crlf = true ∧ ch.delim = 10 then [13] else []) ++ [ch.delim] ++ rest).headD 0 ≠ _
    split
    · exact fun h1 => hq13 h1.symm
    · exact g.dq
  have hall : line ch fl k x ++ [ch.delim] ++ rest = (k ++ (if fl.crlf = true ∧ ch.kv = 10 then [13] else [])) ++ (ch.kv :: (x ++ tail)) := by
    rw [line, sep_eq]; simp [tail]
  obtain ⟨p, h1⟩ := cell_plain gd _ hkey (ch.kv :: (x ++ tail)) prev []
  rw [hall, h1, List.nil_append]
  have hkd : ¬ (ceq ch.kv ch.delim = true ∧ false = false) := by
    rw [ceq_iff _ _ g.d1]; exact fun h2 => g.dk h2.1.symm
  rw [parts_go (qstep_other g.q1 g.kq p false _) hkd]
  have hp : (some ch.kv).any (ceq · ch.escape) = false := by
    rw [Option.any_some, Bool.eq_false_iff]
    intro h2
    exact g.ke ((ceq_iff _ _ g.e1).1 h2)
  -- the value
  have hval : ∀ cur, ∃ p, partsQ ch.delim ch.quote ch.escape (x ++ tail) (some ch.kv) false cur = partsQ ch.delim ch.quote ch.escape tail p false (cur ++ x) := by
    intro cur
    cases h with
    | null => exact ⟨some ch.kv, by simp⟩
    | bare ne edge h => exact cell_plain gd x (fun c hcm => ⟨(h c hcm).2.2.1, (h c hcm).1⟩) tail _ cur
    | quoted v =>
      by_cases hqe : ch.quote = ch.escape
      · have g2 := gd
        rw [← hqe] at g2 ⊢
        exact cell_same g2 v tail htail _ cur
      · rcases hv.last with hl | hl
        · exact absurd hl hqe
        · exact cell_diff gd hqe v tail hl _ hp cur
  obtain ⟨p2, hp2⟩ := hval (k ++ (if fl.crlf = true ∧ ch.kv = 10 then [13] else []) ++ [ch.kv])
  rw [hp2]
  -- the carriage return and the delimiter
  have hcr : ∀ c ∈ (if fl.crlf = true ∧ ch.delim = 10 then [(13 : UInt8)] else []), c ≠ ch.delim ∧ c ≠ ch.quote := by
    intro c hcm
    split at hcm
    · rename_i hcr
      simp only [List.mem_singleton] at hcm
      subst hcm
      exact ⟨by rw [hcr.2]; decide, fun h1 => hq13 h1.symm⟩
    · cases hcm
  have htl : tail = (if fl.crlf = true ∧ ch.delim = 10 then [13] else []) ++ (ch.delim :: rest) := by simp [tail]
  obtain ⟨p3, h3⟩ := cell_plain gd _ hcr (ch.delim :: rest) p2
    (k ++ (if fl.crlf = true ∧ ch.kv = 10 then [13] else []) ++ [ch.kv] ++ x)
  rw [htl, h3, parts_cut (qstep_other g.q1 g.dq p3 false _) ⟨(ceq_iff _ _ g.d1).2 rfl, rfl⟩]
  congr 1
  rw [line, sep_eq]
  simp

/-- Splitting at most once. -/
theorem fillQ_two {d q e : UInt8} (g : Good d q e) (slots : Nat) (rest : List UInt8) : ∀ (x : List UInt8), (∀ c ∈ x, c ≠ d ∧ c ≠ q) →
    ∀ (prev : Option UInt8) (cur : List UInt8) (r : List (List UInt8)), fillQ d q e 2 slots (x ++ d :: rest) prev false [] cur = some r → r = [cur ++ x, rest] := by
  intro x
  have hdd := (ceq_iff d d g.d1).2 rfl
  induction x with
  | nil =>
    intro _ prev cur r h
    have hq := fun n => qstep_other (e := e) g.q1 g.dq prev false n
    cases rest with
    | nil =>
      simp only [List.nil_append] at h
      unfold fillQ at h
      rw [hq] at h
      simp only [and_self, hdd, if_true] at h
      obtain ⟨o, h1, h2⟩ := Option.bind_eq_some_iff.1 h
      rw [push_some h2, push_some h1]; simp
    | cons c r' =>
      simp only [List.nil_append] at h
      unfold fillQ at h
      rw [hq] at h
      simp only [and_self, hdd, if_true] at h
      obtain ⟨o, h1, h2⟩ := Option.bind_eq_some_iff.1 h
      have h3 := push_some h1
      rw [if_pos ⟨by decide, by rw [h3]; rfl⟩] at h2
      rw [push_some h2, h3]; simp
  | cons c x ih =>
    intro hx prev cur r h
    have hc := hx c (by simp)
    have hq := fun n => qstep_other (e := e) g.q1 hc.2 prev false n
    have hcd : ¬ (ceq c d = true ∧ false = false) := by rw [ceq_iff c d g.d1]; exact fun h => hc.1 h.1
    have key : fillQ d q e 2 slots (c :: (x ++ d :: rest)) prev false [] cur = fillQ d q e 2 slots (x ++ d :: rest) (some c) false [] (cur ++ [c]) := by
      cases hl : x ++ d :: rest with
      | nil => simp at hl
      | cons c' r' =>
        conv => lhs; unfold fillQ
        rw [hq]
        exact if_neg hcd
    rw [List.cons_append, key] at h
    rw [ih (fun c hc => hx c (by simp [hc])) (some c) (cur ++ [c]) r h]
    simp

theorem explode_two {d q e : UInt8} (g : Good d q e) {x rest : List UInt8} (hx : ∀ c ∈ x, c ≠ d ∧ c ≠ q) :
    explodeQ d q e 2 (x ++ d :: rest) = some (2, [x, rest]) := by
  obtain ⟨xs, h1, _, _⟩ := explodeQ_partial d q e 2 g.de (x ++ d :: rest) (by simp)
  unfold explodeQ at h1
  rw [if_neg (by simp)] at h1
  obtain ⟨r, h2, h3⟩ := Option.map_eq_some_iff.1 h1
  have h4 := fillQ_two g _ rest x hx none [] r h2
  simp only [Prod.mk.injEq] at h3
  unfold explodeQ
  rw [if_neg (by simp)]
  simp only [h2, Option.map_some]
  rw [h3.1, ← h3.2, h4]
  rfl

theorem deser_line {ch : Chars} (g : GoodChars ch) {fl : SerFlags} {tr : Bool} (hc : GoodCr ch fl tr) {k : List UInt8} (hk : GoodKey ch tr k)
    {v : Option (List UInt8)} (hv : GoodVal ch fl tr v) {x : List UInt8} (h : VText ch v x) (ls : List (List UInt8)) (out : List (List UInt8 × Option (List UInt8))) :
    deserLoop ch tr (line ch fl k x :: ls) out = deserLoop ch tr ls (out ++ [(k, v)]) := by
  have hkne := hk.ne
  have hkc : ∀ c ∈ k, c ≠ ch.kv ∧ c ≠ ch.quote := fun c hcm => ⟨fun h1 => hk.nk (h1 ▸ hcm), fun h1 => hk.nq (h1 ▸ hcm)⟩
  have hq13 : ch.quote ≠ 13 := by
    intro h1
    have := g.qs
    rw [h1] at this
    revert this; decide
  cases tr with
  | false =>
    have h1 : ¬ (fl.crlf = true ∧ ch.kv = 10) := fun h1 => absurd (hc.trim h1.1 (Or.inr h1.2)) (by decide)
    have h2 : ¬ (fl.crlf = true ∧ ch.delim = 10) := fun h1 => absurd (hc.trim h1.1 (Or.inl h1.2)) (by decide)
    have hl : line ch fl k x = k ++ ch.kv :: x := by
      rw [line, sep_eq, if_neg h1, if_neg h2]; simp
    rw [hl, deserLoop]
    simp only [Bool.false_eq_true, if_false]
    rw [if_neg (by simp), explode_two (good_k g) hkc]
    simp only [ne_eq, not_true, if_false, if_neg hkne]
    rw [fromUnquote_text g h]
  | true =>
    have hke := hk.edge rfl
    let cr : List UInt8 := if fl.crlf = true ∧ ch.kv = 10 then [13] else []
    have hl : line ch fl k x = (k ++ cr ++ ch.kv :: x) ++ (if fl.crlf = true ∧ ch.delim = 10 then [13] else []) := by
      rw [line, sep_eq]; simp [cr]
    have htrim : trim (line ch fl k x) = k ++ cr ++ ch.kv :: x := by
      refine trim_unique (a := []) (b := if fl.crlf = true ∧ ch.delim = 10 then [13] else []) (by rw [hl]; simp) (by simp) ?_ ?_
      · intro c hcm
        split at hcm
        · simp only [List.mem_singleton] at hcm; subst hcm; decide
        · cases hcm
      · apply noOuter_of_edge
        refine ⟨?_, ?_⟩
        · cases k with
          | nil => exact absurd rfl hkne
          | cons a k => exact hke.1
        · by_cases hx : x = []
          · have h1 := vtext_null h hx
            rw [hx, List.getLast?_append]
            simp [(hv.null h1).2 rfl]
          · have := (vtext_edge g h hx).2
            obtain ⟨y, hy⟩ : ∃ y, x.getLast? = some y := by
              cases hy : x.getLast? with
              | none => exact absurd (List.getLast?_eq_none_iff.1 hy) hx
              | some y => exact ⟨y, rfl⟩
            rw [List.getLast?_append, List.getLast?_cons, hy]
            rw [hy] at this
            simpa using this
    have hkey : ∀ c ∈ k ++ cr, c ≠ ch.kv ∧ c ≠ ch.quote := by
      intro c hcm
      rcases List.mem_append.1 hcm with hcm | hcm
      · exact hkc c hcm
      · simp only [cr] at hcm
        split at hcm
        · rename_i hcr
          simp only [List.mem_singleton] at hcm
          subst hcm
          exact ⟨by rw [hcr.2]; decide, fun h1 => hq13 h1.symm⟩
        · cases hcm
    have htk : trim (k ++ cr) = k := by
      refine trim_unique (a := []) (b := cr) (by simp) (by simp) ?_ (noOuter_of_edge hke)
      intro c hcm
      simp only [cr] at hcm
      split at hcm
      · simp only [List.mem_singleton] at hcm; subst hcm; decide
      · cases hcm
    have htx : trim x = x := by
      by_cases hx : x = []
      · rw [hx]; decide
      · exact trim_eq (noOuter_of_edge (vtext_edge g h hx))
    rw [deserLoop]
    simp only [if_true]
    rw [htrim, if_neg (by simp), explode_two (good_k g) hkey]
    simp only [ne_eq, not_true, if_false, htk, htx, if_neg hkne]
    rw [fromUnquote_text g h]

theorem parts_all {ch : Chars} (g : GoodChars ch) {fl : SerFlags} {tr : Bool} (hc : GoodCr ch fl tr) (before : Option UInt8) :
    ∀ (kvs : List (List UInt8 × Option (List UInt8))), (∀ p ∈ kvs, GoodKey ch tr p.1 ∧ GoodVal ch fl tr p.2) → ∀ s, serLoop before ch fl kvs = some s →
    ∀ prev, ∃ ls, partsQ ch.delim ch.quote ch.escape s prev false [] = ls ++ [[]] ∧ ∀ out, deserLoop ch tr (ls ++ [[]]) out = .ok (out ++ kvs) := by
  intro kvs
  induction kvs with
  | nil =>
    intro _ s h prev
    simp only [serLoop, Option.some.injEq] at h
    subst h
    refine ⟨[], rfl, fun out => ?_⟩
    have ht : trim ([] : List UInt8) = [] := by decide
    simp [deserLoop, ht]
  | cons p r ih =>
    obtain ⟨k, v⟩ := p
    intro hg s h prev
    rw [serLoop] at h
    obtain ⟨t, h1, h2⟩ := Option.bind_eq_some_iff.1 h
    obtain ⟨rest, h3, h4⟩ := Option.map_eq_some_iff.1 h2
    obtain ⟨hk, hv⟩ := hg (k, v) (by simp)
    have hx := valText_spec g hv h1
    have hs : s = line ch fl k (valText ch fl v t) ++ [ch.delim] ++ rest := by
      rw [← h4, line, sep_eq fl ch.delim]; simp
    obtain ⟨ls, h5, h6⟩ := ih (fun p hp => hg p (by simp [hp])) rest h3 (some 0)
    refine ⟨line ch fl k (valText ch fl v t) :: ls, ?_, ?_⟩
    · rw [hs, parts_line g hc hk hv hx, h5]; rfl
    · intro out
      rw [List.cons_append, deser_line g hc hk hv hx, h6]
      simp

/-! ### C77 -/

/-- C77: reading a dictionary that was written with the same characters inserts the pairs that were there, in their order.  Missing:
the dictionary without pairs, keys that hold a delimiter or quote, values that end in the escape character if it is not the quote,
null values if all values are quoted, encoded characters (`_fails` below). -/
theorem roundtrip_partial {ch : Chars} (g : GoodChars ch) {fl : SerFlags} {tr : Bool} (hc : GoodCr ch fl tr) {before : Option UInt8}
    {kvs : List (List UInt8 × Option (List UInt8))} (hne : kvs ≠ []) (hg : ∀ p ∈ kvs, GoodKey ch tr p.1 ∧ GoodVal ch fl tr p.2) {s : List UInt8}
    (h : serialize before ch fl kvs = some s) : deserialize ch tr s = .ok kvs := by
  have hsne : s ≠ [] := by
    cases kvs with
    | nil => exact absurd rfl hne
    | cons p r =>
      obtain ⟨k, v⟩ := p
      rw [serialize, serLoop] at h
      obtain ⟨t, h1, h2⟩ := Option.bind_eq_some_iff.1 h
      obtain ⟨rest, h3, h4⟩ := Option.map_eq_some_iff.1 h2
      have := (hg (k, v) (by simp)).1.ne
      intro h5
      rw [h5] at h4
      simp only [List.append_eq_nil_iff] at h4
      exact this h4.1.1.1.1
  obtain ⟨ls, h1, h2⟩ := parts_all g hc before kvs hg s h none
  obtain ⟨xs, h3, _, _⟩ := explodeQ_partial ch.delim ch.quote ch.escape 0 g.de s hsne
  have hxs : xs = ls ++ [[]] := by
    unfold explodeQ at h3
    rw [if_neg hsne] at h3
    obtain ⟨r, h4, h5⟩ := Option.map_eq_some_iff.1 h3
    simp only [Prod.mk.injEq] at h5
    rw [← h5.2, fillQ_parts _ _ _ _ _ _ _ _ _ r h4, List.nil_append, h1]
  rw [deserialize, if_neg hsne, h3]
  simp only
  rw [hxs, h2]
  rfl

/-- C77: writing has a result if no value is the empty string. -/
theorem serialize_total (before : Option UInt8) (ch : Chars) (fl : SerFlags) : ∀ (kvs : List (List UInt8 × Option (List UInt8))),
    before ≠ none ∨ (∀ p ∈ kvs, p.2 ≠ some []) → ∃ s, serialize before ch fl kvs = some s := by
  intro kvs
  unfold serialize
  induction kvs with
  | nil => intro _; exact ⟨[], rfl⟩
  | cons p r ih =>
    obtain ⟨k, v⟩ := p
    intro h
    obtain ⟨s, hs⟩ := ih (h.imp id fun h p hp => h p (by simp [hp]))
    have hq : ∃ t, quoteType before ch fl v = some t := by
      cases v with
      | none => exact ⟨_, rfl⟩
      | some v =>
        simp only [quoteType]
        split
        · exact ⟨_, rfl⟩
        · cases hl : v.getLast?.or before with
          | some c => exact ⟨_, rfl⟩
          | none =>
            exfalso
            rw [Option.or_eq_none_iff] at hl
            rcases h with h | h
            · exact h hl.2
            · exact h (k, some v) (by simp) (by rw [List.getLast?_eq_none_iff.1 hl.1])
    obtain ⟨t, ht⟩ := hq
    rw [serLoop, ht, hs]
    exact ⟨_, rfl⟩

/-- C77: reading never leaves the memory if neither delimiter is the escape character. -/
theorem deserialize_safe {ch : Chars} (hd : ch.delim ≠ ch.escape) (hk : ch.kv ≠ ch.escape) (tr : Bool) (s : List UInt8) : deserialize ch tr s ≠ .ub := by
  have loop : ∀ ls out, deserLoop ch tr ls out ≠ .ub := by
    intro ls
    induction ls with
    | nil => intro out h; cases h
    | cons l ls ih =>
      intro out
      rw [deserLoop]
      generalize (if tr = true then trim l else l) = l'
      simp only
      by_cases h0 : l' = []
      · rw [if_pos h0]; exact ih out
      · rw [if_neg h0]
        obtain ⟨xs, h1, _, _⟩ := explodeQ_partial ch.kv ch.quote ch.escape 2 hk l' h0
        rw [h1]
        simp only
        by_cases h2 : xs.length ≠ 2
        · rw [if_pos h2]; exact fun h => by cases h
        · rw [if_neg h2]
          have h2 : xs.length = 2 := by omega
          match xs, h2 with
          | [k, v], _ =>
            simp only
            generalize (if tr = true then trim k else k) = k'
            split
            · exact ih out
            · exact ih _
  rw [deserialize]
  by_cases hs : s = []
  · rw [if_pos hs]; exact fun h => by cases h
  · rw [if_neg hs]
    obtain ⟨xs, h1, _, _⟩ := explodeQ_partial ch.delim ch.quote ch.escape 0 hd s hs
    rw [h1]
    exact loop xs []

theorem mem_join {d : UInt8} {c : UInt8} (hc : c ≠ d) : ∀ {xs : List (List UInt8)}, c ∈ join [d] xs ↔ ∃ x ∈ xs, c ∈ x := by
  intro xs
  induction xs with
  | nil => simp [join]
  | cons x xs ih =>
    cases xs with
    | nil => simp [join]
    | cons y ys => rw [join_cons _ _ (by simp), List.mem_append, List.mem_append, ih]; simp [hc]

theorem join_mem {d : UInt8} {xs : List (List UInt8)} (h : d ∉ join [d] xs) : xs.length ≤ 1 := by
  match xs with
  | [] => simp
  | [x] => simp
  | x :: y :: r => rw [join_cons _ _ (by simp)] at h; simp at h

/-- C77: a text that has something else than white space and delimiters, but no key/value delimiter, is not read. -/
theorem deserialize_reject {ch : Chars} (hd : ch.delim ≠ ch.escape) (hk : ch.kv ≠ ch.escape) (tr : Bool) {s : List UInt8} (hkv : ch.kv ∉ s)
    (hc : ∃ c ∈ s, isSpace c = false ∧ c ≠ ch.delim) : deserialize ch tr s = .fail := by
  obtain ⟨c, hcs, hsp, hcd⟩ := hc
  have hs : s ≠ [] := List.ne_nil_of_mem hcs
  obtain ⟨xs, h1, h2, _⟩ := explodeQ_partial ch.delim ch.quote ch.escape 0 hd s hs
  rw [deserialize, if_neg hs, h1]
  simp only
  have hex : ∃ x ∈ xs, c ∈ x := (mem_join hcd).1 (by rw [h2]; exact hcs)
  have hno : ∀ x ∈ xs, ch.kv ≠ ch.delim → ch.kv ∉ x := fun x hx hne hm => hkv (h2 ▸ (mem_join hne).2 ⟨x, hx, hm⟩)
  have hkd : ch.kv ≠ ch.delim ∨ xs.length ≤ 1 := by
    by_cases h : ch.kv = ch.delim
    · exact Or.inr (join_mem (by rw [h2, ← h]; exact hkv))
    · exact Or.inl h
  have hno : ∀ x ∈ xs, ch.kv ∉ x := by
    intro x hx
    rcases hkd with h | h
    · exact hno x hx h
    · match xs, h with
      | [y], _ =>
        simp only [List.mem_singleton] at hx
        subst hx
        simp only [join] at h2
        rw [h2]; exact hkv
  clear h1 h2 hkd
  have loop : ∀ (xs : List (List UInt8)), (∃ x ∈ xs, c ∈ x) → (∀ x ∈ xs, ch.kv ∉ x) → ∀ out, deserLoop ch tr xs out = .fail := by
    intro xs
    induction xs with
    | nil => rintro ⟨x, hx, _⟩; cases hx
    | cons x xs ih =>
      intro hex hno out
      rw [deserLoop]
      have hsub : ∀ y, y ∈ (if tr = true then trim x else x) → y ∈ x := by
        intro y hy
        split at hy
        · obtain ⟨a, b, e, _⟩ := trim_correct x
          rw [e]; simp [hy]
        · exact hy
      have hin : c ∈ x → c ∈ (if tr = true then trim x else x) := by
        intro hy
        split
        · obtain ⟨a, b, e, ha, hb, _⟩ := trim_correct x
          rw [e] at hy
          simp only [List.mem_append] at hy
          rcases hy with (hy | hy) | hy
          · rw [ha c hy] at hsp; cases hsp
          · exact hy
          · rw [hb c hy] at hsp; cases hsp
        · exact hy
      generalize hx' : (if tr = true then trim x else x) = x' at hsub hin ⊢
      simp only
      by_cases h0 : x' = []
      · rw [if_pos h0]
        refine ih ?_ (fun y hy => hno y (by simp [hy])) out
        obtain ⟨y, hy, hcy⟩ := hex
        rcases List.mem_cons.1 hy with rfl | hy
        · have := hin hcy; rw [h0] at this; cases this
        · exact ⟨y, hy, hcy⟩
      · rw [if_neg h0]
        obtain ⟨ys, h3, h4, _⟩ := explodeQ_partial ch.kv ch.quote ch.escape 2 hk x' h0
        rw [h3]
        have h5 := join_mem (d := ch.kv) (xs := ys) (by rw [h4]; exact fun h => hno x (by simp) (hsub _ h))
        simp only
        rw [if_pos (by omega)]
  exact loop xs hex hno []

/-- Plain flags. -/
def fl0 : SerFlags := ⟨false, false, false, false⟩

/-- `;`, `=`, `"` and `\`. -/
def ch0 : Chars := ⟨59, 61, 34, 92⟩

theorem ch0_good : GoodChars ch0 := by constructor <;> decide

/-- The hypotheses hold for a dictionary with values that need quotes and escapes, and a null value. -/
example : deserialize ch0 true [97, 61, 34, 92, 34, 59, 34, 59, 98, 61, 59, 99, 61, 120, 59] = .ok [([97], some [34, 59]), ([98], none), ([99], some [120])] := by
  refine roundtrip_partial ch0_good (fl := fl0) ⟨by decide, by decide⟩ (before := none) (by simp) ?_ (by decide)
  intro p hp
  simp only [List.mem_cons, List.not_mem_nil, or_false] at hp
  rcases hp with rfl | rfl | rfl
  all_goals exact ⟨⟨by decide, by decide, by decide, by decide, fun _ => ⟨by decide, by decide⟩⟩, ⟨by decide, Or.inr (by decide), Or.inl rfl⟩⟩

example : deserialize ch0 true [32, 59, 97, 98, 59] = .fail := deserialize_reject (by decide) (by decide) true (by decide) ⟨97, by decide, by decide, by decide⟩

/-- A dictionary without pairs is written as the empty text, which is not read. -/
theorem empty_fails : serialize none ch0 fl0 [] = some [] ∧ deserialize ch0 true [] = .fail := by decide

/-- Keys are written as they are: the key `a=b` comes back as `a`, and the key `a;b` is not read. -/
theorem key_fails : (serialize none ch0 fl0 [([97, 61, 98], some [120])]).map (deserialize ch0 true) = some (.ok [([97], some [98, 61, 120])]) ∧
    (serialize none ch0 fl0 [([97, 59, 98], some [120])]).map (deserialize ch0 true) = some .fail := by decide +kernel

/-- The value `x\` hides its closing quote: with `c=y` behind it one pair comes back, with all the rest as value. -/
theorem escape_fails : (serialize none ch0 fl0 [([97], some [120, 92]), ([99], some [121])]).map (deserialize ch0 true) =
    some (.ok [([97], some [34, 120, 92, 34, 59, 99, 61, 121, 59])]) := by decide +kernel

/-- If all values are quoted, a null value comes back as the empty string. -/
theorem null_fails : (serialize none ch0 { fl0 with alwaysQuote := true } [([97], none)]).map (deserialize ch0 true) = some (.ok [([97], some [])]) := by decide +kernel

/-- Encoded characters are not decoded, and above 127 the code has eight digits. -/
theorem hex_fails : serialize none ch0 { fl0 with hex := true } [([97], some [0xE9])] = some [97, 61, 34, 91, 70, 70, 70, 70, 70, 70, 69, 57, 93, 34, 59] ∧
    deserialize ch0 true [97, 61, 34, 91, 70, 70, 70, 70, 70, 70, 69, 57, 93, 34, 59] = .ok [([97], some [91, 70, 70, 70, 70, 70, 70, 69, 57, 93])] := by decide +kernel

/-- For an empty value the byte in front of it is read. -/
theorem empty_value_fails : serialize none ch0 fl0 [([97], some [])] = none := by decide

/-- With the delimiter as escape character reading stores outside the memory. -/
theorem deserialize_fails : deserialize ⟨59, 61, 34, 59⟩ true [59, 34, 120, 34, 59, 59, 59, 59] = .ub := by decide +kernel

end Verif.Dict
