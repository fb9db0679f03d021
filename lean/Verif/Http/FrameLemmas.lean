import Verif.Http.FrameSpec
import Verif.Http.Feed
/- Helper lemmas for C85. -/
namespace Verif.Http.Frame
open Verif.Chr (isSpace toLower)
open Verif.Str (NoOuter join Alike Same)
open Verif.Num (value digitVal digit)
open Verif.Parser.Scan (untilLen split whitespace First Sections)

/-! ### Names -/

theorem alike_iff (a : List UInt8) : ∀ b, Alike true a b ↔ a.map toLower = b.map toLower := by
  have hs : ∀ x y, Same true x y ↔ toLower x = toLower y := by
    intro x y
    rw [← Str.fold_iff true x y, UInt8.xor_eq_zero_iff]; simp
  induction a with
  | nil =>
    intro b
    cases b with
    | nil => exact ⟨fun _ => rfl, fun _ => .nil⟩
    | cons y b => exact ⟨fun h => (nomatch h), fun h => (nomatch h)⟩
  | cons x a ih =>
    intro b
    cases b with
    | nil => exact ⟨fun h => (nomatch h), fun h => (nomatch h)⟩
    | cons y b =>
      simp only [List.map_cons, List.cons.injEq]
      rw [← ih b, ← hs]
      exact ⟨fun h => by cases h with | cons h t => exact ⟨h, t⟩, fun h => .cons h.1 h.2⟩

theorem eq_is {a lit low : List UInt8} (ha : a.length < Buf.W) (hl : lit.length < Buf.W) (h : lit.map toLower = low) : Str.eq true a lit = true ↔ Is a low := by
  rw [Str.eq_iff true a lit ha hl, alike_iff, h]; rfl

theorem nosplit_iff {f : Field} (hn : f.name ≠ []) (ha : f.name.length < Buf.W) : nosplit f.name = true ↔ f.whole := by
  unfold nosplit Field.whole
  simp only [Bool.and_eq_true, Bool.or_eq_true, decide_eq_true_eq]
  rw [eq_is (low := nAuthenticate) ha (by decide) (by decide), eq_is (low := nAuthorization) ha (by decide) (by decide), eq_is (low := nType) ha (by decide) (by decide),
    eq_is (low := nDate) ha (by decide) (by decide)]
  constructor
  · rintro ⟨_, h⟩
    rcases h with ((h | h) | h) | h
    · exact .inl h
    · exact .inr (.inl h)
    · exact .inr (.inr (.inl h))
    · exact .inr (.inr (.inr h))
  · intro h
    refine ⟨hn, ?_⟩
    rcases h with h | h | h | h
    · exact .inl (.inl (.inl h))
    · exact .inl (.inl (.inr h))
    · exact .inl (.inr h)
    · exact .inr h

/-! ### Lines -/

theorem first_line {line : List UInt8} (h : (13 : UInt8) ∉ line) (p : List UInt8) : First (line ++ crlf ++ p) crlf line.length := by
  refine ⟨⟨line, p, rfl, rfl⟩, ?_⟩
  intro x q e
  refine Nat.le_of_not_lt fun hlt => h ?_
  have h1 : (x ++ [13]) <+: (line ++ crlf ++ p) := ⟨10 :: q, by rw [e]; simp [crlf]⟩
  have h2 : line <+: (line ++ crlf ++ p) := ⟨crlf ++ p, by simp⟩
  have h3 := List.prefix_of_prefix_length_le h1 h2 (by simp; omega)
  exact h3.subset (by simp)

theorem header_one {cb : Cb} {st st' : St} {line : List UInt8} {evs : List Ev} (hne : line ≠ []) (h : (13 : UInt8) ∉ line)
    (hl : headerLine cb st line = (.ok, st', evs)) (p : List UInt8) : readHeader cb st (line ++ crlf ++ p) = (readHeader cb st' p).pre evs := by
  have hlen : (line ++ crlf ++ p).length = line.length + 2 + p.length := by simp [crlf]; omega
  rw [readHeader_eq cb st _ ((line ++ crlf ++ p).length + 1) (by omega), headerLoop]
  have hu := until_first (first_line h p)
  obtain ⟨n, hn⟩ : ∃ n, line.length = n + 1 := ⟨line.length - 1, by cases line; exact absurd rfl hne; simp⟩
  rw [hn] at hu
  have hp : crlf.isPrefixOf (line ++ crlf ++ p) = false := by
    cases line with
    | nil => exact absurd rfl hne
    | cons c l =>
      have : c ≠ 13 := fun e => h (by simp [e])
      simp [crlf, List.isPrefixOf, this.symm]
  rw [if_neg (by rw [hp]; decide), hu]
  have ht : (line ++ crlf ++ p).take (n + 1) = line := by rw [← hn, List.append_assoc, List.take_left]
  have hd : (line ++ crlf ++ p).drop (n + 3) = p := by
    have : n + 3 = (line ++ crlf).length := by simp [crlf]; omega
    rw [this, List.drop_left]
  simp only [ht, hd, hl, ne_eq, not_true_eq_false, if_false]
  rw [← readHeader_eq cb st' p _ (by rw [hlen]; omega)]
  rfl

theorem header_end (cb : Cb) (st : St) (p : List UInt8) : readHeader cb st (crlf ++ p) = ⟨.ok, true, st, p, []⟩ := by
  rw [readHeader_eq cb st _ ((crlf ++ p).length + 1) (by omega), headerLoop, if_pos (by simp [crlf, List.isPrefixOf])]
  simp [crlf]

/-- Two sections at a byte. -/
theorem sections_two {d : UInt8} {a b : List UInt8} (ha : d ∉ a) (m : Nat) (hm : m ≠ 1) {xs : List (List UInt8)} (k : Nat) (hk : m = 0 ∨ k + 1 ≠ m) (h : Sections [d] m (k + 1) b xs) :
    Sections [d] m k (a ++ [d] ++ b) (a :: xs) := by
  refine .more k a b xs ⟨⟨a, b, rfl, rfl⟩, ?_⟩ hk h
  intro x q e
  refine Nat.le_of_not_lt fun hlt => ha ?_
  have h1 : (x ++ [d]) <+: (a ++ [d] ++ b) := ⟨q, e.symm⟩
  have h2 : a <+: (a ++ [d] ++ b) := ⟨[d] ++ b, by simp⟩
  exact (List.prefix_of_prefix_length_le h1 h2 (by simp; omega)).subset (by simp)

theorem cstr_eq {s : List UInt8} (h : ∀ c ∈ s, c ≠ 0) : cstr s = s := by
  unfold cstr
  induction s with
  | nil => rfl
  | cons c s ih =>
    rw [List.takeWhile_cons, if_pos (by simpa using h c (by simp)), ih fun x hx => h x (List.mem_cons_of_mem _ hx)]

theorem strdup_eq {s : List UInt8} (hs : s ≠ []) (h : ∀ c ∈ s, c ≠ 0) : strdup s = some s := by
  rw [strdup, if_neg hs, cstr_eq h]

/-! ### The text of a field -/

theorem join_mem {d : List UInt8} {c : UInt8} : ∀ {ps : List (List UInt8)}, c ∈ join d ps → c ∈ d ∨ ∃ p ∈ ps, c ∈ p
  | [], h => by simp [join] at h
  | [x], h => .inr ⟨x, by simp, h⟩
  | x :: y :: ps, h => by
    rw [Str.join_cons d x (by simp)] at h
    simp only [List.mem_append] at h
    rcases h with (h | h) | h
    · exact .inr ⟨x, by simp, h⟩
    · exact .inl h
    · rcases join_mem h with h | ⟨p, hp, hc⟩
      · exact .inl h
      · exact .inr ⟨p, List.mem_cons_of_mem _ hp, hc⟩

theorem text_byte {f : Field} (h : f.Good) : ∀ c ∈ f.text, c ≠ 0 ∧ c ≠ 13 := by
  intro c hc
  rcases join_mem hc with hc | ⟨p, hp, hc⟩
  · simp only [List.mem_cons, List.not_mem_nil, or_false] at hc
    rcases hc with rfl | rfl <;> decide
  · exact h.partByte p hp c hc

theorem join_ne {d : List UInt8} : ∀ {ps : List (List UInt8)}, ps ≠ [] → (∀ p ∈ ps, p ≠ []) → join d ps ≠ []
  | [], h, _ => absurd rfl h
  | [x], _, h => h x (by simp)
  | x :: y :: ps, _, h => by
    rw [Str.join_cons d x (by simp)]
    have := h x (by simp)
    simp [this]

theorem join_head {d : List UInt8} {x : List UInt8} {ps : List (List UInt8)} : ∃ r, join d (x :: ps) = x ++ r := by
  cases ps with
  | nil => exact ⟨[], by simp [join]⟩
  | cons y ps => exact ⟨_, by rw [Str.join_cons d x (by simp), List.append_assoc]⟩

theorem join_last {d : List UInt8} : ∀ {ps : List (List UInt8)}, ps ≠ [] → ∃ r x, x ∈ ps ∧ join d ps = r ++ x
  | [], h => absurd rfl h
  | [x], _ => ⟨[], x, by simp, rfl⟩
  | x :: y :: ps, _ => by
    obtain ⟨r, z, hz, e⟩ := join_last (d := d) (ps := y :: ps) (by simp)
    exact ⟨x ++ d ++ r, z, List.mem_cons_of_mem _ hz, by rw [Str.join_cons d x (by simp), e]; simp⟩

theorem text_outer {f : Field} (h : f.Good) : NoOuter f.text := by
  constructor
  · intro c t e
    cases hp : f.parts with
    | nil => exact absurd hp h.parts
    | cons x ps =>
      obtain ⟨r, hr⟩ := join_head (d := [44, 32]) (x := x) (ps := ps)
      rw [Field.text, hp, hr] at e
      have hx := h.part x (by simp [hp])
      cases x with
      | nil => exact absurd rfl hx.1
      | cons d x =>
        simp only [List.cons_append, List.cons.injEq] at e
        rw [← e.1]; exact hx.2.1 d x rfl
  · intro c t e
    obtain ⟨r, x, hx, hr⟩ := join_last (d := [44, 32]) h.parts
    rw [Field.text, hr] at e
    have hp := h.part x hx
    obtain ⟨y, d, hy⟩ : ∃ y d, x = y ++ [d] := ⟨x.dropLast, x.getLast hp.1, (List.dropLast_concat_getLast hp.1).symm⟩
    rw [hy, ← List.append_assoc] at e
    have := (List.append_inj' e rfl).2
    simp only [List.cons.injEq, and_true] at this
    rw [← this]; exact hp.2.2 d y hy

/-- The value as a list at the commas. -/
def pieces : List (List UInt8) → List (List UInt8)
  | [] => []
  | x :: xs => x :: xs.map (32 :: ·)

theorem join_pieces : ∀ ps : List (List UInt8), join [44, 32] ps = join [44] (pieces ps)
  | [] => rfl
  | [x] => rfl
  | x :: y :: ps => by
    have key : ∀ (ps : List (List UInt8)) (y : List UInt8), [32] ++ join [44, 32] (y :: ps) = join [44] ((y :: ps).map (32 :: ·)) := by
      intro ps
      induction ps with
      | nil => intro y; simp [join]
      | cons z ps ih =>
        intro y
        rw [Str.join_cons [44, 32] y (by simp), List.map_cons, Str.join_cons [44] _ (by simp), ← ih z]
        simp
    rw [Str.join_cons [44, 32] x (by simp), pieces, Str.join_cons [44] x (by simp), ← key]
    simp

theorem trim_pieces {f : Field} (h : f.Good) : (pieces f.parts).map Str.trim = f.parts := by
  have h1 : ∀ p ∈ f.parts, Str.trim p = p := fun p hp => Str.trim_eq (h.part p hp).2
  have h2 : ∀ p ∈ f.parts, Str.trim (32 :: p) = p := fun p hp =>
    Str.trim_unique (a := [32]) (b := []) (by simp) (by simp [isSpace]) (by simp) (h.part p hp).2
  cases hp : f.parts with
  | nil => rfl
  | cons x ps =>
    rw [hp] at h1 h2
    rw [pieces, List.map_cons, h1 x (by simp), List.map_map]
    congr 1
    have : ps.map (Str.trim ∘ fun x => 32 :: x) = ps.map id := by
      apply List.map_congr_left
      intro p hq
      exact h2 p (List.mem_cons_of_mem _ hq)
    rw [this, List.map_id]

theorem splitVals_eq {f : Field} (h : f.Good) (hl : f.name.length < Buf.W) : splitVals f.name f.text = some (some f.values) := by
  unfold splitVals Field.values
  by_cases hw : f.whole
  · rw [if_pos ((nosplit_iff h.name hl).2 hw), if_pos hw, Str.trim_eq (text_outer h)]
  · rw [if_neg (fun hn => hw ((nosplit_iff h.name hl).1 hn)), if_neg hw]
    have hne : f.text ≠ [] := join_ne h.parts fun p hp => (h.part p hp).1
    have e : f.text = join [44] (pieces f.parts) := join_pieces _
    have hx := Str.explode_join 44 (pieces f.parts) (by
      intro x hx
      have hno : ∀ p ∈ f.parts, (44 : UInt8) ∉ p := h.comma hw
      cases hp : f.parts with
      | nil => exact absurd hp h.parts
      | cons y ps =>
        rw [hp] at hx hno
        simp only [pieces, List.mem_cons, List.mem_map] at hx
        rcases hx with rfl | ⟨p, hq, rfl⟩
        · exact hno x (by simp)
        · have := hno p (List.mem_cons_of_mem _ hq)
          simp [this]) (by rw [← e]; exact fun hc => (text_byte h 0 hc).1 rfl) (by rw [← e]; exact hne)
    rw [e, hx, Option.map_some]
    congr 1
    rw [if_neg, trim_pieces h]
    intro he
    have := trim_pieces h
    rw [he] at this
    exact h.parts this.symm

theorem values_spec {f : Field} (h : f.Good) : ∀ v ∈ f.values, v ≠ [] ∧ Str.trim v = v := by
  intro v hv
  unfold Field.values at hv
  split at hv
  · simp only [List.mem_singleton] at hv
    subst hv
    exact ⟨join_ne h.parts fun p hp => (h.part p hp).1, Str.trim_eq (text_outer h)⟩
  · exact ⟨(h.part v hv).1, Str.trim_eq (h.part v hv).2⟩

theorem headerLine_eq {f : Field} (h : f.Good) (cb : Cb) (st : St) (hl : st.headerLen + f.line.length ≤ 8192) :
    headerLine cb st f.line = headerKv cb { st with headerLen := st.headerLen + f.line.length } f.name (some f.text) := by
  have hn58 : (58 : UInt8) ∉ f.name := fun hc => (h.nameByte 58 hc).2.1 rfl
  have hne : f.text ≠ [] := join_ne h.parts fun p hp => (h.part p hp).1
  have hline : f.line = f.name ++ [58] ++ (32 :: f.text) := by simp [Field.line]
  obtain ⟨c, r, hc⟩ : ∃ c r, f.name = c :: r := by
    cases hh : f.name with
    | nil => exact absurd hh h.name
    | cons c r => exact ⟨c, r, rfl⟩
  have hsp := h.nameByte c (by simp [hc])
  unfold headerLine
  simp only
  rw [if_neg (by simp only [maxHeaders]; omega)]
  have hw : whitespace false false f.line = 0 := by
    rw [hline, hc]; simp [whitespace, hsp.2.2]
  rw [if_neg (by simp [hw])]
  obtain ⟨xs, hx1, hx2⟩ := Parser.Scan.split_correct f.line [58] 2 false true (by simp) (by simp)
  have hxs : xs = [f.name, 32 :: f.text] := by
    apply hx1.unique
    rw [hline]
    exact sections_two hn58 2 (by simp) 0 (by simp) (.last _ _ (.inr (by simp)))
  rw [hx2, hxs]
  simp only [List.cons.injEq, reduceCtorEq, and_false, if_false, List.getLast?_cons_cons, List.getLast?_singleton, Option.some.injEq]
  have hlast : f.name.getLast?.any isSpace = false := by
    cases hh : f.name.getLast? with
    | none => rfl
    | some d => exact (h.nameByte d (List.mem_of_getLast? hh)).2.2
  rw [if_neg (by rw [hlast]; simp), if_neg h.name]
  have hws : whitespace false false (32 :: f.text) = 1 := by
    cases ht : f.text with
    | nil => exact absurd ht hne
    | cons d t =>
      have := (text_outer h).1 d t ht
      simp only [whitespace, this, Bool.false_eq_true, false_and, if_false, if_true]
      rw [if_neg (by decide)]
  rw [cstr_eq (fun c hc => (h.nameByte c hc).1), hws]
  simp only [List.drop_succ_cons, List.drop_zero]
  rw [strdup_eq hne (fun c hc => (text_byte h c hc).1)]
  simp only [Option.map_some, Str.trim_eq (text_outer h)]

theorem headerKv_eq {f : Field} (h : f.Good) (cb : Cb) (st : St) (hl : f.name.length < Buf.W) : headerKv cb st f.name (some f.text) =
    ((valueLoop cb f.name st f.values).1, (valueLoop cb f.name st f.values).2.1, fullEv st f.name (some f.text) ++ (valueLoop cb f.name st f.values).2.2) := by
  unfold headerKv
  simp only
  rw [if_neg (show f.text ≠ [] from join_ne h.parts fun p hp => (h.part p hp).1), splitVals_eq h hl]

theorem valueLoop_eq {cb : Cb} {k : List UInt8} {st : St} {ev : List UInt8 → Ev} : ∀ {vs : List (List UInt8)}, (∀ v ∈ vs, v ≠ [] ∧ Str.trim v = v) →
    (∀ v ∈ vs, process cb st k (some v) = (.ok, st, [ev v])) → valueLoop cb k st vs = (.ok, st, vs.map ev)
  | [], _, _ => rfl
  | v :: vs, h1, h2 => by
    rw [valueLoop]
    simp only [(h1 v (by simp)).2]
    rw [if_neg (h1 v (by simp)).1, h2 v (by simp)]
    simp only [ne_eq, not_true_eq_false, if_false]
    rw [valueLoop_eq (fun x hx => h1 x (List.mem_cons_of_mem _ hx)) (fun x hx => h2 x (List.mem_cons_of_mem _ hx))]
    rfl

/-! ### Fields -/

theorem line_ne {f : Field} (h : f.Good) : f.line ≠ [] := by
  have := h.name
  simp [Field.line]

theorem line_cr {f : Field} (h : f.Good) : (13 : UInt8) ∉ f.line := by
  intro hc
  simp only [Field.line, List.mem_append, List.mem_cons, List.not_mem_nil, or_false] at hc
  rcases hc with (hc | hc | hc) | hc
  · have := (h.nameByte 13 hc).2.2
    exact absurd this (by decide)
  · exact absurd hc (by decide)
  · exact absurd hc (by decide)
  · exact (text_byte h 13 hc).2 rfl

theorem name_len {f : Field} {n : Nat} (hl : n + f.line.length ≤ 8192) : f.name.length < Buf.W := by
  have : f.line.length = f.name.length + 2 + f.text.length := by simp [Field.line]; omega
  unfold Buf.W; omega

/-- A field of which every value is taken without a change of the state. -/
theorem field_line {cb : Cb} {st : St} {f : Field} (h : f.Good) (hl : st.headerLen + f.line.length ≤ 8192) (ev : List UInt8 → Ev)
    (hp : ∀ v ∈ f.values, process cb { st with headerLen := st.headerLen + f.line.length } f.name (some v) = (.ok, { st with headerLen := st.headerLen + f.line.length }, [ev v])) :
    headerLine cb st f.line = (.ok, { st with headerLen := st.headerLen + f.line.length }, fullEv st f.name (some f.text) ++ f.values.map ev) := by
  rw [headerLine_eq h cb st hl, headerKv_eq h cb _ (name_len hl), valueLoop_eq (values_spec h) hp]
  rfl

theorem lines_cons (f : Field) (fs : List Field) : lines (f :: fs) = f.line ++ crlf ++ lines fs := by simp [lines, eol, crlf]
theorem size_cons (f : Field) (fs : List Field) : size (f :: fs) = f.line.length + size fs := by simp [size]

theorem trailer_fields {cb : Cb} (hcb : ∀ e, cb e = none) (p : List UInt8) : ∀ (fs : List Field) (st : St), (∀ f ∈ fs, f.Good) → st.step = .trailer →
    st.headerLen + size fs ≤ 8192 →
    readHeader cb st (lines fs ++ crlf ++ p) = ⟨.ok, true, { st with headerLen := st.headerLen + size fs }, p, trailerEvs fs⟩
  | [], st, _, _, _ => by
    show readHeader cb st (crlf ++ p) = _
    rw [header_end]
    rfl
  | f :: fs, st, hg, hs, hl => by
    have hf := hg f (by simp)
    rw [size_cons] at hl
    have h1 := field_line (cb := cb) hf (by omega) (fun v => .trailer f.name (some v)) (st := st) (by
      intro v _
      unfold process
      simp only [hs, call, hcb])
    rw [lines_cons, List.append_assoc, List.append_assoc, header_one (line_ne hf) (line_cr hf) h1, ← List.append_assoc,
      trailer_fields hcb p fs { st with headerLen := st.headerLen + f.line.length } (fun x hx => hg x (List.mem_cons_of_mem _ hx)) hs (by simp only; omega)]
    simp only [Out.pre, size_cons, Nat.add_assoc, Out.mk.injEq, true_and]
    simp [trailerEvs, fullEv, hs]

theorem inert_validate {st : St} {f : Field} {n : Nat} (h : f.Good) (hi : f.Inert) (hl : n + f.line.length ≤ 8192) : ∀ v ∈ f.values, validate st f.name v = (.ok, st) := by
  intro v hv
  have hn := name_len hl
  unfold validate
  simp only
  have h1 : Str.eq true f.name sContentLength = false := by
    rw [Bool.eq_false_iff]; intro hh; exact hi.length ((eq_is hn (by decide) (by decide)).1 hh)
  have h2 : Str.eq true f.name sTransferEncoding = false := by
    rw [Bool.eq_false_iff]; intro hh; exact hi.encoding ((eq_is hn (by decide) (by decide)).1 hh)
  simp only [h1, h2, Bool.false_eq_true, if_false, false_and, ne_eq, not_true_eq_false]
  by_cases h3 : Str.eq true f.name sContentType = true
  · rw [if_pos h3]
    have ht : Is f.name nType := (eq_is hn (by decide) (by decide)).1 h3
    obtain ⟨m1, m2⟩ := hi.multi ht
    have hw : f.whole := .inr (.inr (.inl ht))
    rw [Field.values, if_pos hw, List.mem_singleton] at hv
    subst hv
    unfold validateType
    have e1 : Str.eqMaxInt true f.text sMultipart 19 = false := by
      rw [Bool.eq_false_iff]
      intro hh
      rw [Str.eqMax_iff, alike_iff] at hh
      exact m1 (hh.trans (by decide))
    have e2 : Str.casestr f.text sBoundary = none := by
      have := Str.casestr_correct f.text sBoundary
      split at this
      · obtain ⟨p, q, r, e, _, ha, _⟩ := this
        rw [alike_iff] at ha
        exact absurd (ha.trans (by decide)) (m2 p q r e)
      · assumption
    simp only [e1, e2, Bool.false_eq_true, false_and, if_false]
  · rw [if_neg h3]

theorem header_fields {cb : Cb} (hcb : ∀ e, cb e = none) (p : List UInt8) : ∀ (fs : List Field) (st : St), (∀ f ∈ fs, f.Good ∧ f.Inert) → st.step = .header →
    st.headerLen + size fs ≤ 8192 →
    readHeader cb st (lines fs ++ p) = (readHeader cb { st with headerLen := st.headerLen + size fs } p).pre (headerEvs fs)
  | [], st, _, _, _ => by
    show readHeader cb st p = _
    exact (Out.pre_nil _).symm
  | f :: fs, st, hg, hs, hl => by
    have hf := hg f (by simp)
    rw [size_cons] at hl
    have h1 := field_line (cb := cb) hf.1 (by omega) (fun v => .header f.name (some v)) (st := st) (by
      intro v hv
      unfold process
      simp only [hs, Option.getD_some]
      rw [inert_validate hf.1 hf.2 (n := st.headerLen) (by omega) v hv]
      simp [call, hcb])
    rw [lines_cons, List.append_assoc, header_one (line_ne hf.1) (line_cr hf.1) h1,
      header_fields hcb p fs { st with headerLen := st.headerLen + f.line.length } (fun x hx => hg x (List.mem_cons_of_mem _ hx)) hs (by simp only; omega), Out.pre_pre]
    simp only [size_cons, Nat.add_assoc]
    congr 1
    simp [headerEvs, fullEv, hs]

/-! ### Numbers -/

theorem u64Loop_digits {base : Nat} (hb : 1 ≤ base ∧ base ≤ 36) (junk : List UInt8) : ∀ (ds : List UInt8) (ret : Nat), (∀ c ∈ ds, digitVal c < base) →
    ret * base ^ ds.length + value base ds < Num.w64 →
    Num.u64Loop base (ds ++ junk) ds.length ret false = some (ret * base ^ ds.length + value base ds, false, junk)
  | [], ret, _, _ => by simp [Num.u64Loop, value]
  | c :: ds, ret, hd, hv => by
    have hc := hd c (by simp)
    have h0 : c ≠ 0 := by
      rintro rfl
      have : digitVal 0 = 36 := by decide
      omega
    have hr : ret * base ^ (ds.length + 1) + value base (c :: ds) = (ret * base + digitVal c) * base ^ ds.length + value base ds := by
      rw [value, Nat.add_mul, Nat.pow_succ, Nat.mul_assoc, Nat.mul_comm base, Nat.add_assoc]
    have hp : 1 ≤ base ^ ds.length := Nat.one_le_pow _ _ (by omega)
    have hlt : ret * base + digitVal c < Num.w64 := by
      rw [List.length_cons, hr] at hv
      have := Nat.le_mul_of_pos_right (ret * base + digitVal c) hp
      omega
    have hge : ret ≤ ret * base := Nat.le_mul_of_pos_right _ (by omega)
    rw [List.length_cons, List.cons_append, Num.u64Loop, if_neg h0, Num.digit_eq, if_neg (by omega)]
    simp only [Nat.mod_eq_of_lt hlt, Bool.false_or]
    rw [show decide (ret * base + digitVal c < ret) = false by simp; omega]
    rw [u64Loop_digits hb junk ds _ (fun x hx => hd x (List.mem_cons_of_mem _ hx)) (by rw [List.length_cons, hr] at hv; exact hv), hr]

theorem digit_plain {base : Nat} (hb : base ≤ 16) {c : UInt8} (h : digitVal c < base) : isSpace c = false ∧ c ≠ 45 ∧ c ≠ 43 ∧ toLower c ≠ 120 ∧ c ≠ 0 ∧ c ≠ 13 ∧ c ≠ 44 ∧ c ≠ 59 ∧ c ≠ 32 := by
  have : ∀ n : Fin 256, digitVal (UInt8.ofNat n.val) < 16 → isSpace (UInt8.ofNat n.val) = false ∧ UInt8.ofNat n.val ≠ 45 ∧ UInt8.ofNat n.val ≠ 43 ∧ toLower (UInt8.ofNat n.val) ≠ 120 ∧
      UInt8.ofNat n.val ≠ 0 ∧ UInt8.ofNat n.val ≠ 13 ∧ UInt8.ofNat n.val ≠ 44 ∧ UInt8.ofNat n.val ≠ 59 ∧ UInt8.ofNat n.val ≠ 32 := by decide +kernel
  have h2 := this ⟨c.toNat, c.toNat_lt⟩
  simp only [UInt8.ofNat_toNat] at h2
  exact h2 (by omega)

theorem hexPrefix_digits {base : Nat} (hb : base ≤ 16) {ds : List UInt8} (junk : List UInt8) (hd : ∀ c ∈ ds, digitVal c < base) : Num.hexPrefix (ds ++ junk) ds.length = some false := by
  unfold Num.hexPrefix
  match ds, hd with
  | [], _ => rfl
  | [_], _ => rfl
  | a :: b :: r, hd =>
    rw [if_pos (by simp)]
    have ha := digit_plain hb (hd a (by simp))
    have hb := digit_plain hb (hd b (by simp))
    have hx : (toLower b != toLower 120) = true := by
      have : toLower 120 = 120 := by decide
      rw [this]; simpa using hb.2.2.2.1
    unfold Num.caseEqMax
    have hl : ∃ i, Num.eqLoop (a :: b :: r ++ junk) Num.zeroX (a :: b :: r).length 0 false = some (true, i) := by
      simp only [List.length_cons, Num.eqLoop, List.cons_append, List.getElem?_cons_zero, List.getElem?_cons_succ, Num.zeroX, Option.bind_eq_bind, Option.bind_some,
        ha.2.2.2.2.1, hb.2.2.2.2.1, if_false, Nat.zero_add, Nat.reduceAdd]
      simp only [show ¬ (48 : UInt8) = 0 by decide, show ¬ (120 : UInt8) = 0 by decide, if_false, hx, Bool.or_true]
      cases hr : r.length with
      | zero => exact ⟨_, rfl⟩
      | succ m =>
        rw [Num.eqLoop]
        cases r with
        | nil => simp at hr
        | cons c r =>
          simp only [List.cons_append, List.getElem?_cons_succ, List.getElem?_cons_zero, Option.bind_eq_bind, Option.bind_some]
          split
          · exact ⟨_, rfl⟩
          · exact ⟨_, rfl⟩
    obtain ⟨i, hi⟩ := hl
    rw [hi]
    rfl

theorem prep_digits {base : Nat} (hb : 2 ≤ base ∧ base ≤ 16) {ds : List UInt8} (hne : ds ≠ []) (junk : List UInt8) (hd : ∀ c ∈ ds, digitVal c < base) :
    Num.prep (ds ++ junk) ds.length base = some (ds ++ junk, ds.length, base, false) := by
  have hh := hexPrefix_digits hb.2 junk hd
  obtain ⟨c, r, rfl⟩ : ∃ c r, ds = c :: r := by cases ds; exact absurd rfl hne; exact ⟨_, _, rfl⟩
  have hc := digit_plain hb.2 (hd c (by simp))
  unfold Num.prep
  have e1 : Num.eatWs (c :: r ++ junk) (c :: r).length = some (c :: r ++ junk, (c :: r).length) := by
    rw [List.cons_append, Num.eatWs, if_neg (by simp [hc.1])]
  have e2 : Num.sign (c :: r ++ junk) (c :: r).length = some (false, c :: r ++ junk, (c :: r).length) := by
    unfold Num.sign
    rw [if_neg (by simp)]
    simp [hc.2.1, hc.2.2.1]
  have e3 : Num.autoBase (c :: r ++ junk) (c :: r).length base = some base := by
    unfold Num.autoBase; rw [if_neg (by omega)]
  simp only [e1, e2, e3, Option.bind_eq_bind, Option.bind_some]
  split
  · rw [hh]; rfl
  · rfl

theorem int64_digits {base n : Nat} (hb : 2 ≤ base ∧ base ≤ 16) {ds : List UInt8} (h : Digits base ds n) (hn : n < 2 ^ 63) (junk : List UInt8) :
    Num.toInt64Ex (ds ++ junk) ds.length base = some (.success, some ((n : Int), junk)) := by
  have hl : ds.length ≠ 0 := fun hh => h.ne (List.length_eq_zero_iff.1 hh)
  have e63 : (2 : Nat) ^ 63 = 9223372036854775808 := by decide
  rw [e63] at hn
  unfold Num.toInt64Ex
  rw [if_neg hl, prep_digits hb h.ne junk h.digit]
  simp only [Option.bind_eq_bind, Option.bind_some]
  unfold Num.toUint64Int
  rw [if_neg (by omega), u64Loop_digits (by omega) junk ds 0 h.digit (by rw [Nat.zero_mul, Nat.zero_add, h.value]; unfold Num.w64; omega)]
  simp only [Option.bind_eq_bind, Option.bind_some, Bool.false_eq_true, if_false, Nat.zero_mul, Nat.zero_add, h.value]
  rw [if_neg (by rw [List.length_append]; omega)]
  simp only [Option.bind_some, Bool.false_eq_true, false_and, if_false, not_false_eq_true, true_and]
  rw [if_neg (show ¬ n > 9223372036854775807 by omega)]
  simp

theorem uint64_digits {base n : Nat} (hb : 2 ≤ base ∧ base ≤ 16) {ds : List UInt8} (h : Digits base ds n) (hn : n < 2 ^ 64) (junk : List UInt8) :
    Num.toUint64Ex (ds ++ junk) ds.length base = some (.success, some (n, junk)) := by
  have hl : ds.length ≠ 0 := fun hh => h.ne (List.length_eq_zero_iff.1 hh)
  have e64 : (2 : Nat) ^ 64 = Num.w64 := by decide
  rw [e64] at hn
  unfold Num.toUint64Ex
  rw [if_neg hl, prep_digits hb h.ne junk h.digit]
  simp only [Option.bind_eq_bind, Option.bind_some]
  unfold Num.toUint64Int
  rw [if_neg (by omega), u64Loop_digits (by omega) junk ds 0 h.digit (by rw [Nat.zero_mul, Nat.zero_add, h.value]; exact hn)]
  simp only [Option.bind_eq_bind, Option.bind_some, Bool.false_eq_true, if_false, Nat.zero_mul, Nat.zero_add, h.value]
  rw [if_neg (by rw [List.length_append]; omega)]
  simp only [Option.bind_some, Bool.false_eq_true, if_false, reduceCtorEq]

end Verif.Http.Frame
