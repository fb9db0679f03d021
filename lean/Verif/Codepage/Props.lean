import Verif.Codepage.Loops
/-! C125: conversion between UTF-8 and the code pages.

Specification: `Std` assigns code points to the bytes of each page; `Enc` and `Dec` are what a conversion has to yield under
each error handler; `Clean` is what cleaning a UTF-8 text has to yield.  The text of a sequence of code points is `flat`. -/
namespace Verif.Codepage
open Verif.Utf8

/-- Encoding a valid text yields exactly what the page and the handler prescribe.  Missing: texts that are not valid UTF-8
with the handlers REPLACE and IGNORE (`encode_invalid_fails`), and the replacement in the EBCDIC pages, where the byte of `?` is not
the one written (`question_fails`). -/
theorem encode_partial (p : Page) (eh : Handler) (cps : List Nat) (junk : List UInt8) (hg : Good cps) (r : Res) (out : List UInt8) :
    encode eh (.page p) (flat cps ++ 0 :: junk) = some (r, out) ↔ Enc p 63 eh cps r out := by
  have main : ∃ r o, encode eh (.page p) (flat cps ++ 0 :: junk) = some (r, o) ∧ Enc p 63 eh cps r o := by
    cases cps with
    | nil => exact ⟨.success, [], by simp [encode, flat], .nil⟩
    | cons u cps =>
      have hu := hg u (by simp)
      obtain ⟨b, hb, hb0⟩ := flat_head hu.1 hu.2 cps (0 :: junk)
      have hl := flat_length (u :: cps)
      obtain ⟨r, o, h1, h2⟩ := encodeLoop_spec p eh junk (u :: cps) ((flat (u :: cps) ++ 0 :: junk).length + 1) .success [] hg
        (by rw [List.length_append]; omega) rfl
      refine ⟨r, o, ?_, h2⟩
      rw [encode, hb, Option.bind_some, if_neg hb0]
      dsimp only
      rw [isValid_flat junk hg, Option.bind_some, if_neg (by simp), encodeCpMap, h1]
      cases r <;> rfl
  obtain ⟨r', o', h1, h2⟩ := main
  rw [h1]
  constructor
  · intro h
    simp only [Option.some.injEq, Prod.mk.injEq] at h
    rw [← h.1, ← h.2]; exact h2
  · intro h
    obtain ⟨e1, e2⟩ := enc_det h2 h
    rw [e1, e2]

example : Good [0x20AC, 0x4E2D, 0xE9] ∧ encode .replace (.page .cp1252) (flat [0x20AC, 0x4E2D, 0xE9] ++ [0]) = some (.handled, [0x80, 63, 0xE9]) ∧
    encode .ignore (.page .iso8859_15) (flat [0x20AC, 0x4E2D, 0xE9] ++ [0]) = some (.handled, [0xA4, 0xE9]) ∧
    encode .fail (.page .iso8859_15) (flat [0x20AC, 0x4E2D, 0xE9] ++ [0]) = some (.fail, [0xA4]) := by
  refine ⟨?_, ?_, ?_, ?_⟩
  · intro cp h
    simp at h
    rcases h with rfl | rfl | rfl <;> decide
  all_goals decide +kernel

/-- Decoding yields exactly what the page and the handler prescribe.  Missing: the replacement should be the text of U+FFFD
(`decode_replace_fails`). -/
theorem decode_partial (p : Page) (eh : Handler) (bs junk : List UInt8) (hb : ∀ b ∈ bs, b ≠ 0) (r : Res) (out : List UInt8) :
    decode eh (.page p) (bs ++ 0 :: junk) = some (r, out) ↔ Dec p [0xFF, 0xFD] eh bs r out := by
  have main : ∃ r o, decode eh (.page p) (bs ++ 0 :: junk) = some (r, o) ∧ Dec p [0xFF, 0xFD] eh bs r o := by
    cases bs with
    | nil => exact ⟨.success, [], by simp [decode], .nil⟩
    | cons b bs =>
      obtain ⟨r, o, h1, h2⟩ := decodeLoop_spec p eh (b :: bs) .success []
      refine ⟨r, o, ?_, h2⟩
      rw [decode, List.cons_append, List.getElem?_cons_zero, Option.bind_some, if_neg (hb b (by simp))]
      dsimp only
      rw [decodeCpMap, ← List.cons_append, chars_append _ _ hb, Option.map_some, h1]
      cases r <;> rfl
  obtain ⟨r', o', h1, h2⟩ := main
  rw [h1]
  constructor
  · intro h
    simp only [Option.some.injEq, Prod.mk.injEq] at h
    rw [← h.1, ← h.2]; exact h2
  · intro h
    obtain ⟨e1, e2⟩ := dec_det h2 h
    rw [e1, e2]

example : decode .fail (.page .cp1251) [0xC4, 0xE0, 0] = some (.success, flat [0x414, 0x430]) ∧
    decode .ignore (.page .cp1252) [0x41, 0x81, 0x80, 0] = some (.handled, flat [0x41, 0x20AC]) := by decide +kernel

/-- With the handlers FAIL and IGNORE, or when every byte is assigned, no replacement is involved and decoding is as
documented. -/
theorem decode_no_replace (p : Page) (eh : Handler) (bs junk : List UInt8) (hb : ∀ b ∈ bs, b ≠ 0)
    (h : eh ≠ .replace ∨ ∀ b ∈ bs, ∃ u, Std p b.toNat u) (r : Res) (out : List UInt8) :
    decode eh (.page p) (bs ++ 0 :: junk) = some (r, out) ↔ Dec p (utf8 0xFFFD) eh bs r out := by
  rw [decode_partial p eh bs junk hb]
  have conv : ∀ rep rep' : List UInt8, Dec p rep eh bs r out → Dec p rep' eh bs r out := by
    intro rep rep' hd
    clear hb
    induction hd with
    | nil => exact .nil
    | hit hs _ ih => exact .hit hs (ih (h.imp id fun h b hb => h b (by simp [hb])))
    | fail hn he => exact .fail hn he
    | replace hn he _ _ =>
      rcases h with h | h
      · exact absurd he h
      · obtain ⟨u, hu⟩ := h _ (List.mem_cons_self ..)
        exact absurd hu (hn u)
    | ignore hn he _ ih => exact .ignore hn he (ih (h.imp id fun h b hb => h b (by simp [hb])))
  exact ⟨conv _ _, conv _ _⟩

/-- A text that the page can represent comes back unchanged after encoding and decoding, whatever the handlers. -/
theorem round_trip (p : Page) (cps : List Nat) (hg : Good cps) (h : ∀ u ∈ cps, ∃ b, Std p b u) :
    ∃ bs, bs.length = cps.length ∧ (∀ b ∈ bs, b ≠ 0) ∧
      (∀ eh junk, encode eh (.page p) (flat cps ++ 0 :: junk) = some (.success, bs)) ∧
      ∀ eh junk, decode eh (.page p) (bs ++ 0 :: junk) = some (.success, flat cps) := by
  have main : ∃ bs : List UInt8, bs.length = cps.length ∧ (∀ b ∈ bs, b ≠ 0) ∧ (∀ eh, Enc p 63 eh cps .success bs) ∧
      ∀ eh, Dec p [0xFF, 0xFD] eh bs .success (flat cps) := by
    induction cps with
    | nil => exact ⟨[], rfl, nofun, fun _ => .nil, fun _ => .nil⟩
    | cons u cps ih =>
      obtain ⟨bs, h1, h2, h3, h4⟩ := ih (fun c hc => hg c (by simp [hc])) (fun c hc => h c (by simp [hc]))
      obtain ⟨b, hs⟩ := h u (by simp)
      have hok := std_ok hs
      have ht := toNat_ofNat hok.1
      refine ⟨UInt8.ofNat b :: bs, by simp [h1], ?_, fun eh => .hit hs (h3 eh), fun eh => ?_⟩
      · intro x hx
        rcases List.mem_cons.1 hx with rfl | hx
        · intro h0
          rw [h0] at ht
          exact (hg u (by simp)).2 (hok.2.2.1 (by simpa using ht.symm))
        · exact h2 x hx
      · rw [flat_cons]
        exact .hit (by rw [ht]; exact hs) (h4 eh)
  obtain ⟨bs, h1, h2, h3, h4⟩ := main
  exact ⟨bs, h1, h2, fun eh junk => (encode_partial p eh cps junk hg _ _).2 (h3 eh),
    fun eh junk => (decode_partial p eh bs junk h2 _ _).2 (h4 eh)⟩

example : Good [0x41, 0x20AC, 0x153] ∧ (∀ u ∈ [0x41, 0x20AC, 0x153], ∃ b, Std .cp1252 b u) := by
  constructor
  · intro cp h
    simp at h
    rcases h with rfl | rfl | rfl <;> decide
  · intro u h
    simp at h
    rcases h with rfl | rfl | rfl
    · exact ⟨0x41, (mem_table ..).1 (by decide +kernel)⟩
    · exact ⟨0x80, (mem_table ..).1 (by decide +kernel)⟩
    · exact ⟨0x9C, (mem_table ..).1 (by decide +kernel)⟩

/-- Bytes that are all assigned come back unchanged after decoding and encoding, and what lies between is valid UTF-8. -/
theorem round_trip_back (p : Page) (bs : List UInt8) (hb : ∀ b ∈ bs, b ≠ 0) (h : ∀ b ∈ bs, ∃ u, Std p b.toNat u) :
    ∃ cps, Good cps ∧ cps.length = bs.length ∧
      (∀ eh junk, decode eh (.page p) (bs ++ 0 :: junk) = some (.success, flat cps)) ∧
      ∀ eh junk, encode eh (.page p) (flat cps ++ 0 :: junk) = some (.success, bs) := by
  have main : ∃ cps, Good cps ∧ cps.length = bs.length ∧ (∀ eh, Enc p 63 eh cps .success bs) ∧
      ∀ eh, Dec p [0xFF, 0xFD] eh bs .success (flat cps) := by
    induction bs with
    | nil => exact ⟨[], nofun, rfl, fun _ => .nil, fun _ => .nil⟩
    | cons b bs ih =>
      obtain ⟨cps, h1, h2, h3, h4⟩ := ih (fun c hc => hb c (by simp [hc])) (fun c hc => h c (by simp [hc]))
      obtain ⟨u, hs⟩ := h b (by simp)
      have hok := std_ok hs
      refine ⟨u :: cps, ?_, by simp [h2], fun eh => ?_, fun eh => by rw [flat_cons]; exact .hit hs (h4 eh)⟩
      · intro x hx
        rcases List.mem_cons.1 hx with rfl | hx
        · refine ⟨hok.2.1, fun h0 => hb b (by simp) ?_⟩
          have := hok.2.2.2 h0
          rw [← UInt8.ofNat_toNat (x := b), this]; rfl
        · exact h1 x hx
      · have := Enc.hit (rep := 63) hs (h3 eh)
        rwa [UInt8.ofNat_toNat] at this
  obtain ⟨cps, h1, h2, h3, h4⟩ := main
  exact ⟨cps, h1, h2, fun eh junk => (decode_partial p eh bs junk hb _ _).2 (h4 eh),
    fun eh junk => (encode_partial p eh cps junk h1 _ _).2 (h3 eh)⟩

example : ∀ b ∈ ([0xC1, 0x81, 0x4B] : List UInt8), b ≠ 0 ∧ ∃ u, Std .cp037 b.toNat u := by
  intro b h
  simp at h
  rcases h with rfl | rfl | rfl
  · exact ⟨by decide, 0x41, (mem_table ..).1 (by decide +kernel)⟩
  · exact ⟨by decide, 0x61, (mem_table ..).1 (by decide +kernel)⟩
  · exact ⟨by decide, 0x2E, (mem_table ..).1 (by decide +kernel)⟩

/-- The seven-bit pages and the pages that extend ASCII keep every ASCII text byte for byte. -/
theorem ascii_kept (p : Page) (hp : p ≠ .cp037 ∧ p ≠ .cp500) (bs junk : List UInt8) (hb : ∀ b ∈ bs, b ≠ 0 ∧ b.toNat < 128)
    (eh : Handler) : encode eh (.page p) (bs ++ 0 :: junk) = some (.success, bs) ∧ decode eh (.page p) (bs ++ 0 :: junk) = some (.success, bs) := by
  have hstd : ∀ b, b < 128 → Std p b b := by
    intro b h
    unfold Std
    have : ebcdic p = none := by
      cases p <;> first | rfl | exact absurd rfl hp.1 | exact absurd rfl hp.2
    rw [this]
    exact Or.inl ⟨h, rfl⟩
  obtain ⟨cps, hg, hfl, hc⟩ : ∃ cps, Good cps ∧ flat cps = bs ∧ ((∀ eh, Enc p 63 eh cps .success bs) ∧
      ∀ eh, Dec p [0xFF, 0xFD] eh bs .success bs) := by
    clear junk
    induction bs with
    | nil => exact ⟨[], nofun, rfl, fun _ => .nil, fun _ => .nil⟩
    | cons b bs ih =>
      obtain ⟨cps, h1, h2, h3, h4⟩ := ih fun c hc => hb c (by simp [hc])
      obtain ⟨hb0, hb1⟩ := hb b (by simp)
      have hu : utf8 b.toNat = [b] := by rw [utf8, if_pos hb1, UInt8.ofNat_toNat]
      refine ⟨b.toNat :: cps, ?_, by rw [flat_cons, hu, h2]; rfl, fun eh => ?_, fun eh => ?_⟩
      · intro x hx
        rcases List.mem_cons.1 hx with rfl | hx
        · refine ⟨(std_ok (hstd _ hb1)).2.1, fun h0 => hb0 ?_⟩
          rw [← UInt8.ofNat_toNat (x := b), h0]; rfl
        · exact h1 x hx
      · have := Enc.hit (rep := 63) (hstd _ hb1) (h3 eh)
        rwa [UInt8.ofNat_toNat] at this
      · have := Dec.hit (hstd _ hb1) (h4 eh)
        rwa [hu] at this
  refine ⟨?_, (decode_partial p eh bs junk (fun b h => (hb b h).1) _ _).2 (hc.2 eh)⟩
  have := (encode_partial p eh cps junk hg .success bs).2 (hc.1 eh)
  rwa [hfl] at this

/-- `?` is the character the documentation promises as replacement in all pages but the two of EBCDIC. -/
theorem question_mark (p : Page) (hp : p ≠ .cp037 ∧ p ≠ .cp500) : Std p 63 63 := by
  rw [← mem_table]
  cases p <;> first | exact absurd rfl hp.1 | exact absurd rfl hp.2 | decide +kernel

/-- In the EBCDIC pages the replacement decodes to the control character SUB, not to `?`. -/
theorem question_fails : ∃ out, encode .replace (.page .cp037) (flat [0x41, 0x20AC] ++ [0]) = some (.handled, out) ∧
    decode .fail (.page .cp037) (out ++ [0]) = some (.success, [0x41, 0x1A]) :=
  ⟨[0xC1, 0x3F], by decide +kernel⟩

/-- A text that is not valid UTF-8 is refused by the handler FAIL. -/
theorem encode_reject (p : Page) (s : List UInt8) (hz : (0 : UInt8) ∈ s)
    (hn : ¬ ∃ cps junk, Good cps ∧ s = flat cps ++ 0 :: junk) : encode .fail (.page p) s = some (.badInput, []) := by
  obtain ⟨cps, e, h1, h2, h3, h4, h5⟩ := isValid_bad hz hn
  have h0 : s[0]? ≠ some 0 := by
    intro h0
    refine hn ⟨[], s.tail, nofun, ?_⟩
    cases s with
    | nil => simp at h0
    | cons x s => simp at h0; rw [h0]; rfl
  cases hs : s[0]? with
  | none =>
    obtain ⟨y, t, rfl⟩ := List.exists_cons_of_ne_nil (List.ne_nil_of_mem hz)
    simp at hs
  | some x =>
    rw [encode, hs, Option.bind_some, if_neg (by rw [hs] at h0; simpa using h0)]
    dsimp only
    rw [h3, Option.bind_some, if_pos ⟨by simp, rfl⟩]

/-- Every text that is not valid UTF-8 makes encoding with the handlers REPLACE and IGNORE read through NULL. -/
theorem encode_invalid_crash (p : Page) (eh : Handler) (he : eh ≠ .fail) (s : List UInt8) (hz : (0 : UInt8) ∈ s)
    (hn : ¬ ∃ cps junk, Good cps ∧ s = flat cps ++ 0 :: junk) : encode eh (.page p) s = none := by
  obtain ⟨cps, e, h1, h2, h3, h4, h5⟩ := isValid_bad hz hn
  have h0 : s[0]? ≠ some 0 := by
    intro h0
    refine hn ⟨[], s.tail, nofun, ?_⟩
    cases s with
    | nil => simp at h0
    | cons x s => simp at h0; rw [h0]; rfl
  cases hs : s[0]? with
  | none => rw [encode, hs]; rfl
  | some x =>
    rw [encode, hs, Option.bind_some, if_neg (by rw [hs] at h0; simpa using h0)]
    dsimp only
    rw [h3, Option.bind_some, if_neg (by simp [he]), encodeCpMap]
    have := encodeLoop_bad p he cps e h4 h5 (s.length + 1) .success [] h1 rfl
    rwa [← h2] at this

/-- The negation of what is documented, on a short text: `A`, a byte that is not UTF-8, `B`. -/
theorem encode_invalid_fails : encode .replace (.page .cp1252) [0x41, 0xFF, 0x42, 0] = none ∧
    encode .ignore (.page .ascii) [0x41, 0xFF, 0x42, 0] = none := by decide +kernel

/-- Decoding with the handler REPLACE writes the two bytes FF FD, which are not UTF-8; the documentation says U+FFFD. -/
theorem decode_replace_fails : ∃ out, decode .replace (.page .cp1252) [0x41, 0x81, 0] = some (.handled, out) ∧
    out ≠ flat [0x41, 0xFFFD] ∧ isValid (out ++ [0]) = some (false, [0xFF, 0xFD, 0]) :=
  ⟨[0x41, 0xFF, 0xFD], by decide +kernel⟩

/-! ### UTF-8 to UTF-8 -/

/-- A valid text is returned as it is, in both directions and with every handler. -/
theorem utf8_same (eh : Handler) (cps : List Nat) (junk : List UInt8) (hg : Good cps) :
    encode eh .utf8 (flat cps ++ 0 :: junk) = some (.success, flat cps) ∧
    decode eh .utf8 (flat cps ++ 0 :: junk) = some (.success, flat cps) := by
  cases cps with
  | nil => simp [encode, decode, flat]
  | cons u cps =>
    have hu := hg u (by simp)
    obtain ⟨b, hb, hb0⟩ := flat_head hu.1 hu.2 cps (0 :: junk)
    have hv := isValid_flat junk hg
    have key : ∀ enc, utf8ToUtf8 enc eh (flat (u :: cps) ++ 0 :: junk) = some (.success, flat (u :: cps)) := by
      intro enc
      have hloop : ∀ fl, utf8Loop enc fl ((flat (u :: cps) ++ 0 :: junk).length + 1) (flat (u :: cps) ++ 0 :: junk) .success [] =
          some (.success, flat (u :: cps)) := by
        intro fl
        rw [utf8Loop, hb, Option.bind_some, if_neg hb0, hv, Option.bind_some]
        dsimp only
        rw [List.length_append, Nat.add_sub_cancel, List.take_left' rfl, List.length_cons, ← Nat.add_assoc, utf8Loop]
        simp
      cases eh with
      | ignore =>
        rw [utf8ToUtf8, chars_append _ _ (flat_nz hg), Option.bind_some, hv]
        rfl
      | fail => exact hloop _
      | replace => exact hloop _
    rw [encode, decode, hb, Option.bind_some, Option.bind_some, if_neg hb0, if_neg hb0]
    exact ⟨key true, key false⟩

/-- Any other text is refused by the handler FAIL, in both directions, and nothing is written. -/
theorem utf8_reject (s : List UInt8) (hz : (0 : UInt8) ∈ s) (hn : ¬ ∃ cps junk, Good cps ∧ s = flat cps ++ 0 :: junk) :
    encode .fail .utf8 s = some (.fail, []) ∧ decode .fail .utf8 s = some (.fail, []) := by
  obtain ⟨cps, e, h1, h2, h3, h4, h5⟩ := isValid_bad hz hn
  obtain ⟨x, t, rfl⟩ := List.exists_cons_of_ne_nil (List.ne_nil_of_mem hz)
  have hx : x ≠ 0 := by
    rintro rfl
    exact hn ⟨[], t, nofun, rfl⟩
  have key : ∀ enc, utf8ToUtf8 enc .fail (x :: t) = some (.fail, []) := by
    intro enc
    rw [utf8ToUtf8, utf8Loop, List.getElem?_cons_zero, Option.bind_some, if_neg hx, h3]
    · rfl
    · nofun
  rw [encode, decode, List.getElem?_cons_zero, Option.bind_some, Option.bind_some, if_neg hx, if_neg hx]
  exact ⟨key true, key false⟩

/-- Cleaning a text by encoding or decoding it with the handler REPLACE keeps all valid parts and puts one replacement for
each invalid one.  It never reads outside the text.  Missing: for decoding the replacement should be the text of U+FFFD. -/
theorem clean_partial (s : List UInt8) (hz : (0 : UInt8) ∈ s) :
    (∃ f out, encode .replace .utf8 s = some (if f then .handled else .success, out) ∧ Clean [63] s f out) ∧
    ∃ f out, decode .replace .utf8 s = some (if f then .handled else .success, out) ∧ Clean [0xFF, 0xFD] s f out := by
  obtain ⟨x, t, rfl⟩ := List.exists_cons_of_ne_nil (List.ne_nil_of_mem hz)
  by_cases hx : x = 0
  · subst hx
    exact ⟨⟨false, [], by simp [encode], .nil⟩, false, [], by simp [decode], .nil⟩
  · have key : ∀ enc : Bool, ∃ f out, utf8ToUtf8 enc .replace (x :: t) = some (if f then .handled else .success, out) ∧
        Clean (if enc then [63] else [0xFF, 0xFD]) (x :: t) f out := by
      intro enc
      obtain ⟨f, o, h1, h2⟩ := utf8Loop_spec enc ((x :: t).length + 1) (x :: t) .success [] hz (by omega)
      exact ⟨f, o, h1, h2⟩
    rw [encode, decode, List.getElem?_cons_zero, Option.bind_some, Option.bind_some, if_neg hx, if_neg hx]
    exact ⟨key true, key false⟩

example : encode .replace .utf8 [0x41, 0xE2, 0x82, 0x42, 0xC3, 0xA9, 0xFF, 0] = some (.handled, [0x41, 63, 0x42, 0xC3, 0xA9, 63]) := by
  decide +kernel

/-- What encoding with the handler REPLACE leaves is valid UTF-8. -/
theorem clean_valid (s : List UInt8) (hz : (0 : UInt8) ∈ s) :
    ∃ r cps, encode .replace .utf8 s = some (r, flat cps) ∧ Good cps := by
  obtain ⟨f, out, h1, h2⟩ := (clean_partial s hz).1
  suffices ∃ cps, Good cps ∧ out = flat cps by
    obtain ⟨cps, h3, h4⟩ := this
    exact ⟨_, cps, by rw [h1, h4], h3⟩
  clear h1 hz
  induction h2 with
  | nil => exact ⟨[], nofun, rfl⟩
  | keep ha h0 _ ih =>
    rename_i u _ _ _ _
    obtain ⟨cps, h3, h4⟩ := ih
    refine ⟨u :: cps, ?_, by rw [flat_cons, h4]⟩
    intro x hx
    rcases List.mem_cons.1 hx with rfl | hx
    · exact ⟨ha, h0⟩
    · exact h3 x hx
  | bad _ _ _ _ _ ih =>
    obtain ⟨cps, h3, h4⟩ := ih
    refine ⟨63 :: cps, ?_, by rw [flat_cons, h4]; rfl⟩
    intro x hx
    rcases List.mem_cons.1 hx with rfl | hx
    · exact ⟨by decide, by decide⟩
    · exact h3 x hx

/-- Cleaning by decoding leaves a text that is not valid: the replacement itself is not UTF-8. -/
theorem clean_decode_fails : ∃ out, decode .replace .utf8 [0x41, 0xFF, 0] = some (.handled, out) ∧
    isValid (out ++ [0]) = some (false, [0xFF, 0xFD, 0]) :=
  ⟨[0x41, 0xFF, 0xFD], by decide +kernel⟩

/-- The handler IGNORE is documented to leave out what cannot be converted, but keeps it. -/
theorem utf8_ignore_fails : encode .ignore .utf8 [0x41, 0xFF, 0x42, 0] = some (.handled, [0x41, 0xFF, 0x42]) ∧
    decode .ignore .utf8 [0x41, 0xFF, 0x42, 0] = some (.handled, [0x41, 0xFF, 0x42]) := by decide +kernel

/-- A text that is not valid, as the theorems above require. -/
example : (0 : UInt8) ∈ ([0x41, 0xFF, 0x42, 0] : List UInt8) ∧
    ¬ ∃ cps junk, Good cps ∧ ([0x41, 0xFF, 0x42, 0] : List UInt8) = flat cps ++ 0 :: junk := by
  refine ⟨by decide, ?_⟩
  rintro ⟨cps, junk, hg, e⟩
  have := isValid_flat junk hg
  rw [← e] at this
  have h2 : isValid [0x41, 0xFF, 0x42, 0] = some (false, [0xFF, 0x42, 0]) := by decide +kernel
  rw [h2] at this
  simp at this

end Verif.Codepage
