import Verif.Bincodec.Safe
/-! C15-C18: the binary codecs.

Specification vocabulary: `chars64`, `chars32`, `chars16` are the texts of RFC 4648 without line breaks (defined with
division and remainder, not with the shifts of the code); `wrapS w 0 cs` is `cs` with a newline between every `w`
characters; `text inp n` are the first `n` bytes that are not white space. -/
namespace Verif.Bincodec

/-- The characters a decoder sees: the first `n` bytes without white space. -/
def text (inp : List UInt8) (n : Nat) : List UInt8 := (inp.take n).filter fun c => !isSpace c

theorem text_eq (inp : List UInt8) (n : Nat) : left inp n 0 = text inp n := by simp [left, text]

theorem text_wrap {w : Nat} {cs : List UInt8} (h : ∀ c ∈ cs, isSpace c = false) (rest : List UInt8) :
    text (wrapS w 0 cs ++ rest) (wrapS w 0 cs).length = cs := by
  unfold text
  rw [List.take_left]
  exact wrapS_nonsp w cs h 0

/-! ### C15: base64 -/

/-- The encoder writes the RFC text with line breaks, in any buffer of at least the predicted size (which has room for
the text and its terminator). -/
theorem base64_encode_correct {cap wrap : Nat} {x : List UInt8} (hx : x ≠ []) (hcap : b64EncodeSize x.length wrap ≤ cap) :
    b64Encode cap x wrap = some (wrapS wrap 0 (chars64 x)) ∧
      (wrapS wrap 0 (chars64 x)).length + 1 ≤ b64EncodeSize x.length wrap := b64Encode_eq hx hcap

/-- Any text whose non-space characters are the RFC text of `x` decodes to `x`, white space being allowed anywhere
except between two padding characters. -/
theorem base64_decode_correct_partial {cap inlen : Nat} {inp x : List UInt8} (hin : inlen ≤ inp.length) (hsz : inp.length < 2 ^ 64)
    (hx : x ≠ []) (hcap : x.length ≤ cap) (ht : text inp inlen = chars64 x)
    (hp : x.length % 3 = 1 → ∃ p q, inp.take inlen = p ++ [61, 61] ++ q ∧ ∀ c ∈ q, isSpace c = true) :
    b64Decode cap inp inlen = some x := by
  have hlen : x.length ≠ 0 := fun h => hx (List.length_eq_zero_iff.1 h)
  have hcl := chars64_length x
  have hne : left inp inlen 0 ≠ [] := by
    rw [text_eq, ht]; intro h; rw [h] at hcl; simp at hcl; omega
  have hpos : inlen ≠ 0 := by
    intro h; subst h; exact hne (left_nil inp (Nat.le_refl 0))
  unfold b64Decode
  rw [if_neg (by omega)]
  rcases b64Trim_spec inp inlen hin with ⟨h, _⟩ | ⟨m, last, h1, h2, h3, h4⟩
  · exact absurd h hne
  · rw [h1]
    simp only [bind, Option.bind_some]
    have hl : left inp m 0 = chars64 x := by rw [h4, text_eq, ht]
    rw [b64DecLoop_eq h3 hsz x (m + 1) 0 [] hl ?_ (by simpa using hcap) (by omega) (by omega)]
    · rfl
    · intro hmod
      obtain ⟨p, q, e, hq⟩ := hp hmod
      -- the trimmed length ends after the two pads
      have hmlen : m = p.length + 2 := by
        have hget : ∀ k, k < inlen → inp[k]? = (p ++ [61, 61] ++ q)[k]? := by
          intro k hk
          rw [← e, List.getElem?_take, if_pos hk]
        have htot : p.length + 2 + q.length = inlen := by
          have := congrArg List.length e
          simp at this; omega
        have hm1 : ¬ m > p.length + 2 := by
          intro hgt
          have h5 := h3.get
          rw [hget (m - 1) (by omega), List.getElem?_append_right (by simp; omega)] at h5
          have := hq last (List.mem_of_getElem? h5)
          rw [h3.nonsp] at this
          cases this
        have hm2 : ¬ m < p.length + 2 := by
          intro hlt
          have hpos2 := h3.pos
          have hlen1 : (left inp m 0).length < (left inp inlen 0).length := by
            rw [text_eq, text_eq, text, text, e]
            have e2 : inp.take m = (p ++ [61]).take m := by
              have : inp.take m = (inp.take inlen).take m := by rw [List.take_take]; congr 1; omega
              rw [this, e]
              have : p ++ [61, 61] ++ q = (p ++ [61]) ++ (61 :: q) := by simp
              rw [this, List.take_append_of_le_length (by simp; omega)]
            rw [e2]
            have e3 : p ++ [61, 61] ++ q = (p ++ [61]) ++ (61 :: q) := by simp
            rw [e3, List.filter_append, List.filter_cons_of_pos (by decide), List.length_append]
            have := (((List.take_sublist m (p ++ [61])).filter fun c => !isSpace c).length_le)
            simp only [List.length_cons]
            omega
          rw [h4] at hlen1
          omega
        omega
      have hk : inp[p.length]? = (p ++ [61, 61] ++ q)[p.length]? := by
        rw [← e, List.getElem?_take, if_pos (by omega)]
      rw [show m - 2 = p.length by omega, hk]
      simp

example : text (str "S G k =\n") 8 = chars64 [72, 105] ∧ b64Decode 2 (str "S G k =\n") 8 = some [72, 105] := by decide +kernel

/-- Encoding and decoding, with the memory the front ends allocate.  Missing: a single trailing byte whose second pad
falls on a new line (`base64_roundtrip_fails`). -/
theorem base64_roundtrip_partial {x : List UInt8} {wrap : Nat} (hx : x ≠ []) (hsz : b64EncodeSize x.length wrap < 2 ^ 64)
    (hp : x.length % 3 = 1 → wrap = 0 ∨ ((x.length + 2) / 3 * 4 - 1) % wrap ≠ 0) :
    ∃ t, encodeAlloc .base64 x wrap = some (some t) ∧ t = wrapS wrap 0 (chars64 x) ∧
      decodeAlloc .base64 (t ++ [0]) t.length = some (some x) := by
  have hlen : x.length ≠ 0 := fun h => hx (List.length_eq_zero_iff.1 h)
  have hcl := chars64_length x
  have hcne : chars64 x ≠ [] := by intro h; rw [h] at hcl; simp at hcl; omega
  have hwl := wrapS_length wrap (chars64 x) 0 hcne
  rw [Nat.zero_div, Nat.zero_add, Nat.add_zero] at hwl
  have hge : (chars64 x).length ≤ (wrapS wrap 0 (chars64 x)).length := by
    rw [hwl]; exact Nat.le_add_right _ _
  have henc := b64Encode_eq (cap := b64EncodeSize x.length wrap + 1) hx (Nat.le_succ _)
  have hdec : ∀ cap, x.length ≤ cap → b64Decode cap (wrapS wrap 0 (chars64 x) ++ [0]) (wrapS wrap 0 (chars64 x)).length = some x := by
    intro cap hcap
    refine base64_decode_correct_partial (by simp) (by simp; omega) hx hcap (text_wrap (chars64_nonsp x) [0]) ?_
    intro hmod
    obtain ⟨cs, hcs⟩ := chars64_tail x hmod
    obtain ⟨p, hp'⟩ := wrapS_snoc1 wrap cs 61 0
    refine ⟨p, [], ?_, by simp⟩
    rw [List.take_left, hcs, wrapS_snoc, hp']
    rw [hcs, List.length_append] at hcl
    simp only [List.length_cons, List.length_nil, Nat.zero_add, Nat.reduceAdd] at hcl
    have hno : ¬ (wrap > 0 ∧ (0 + cs.length + 1) % wrap = 0) := by
      intro h
      have := hp hmod
      rw [← hcl, show cs.length + 2 - 1 = 0 + cs.length + 1 by omega] at this
      omega
    rw [if_neg hno]
    simp
  refine ⟨_, ?_, rfl, ?_⟩
  · have hs : encodeSize .base64 x.length wrap = b64EncodeSize x.length wrap := rfl
    have he : encode .base64 (b64EncodeSize x.length wrap + 1) x wrap = b64Encode (b64EncodeSize x.length wrap + 1) x wrap := rfl
    unfold encodeAlloc
    simp only [hs]
    rw [if_neg hlen, if_neg (by omega), he, henc.1]
    simp only [Option.bind_some]
    rw [if_pos (by omega), put_ok (by omega)]
    rfl
  · have hs : decodeSize .base64 (wrapS wrap 0 (chars64 x)).length = (wrapS wrap 0 (chars64 x)).length / 4 * 3 := rfl
    have hle : x.length ≤ (wrapS wrap 0 (chars64 x)).length / 4 * 3 := by omega
    have he : decode .base64 ((wrapS wrap 0 (chars64 x)).length / 4 * 3) (wrapS wrap 0 (chars64 x) ++ [0]) (wrapS wrap 0 (chars64 x)).length
      = b64Decode ((wrapS wrap 0 (chars64 x)).length / 4 * 3) (wrapS wrap 0 (chars64 x) ++ [0]) (wrapS wrap 0 (chars64 x)).length := rfl
    unfold decodeAlloc
    rw [if_neg (by omega), hs, if_neg (by omega), he, hdec _ hle]
    simp only [Option.bind_some]
    rw [if_pos (by omega), put_ok (by omega)]
    rfl

/-- Without wrapping the round trip holds for every byte string. -/
theorem base64_roundtrip_unwrapped {x : List UInt8} (hx : x ≠ []) (hsz : b64EncodeSize x.length 0 < 2 ^ 64) :
    ∃ t, encodeAlloc .base64 x 0 = some (some t) ∧ t = chars64 x ∧ decodeAlloc .base64 (t ++ [0]) t.length = some (some x) := by
  obtain ⟨t, h1, h2, h3⟩ := base64_roundtrip_partial (wrap := 0) hx hsz (fun _ => Or.inl rfl)
  refine ⟨t, h1, ?_, h3⟩
  rw [h2]
  have : ∀ (cs : List UInt8) len, wrapS 0 len cs = cs := by
    intro cs
    induction cs with
    | nil => intro; rfl
    | cons c cs ih => intro len; simp [wrapS, ih]
  exact this _ 0

example : encodeAlloc .base64 [0, 255, 7, 128] 3 = some (some (str "AP8\nHgA\n==")) ∨ encodeAlloc .base64 [0, 255, 7, 128] 5 = some (some (str "AP8Hg\nA==")) := by
  decide +kernel

/-- The pads of a single byte wrapped at three characters are separated and the text is rejected. -/
theorem base64_roundtrip_fails : ∃ x wrap t, encodeAlloc .base64 x wrap = some (some t) ∧
    decodeAlloc .base64 (t ++ [0]) t.length = some none :=
  ⟨[65], 3, str "QQ=\n=", by decide +kernel⟩

/-! ### C16: base32 -/

theorem base32_encode_correct {cap wrap : Nat} {x : List UInt8} (hx : x ≠ []) (hcap : b32EncodeSize x.length wrap ≤ cap) :
    b32Encode cap x wrap = some (wrapS wrap 0 (chars32 x)) ∧
      (wrapS wrap 0 (chars32 x)).length + 1 = b32EncodeSize x.length wrap := b32Encode_eq hx hcap

/-- Decoding a base32 string returns the bytes followed by zeros up to a multiple of five. -/
theorem base32_roundtrip_partial {x : List UInt8} {wrap : Nat} (hx : x ≠ []) :
    ∃ t, encodeAlloc .base32 x wrap = some (some t) ∧ t = wrapS wrap 0 (chars32 x) ∧
      decodeAlloc .base32 (t ++ [0]) t.length = some (some (x ++ pad5 x)) := by
  have hlen : x.length ≠ 0 := fun h => hx (List.length_eq_zero_iff.1 h)
  have hcl := chars32_length x
  have hcne : chars32 x ≠ [] := by intro h; rw [h] at hcl; simp at hcl; omega
  have hwl := wrapS_length wrap (chars32 x) 0 hcne
  rw [Nat.zero_div, Nat.zero_add, Nat.add_zero] at hwl
  have hge : (chars32 x).length ≤ (wrapS wrap 0 (chars32 x)).length := by
    rw [hwl]; exact Nat.le_add_right _ _
  have henc := b32Encode_eq (cap := b32EncodeSize x.length wrap + 1) hx (Nat.le_succ _)
  have hpad : (x ++ pad5 x).length = (x.length + 4) / 5 * 5 := by simp [pad5]; omega
  have hlen8 : 8 ≤ (wrapS wrap 0 (chars32 x)).length := by omega
  have hle : (x ++ pad5 x).length ≤ (wrapS wrap 0 (chars32 x)).length / 8 * 5 := by omega
  have hdec : b32Decode ((wrapS wrap 0 (chars32 x)).length / 8 * 5) (wrapS wrap 0 (chars32 x) ++ [0]) (wrapS wrap 0 (chars32 x)).length = some (x ++ pad5 x) := by
    have hmem : ∀ c ∈ wrapS wrap 0 (chars32 x), c ≠ 0 := by
      intro c hc h0
      subst h0
      have : (0 : UInt8) ∈ (wrapS wrap 0 (chars32 x)).filter (fun c => !isSpace c) := List.mem_filter.2 ⟨hc, by decide⟩
      rw [wrapS_nonsp wrap _ (fun c hc => (chars32_nonsp x c hc).1)] at this
      exact (chars32_nonsp x 0 this).2 rfl
    have hl0 : left (wrapS wrap 0 (chars32 x) ++ [0]) (wrapS wrap 0 (chars32 x)).length 0 = chars32 x := by
      rw [text_eq]
      exact text_wrap (fun c hc => (chars32_nonsp x c hc).1) [0]
    obtain ⟨last, hlast⟩ : ∃ last, (chars32 x).getLast? = some last := by
      cases h : (chars32 x).getLast? with
      | none => exact absurd (List.getLast?_eq_none_iff.1 h) hcne
      | some v => exact ⟨v, rfl⟩
    have hlastsp := (chars32_nonsp x last (List.mem_of_getLast? hlast)).1
    rw [← wrapS_getLast wrap (chars32 x) 0] at hlast
    generalize wrapS wrap 0 (chars32 x) = t at *
    have e : End (t ++ [0]) t.length last := by
      refine ⟨by simp, by omega, ?_, hlastsp⟩
      rw [List.getElem?_append_left (by omega), ← List.getLast?_eq_getElem?]
      exact hlast
    unfold b32Decode b32DecodeSize
    rw [if_neg (by omega)]
    rw [b32DecLoop_eq (inlen := t.length) (by simp) (by simp) ?_ (fun i hi => e.ne hi) x _ 0 [] hl0 (by simpa using hle) (by simp; omega) (by omega)]
    · rfl
    · intro p hp h
      rw [List.getElem?_append_left hp] at h
      exact hmem 0 (List.mem_of_getElem? h) rfl
  refine ⟨_, ?_, rfl, ?_⟩
  · have hs : encodeSize .base32 x.length wrap = b32EncodeSize x.length wrap := rfl
    have he : encode .base32 (b32EncodeSize x.length wrap + 1) x wrap = b32Encode (b32EncodeSize x.length wrap + 1) x wrap := rfl
    unfold encodeAlloc
    simp only [hs]
    rw [if_neg hlen, if_neg (by omega), he, henc.1]
    simp only [Option.bind_some]
    rw [if_pos (by omega), put_ok (by omega)]
    rfl
  · have hs : decodeSize .base32 (wrapS wrap 0 (chars32 x)).length = (wrapS wrap 0 (chars32 x)).length / 8 * 5 := rfl
    have he : decode .base32 ((wrapS wrap 0 (chars32 x)).length / 8 * 5) (wrapS wrap 0 (chars32 x) ++ [0]) (wrapS wrap 0 (chars32 x)).length
      = b32Decode ((wrapS wrap 0 (chars32 x)).length / 8 * 5) (wrapS wrap 0 (chars32 x) ++ [0]) (wrapS wrap 0 (chars32 x)).length := rfl
    unfold decodeAlloc
    rw [if_neg (by omega), hs, if_neg (by omega), he, hdec]
    simp only [Option.bind_some]
    rw [if_pos (by omega), put_ok (by omega)]
    rfl

/-- The round trip is exact when the length is a multiple of five. -/
theorem base32_roundtrip_exact {x : List UInt8} {wrap : Nat} (hx : x ≠ []) (h5 : x.length % 5 = 0) :
    ∃ t, encodeAlloc .base32 x wrap = some (some t) ∧ decodeAlloc .base32 (t ++ [0]) t.length = some (some x) := by
  obtain ⟨t, h1, _, h3⟩ := base32_roundtrip_partial (wrap := wrap) hx
  refine ⟨t, h1, ?_⟩
  rw [h3]
  simp [pad5, h5]

example : encodeAlloc .base32 [102, 111, 111, 98, 97] 3 = some (some (str "MZX\nW6Y\nTB")) := by decide +kernel

/-- The padding is turned into zero bytes. -/
theorem base32_roundtrip_fails : ∃ x t, encodeAlloc .base32 x 0 = some (some t) ∧
    decodeAlloc .base32 (t ++ [0]) t.length = some (some (x ++ [0, 0, 0, 0])) := ⟨[102], str "MY======", by decide +kernel⟩

/-! ### C17: hex -/

theorem hex_encode_correct {cap wrap : Nat} {x : List UInt8} (hx : x ≠ []) (hcap : hexEncodeSize x.length wrap ≤ cap) :
    hexEncode cap x wrap = some (wrapS wrap 0 (chars16 x)) ∧
      (wrapS wrap 0 (chars16 x)).length ≤ hexEncodeSize x.length wrap := hexEncode_eq hx hcap

/-- Any text whose non-space characters are hex digits (of either case) of the bytes `x` decodes to `x`, provided its
length including white space is even. -/
theorem hex_decode_correct_partial {cap inlen : Nat} {inp x : List UInt8} (hin : inlen ≤ inp.length) (heven : inlen % 2 = 0)
    (hcap : inlen / 2 ≤ cap) (hpos : inlen ≠ 0) (ht : (text inp inlen).map hexVal = (nibbles x).map some) :
    hexDecode cap inp inlen = some x := by
  unfold hexDecode
  rw [if_neg (by omega), hexDecLoop_eq hin _ [] (inlen + 1) 0 (text_eq inp inlen) (by simp; omega) (by omega),
    hexPairs_eq x _ _ ht]
  rfl

example : hexDecode 3 (str "aB\n0 1") 6 = some [0xAB, 0x01] := by decide +kernel

/-- A text with a character that is neither white space nor a hex digit is rejected. -/
theorem hex_decode_rejects {cap inlen : Nat} {inp : List UInt8} (hin : inlen ≤ inp.length)
    (hbad : ∃ c ∈ text inp inlen, hexVal c = none) : hexDecode cap inp inlen = some [] := by
  unfold hexDecode
  split
  · rfl
  next h =>
    rw [hexDecLoop_eq hin _ [] (inlen + 1) 0 (text_eq inp inlen) (by simp; omega) (by omega), hexPairs_bad _ _ hbad]

example : ∃ c ∈ text (str "0g") 2, hexVal c = none := by decide

theorem chars16_nibbles (x : List UInt8) : (chars16 x).map hexVal = (nibbles x).map some := by
  induction x with
  | nil => rfl
  | cons b x ih =>
    have hb := b.toNat_lt
    have h1 := hexDigit_ok ⟨b.toNat / 16, by omega⟩
    have h2 := hexDigit_ok ⟨b.toNat % 16, by omega⟩
    have hv : ∀ c : UInt8, hexValid c = true → hexVal c = some (hex2dec c) := by
      intro c hc
      rcases hexVal_spec c with ⟨_, h, _⟩ | ⟨h, _⟩
      · exact h
      · rw [h] at hc; cases hc
    simp only [chars16, List.map_cons, ih, hv _ h1.2.1, hv _ h2.2.1, h1.2.2, h2.2.2]
    rfl

/-- Encoding and decoding: the round trip succeeds exactly when the number of line breaks is even; otherwise the text is
rejected. -/
theorem hex_roundtrip_partial {x : List UInt8} {wrap : Nat} (hx : x ≠ []) :
    ∃ t, encodeAlloc .hex x wrap = some (some t) ∧ t = wrapS wrap 0 (chars16 x) ∧
      decodeAlloc .hex (t ++ [0]) t.length = some (if (2 * x.length - 1) / wrap % 2 = 0 then some x else none) := by
  have hlen : x.length ≠ 0 := fun h => hx (List.length_eq_zero_iff.1 h)
  have hcl := chars16_length x
  have hcne : chars16 x ≠ [] := by intro h; rw [h] at hcl; simp at hcl; omega
  have hwl := wrapS_length wrap (chars16 x) 0 hcne
  rw [Nat.zero_div, Nat.zero_add, Nat.add_zero, hcl] at hwl
  have hge : (chars16 x).length ≤ (wrapS wrap 0 (chars16 x)).length := by
    rw [hwl, hcl]; exact Nat.le_add_right _ _
  have henc := hexEncode_eq (cap := hexEncodeSize x.length wrap + 1) hx (Nat.le_succ _)
  have htx := text_wrap (w := wrap) (chars16_nonsp x) [0]
  have hnib := chars16_nibbles x
  refine ⟨_, ?_, rfl, ?_⟩
  · have hs : encodeSize .hex x.length wrap = hexEncodeSize x.length wrap := rfl
    have he : encode .hex (hexEncodeSize x.length wrap + 1) x wrap = hexEncode (hexEncodeSize x.length wrap + 1) x wrap := rfl
    unfold encodeAlloc
    simp only [hs]
    rw [if_neg hlen, if_neg (by omega), he, henc.1]
    simp only [Option.bind_some]
    rw [if_pos (by omega), put_ok (by omega)]
    rfl
  · generalize wrapS wrap 0 (chars16 x) = t at *
    have hs : decodeSize .hex t.length = t.length / 2 := rfl
    have he : decode .hex (t.length / 2) (t ++ [0]) t.length = hexDecode (t.length / 2) (t ++ [0]) t.length := rfl
    unfold decodeAlloc
    rw [if_neg (by omega), hs, if_neg (by omega), he]
    generalize (2 * x.length - 1) / wrap = k at *
    by_cases hk : k % 2 = 0
    · rw [if_pos hk, hex_decode_correct_partial (by simp) (by omega) (Nat.le_refl _) (by omega) (by rw [htx]; exact hnib)]
      simp only [Option.bind_some]
      rw [if_pos (by omega), put_ok (by omega)]
      rfl
    · rw [if_neg hk]
      unfold hexDecode
      rw [if_pos (by omega)]
      rfl

example : encodeAlloc .hex [1, 0xAB, 3] 2 = some (some (str "01\nAB\n03")) := by decide +kernel

theorem hex_roundtrip_fails : ∃ x wrap t, encodeAlloc .hex x wrap = some (some t) ∧
    decodeAlloc .hex (t ++ [0]) t.length = some none := ⟨[1, 2], 2, str "01\n02", by decide +kernel⟩

/-- Three digits and a space: the last digit is silently dropped instead of being rejected. -/
theorem hex_odd_digits_fails : ∃ t r, (text t t.length).length % 2 = 1 ∧ hexDecode 2 t t.length = some r ∧ r ≠ [] :=
  ⟨str "ABC ", [0xAB], by decide +kernel⟩

/-! ### C18: memory safety -/

/-- The base64 decoder stays within its buffers unless the whole input is white space. -/
theorem base64_decode_safe_partial {cap inlen : Nat} {inp : List UInt8} (hin : inlen ≤ inp.length)
    (hne : text inp inlen ≠ []) : ∃ r, b64Decode cap inp inlen = some r ∧ r.length ≤ cap := by
  unfold b64Decode
  split
  · exact ⟨[], rfl, by simp⟩
  · rcases b64Trim_spec inp inlen hin with ⟨h, _⟩ | ⟨m, last, h1, h2, h3, h4⟩
    · rw [text_eq] at h; exact absurd h hne
    · rw [h1]
      simp only [bind, Option.bind_some]
      exact b64DecLoop_safe h3.in_range (m + 1) 0 [] (by omega) (by simp)

example : text (str "=a?") 3 ≠ [] ∧ b64Decode 1 (str "=a?") 3 = some [] := by decide +kernel

/-- White space only: the trimming loop reads before the buffer. -/
theorem base64_decode_safe_fails : ∃ inp, b64Decode 16 inp inp.length = none := ⟨[32], by decide +kernel⟩

/-- Exactly the inputs of white space only are unsafe. -/
theorem base64_decode_unsafe_iff {cap inlen : Nat} {inp : List UInt8} (hin : inlen ≤ inp.length) (hcap : cap ≠ 0) (hn : inlen ≠ 0) :
    b64Decode cap inp inlen = none ↔ text inp inlen = [] := by
  constructor
  · intro h
    apply Classical.byContradiction
    intro hne
    obtain ⟨r, hr, _⟩ := base64_decode_safe_partial (cap := cap) hin hne
    rw [h] at hr; cases hr
  · intro h
    unfold b64Decode
    rw [if_neg (by omega)]
    rcases b64Trim_spec inp inlen hin with ⟨_, h1⟩ | ⟨m, last, h1, h2, h3, h4⟩
    · rw [h1]; rfl
    · rw [text_eq inp inlen, h] at h4
      exact absurd h4 (h3.ne h3.pos)

/-- The base32 decoder stays within its buffers when the input has a terminator at or before `inlen`. -/
theorem base32_decode_safe_partial {cap inlen z : Nat} {inp : List UInt8} (hz : inp[z]? = some 0) (hzl : z ≤ inlen) :
    ∃ r, b32Decode cap inp inlen = some r ∧ r.length ≤ cap := by
  have hl := (List.getElem?_eq_some_iff.1 hz).1
  unfold b32Decode b32DecodeSize
  split
  · exact ⟨[], rfl, by simp⟩
  · have : z / 8 ≤ inlen / 8 := Nat.div_le_div_right hzl
    exact b32DecLoop_safe hz (by omega) _ 0 0 [] (by omega) (by omega) rfl (by omega)

example : (str "MY======" ++ [0])[8]? = some 0 := by decide

/-- Without a terminator inside the given length the decoder reads past the input, -/
theorem base32_decode_reads_past_fails : ∃ inp, b32Decode 5 inp inp.length = none := ⟨str "MY======", by decide +kernel⟩

/-- and if the string goes on it writes past the output. -/
theorem base32_decode_writes_past_fails : ∃ inp, inp.getLast? = some 0 ∧ b32Decode 5 inp 8 = none ∧ b32Decode 10 inp 8 ≠ none :=
  ⟨str "MY======MY======" ++ [0], by decide +kernel⟩

/-- The hex decoder stays within its buffers for every input. -/
theorem hex_decode_safe {cap inlen : Nat} {inp : List UInt8} (hin : inlen ≤ inp.length) :
    ∃ r, hexDecode cap inp inlen = some r ∧ r.length ≤ cap := by
  unfold hexDecode
  split
  · exact ⟨[], rfl, by simp⟩
  next h =>
    rw [hexDecLoop_eq hin _ [] (inlen + 1) 0 rfl (by simp; omega) (by omega)]
    refine ⟨_, rfl, ?_⟩
    have h1 := hexPairs_length (left inp inlen 0) []
    have h2 := left_room inp inlen 0
    simp only [List.length_nil] at h1
    omega

example : hexDecode 1 (str "0g") 2 = some [] := by decide +kernel

end Verif.Bincodec
