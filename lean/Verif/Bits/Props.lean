import Verif.Bits.ParserLemmas
/-! C28 and C29: bit buffers and bit parsers. -/
namespace Verif.Bits

/-! ### C28 -/

/-- The operations on a bit buffer. -/
inductive Op
  | addBit (bit : Bool)
  | fill (bit : Bool) (n : Nat)
  | add (v n : Nat) (pad : Pad)
  | addBytes (src : List UInt8) (n : Nat)
  | addBitstr (s : List UInt8) (pad : Pad)
  | truncate (n : Nat)
  | updateBit (i : Nat) (bit : Bool)
  | setBit (bit : Bool) (i : Nat) (fillBit : Bool)

/-- The code of an operation. -/
def exec (b : BBuf) : Op → Option BBuf
  | .addBit bit => addBit b bit
  | .fill bit n => fill b bit n
  | .add v n pad => add b v n pad
  | .addBytes src n => addBytes b src n
  | .addBitstr s pad => (addBitstr b s pad).map Prod.snd
  | .truncate n => truncate b n
  | .updateBit i bit => some (updateBit b i bit).2
  | .setBit bit i f => setBit b bit i f

/-- Arguments within their documented range; partial bytes appended at a byte boundary must be padded with zeros, which is what
makes the theorem partial. -/
def OkArg (l : List Bool) : Op → Prop
  | .add _ n _ => 1 ≤ n ∧ n ≤ 64
  | .addBytes src n => n ≤ 8 * src.length ∧ (l.length % 8 = 0 → Clean src n)
  | .addBitstr s _ => ∀ c ∈ s, Chr.isSpace c ∨ c = 48 ∨ c = 49
  | .truncate n => n ≤ l.length
  | _ => True

/-- Bits with the padding before or after. -/
def padded (l new : List Bool) : Pad → List Bool
  | .none => l ++ new
  | .before => l ++ padTo (l.length + new.length) ++ new
  | .after => l ++ new ++ padTo (l.length + new.length)

/-- The intended effect on the sequence of bits. -/
def effect (l : List Bool) : Op → List Bool
  | .addBit bit => l ++ [bit]
  | .fill bit n => l ++ List.replicate n bit
  | .add v n pad => padded l (lowBits v n) pad
  | .addBytes src n => l ++ (bits src).take n
  | .addBitstr s pad => if s = [] then l else padded l ((s.filter fun c => c = 48 || c = 49).map fun c => decide (c = 49)) pad
  | .truncate n => l.take n
  | .updateBit i bit => l.set i bit
  | .setBit bit i f => if i < l.length then l.set i bit else l ++ List.replicate (i - l.length) f ++ [bit]

theorem exec_rep {b : BBuf} {l : List Bool} (h : Rep b l) (op : Op) (ok : OkArg l op) : ∃ b', exec b op = some b' ∧ Rep b' (effect l op) := by
  cases op with
  | addBit bit => exact addBit_rep h bit
  | fill bit n => exact fill_rep h bit n
  | add v n pad =>
    obtain ⟨b', e, r⟩ := add_rep h v n pad ok.1 ok.2
    refine ⟨b', e, ?_⟩
    have hl : (lowBits v n).length = n := by simp [lowBits]
    simp only [effect, padded, hl]
    exact r
  | addBytes src n => exact addBytes_rep h src n ok.1 ok.2
  | addBitstr s pad =>
    simp only [exec, effect, addBitstr]
    by_cases hs : s = []
    · rw [if_pos hs, if_pos hs]; exact ⟨b, rfl, h⟩
    · rw [if_neg hs, if_neg hs]
      have hn := h.1
      cases pad with
      | none =>
        simp only [reduceCtorEq, if_false, Option.bind_some]
        obtain ⟨b1, e1, r1⟩ := bitstrLoop_rep h s ok
        exact ⟨b1, by rw [e1]; rfl, r1⟩
      | before =>
        simp only [if_true, reduceCtorEq, if_false]
        obtain ⟨b1, e1, r1⟩ := fill_rep h false (padBits b.nbits (s.filter fun c => c = 48 || c = 49).length .before)
        rw [padBits_eq _ _ _ (by decide), hn] at r1
        obtain ⟨b2, e2, r2⟩ := bitstrLoop_rep r1 s ok
        refine ⟨b2, by rw [e1]; simp only [Option.bind_some, e2]; rfl, ?_⟩
        simpa only [padded, List.length_map] using r2
      | after =>
        simp only [if_true, reduceCtorEq, if_false, Option.bind_some]
        obtain ⟨b1, e1, r1⟩ := bitstrLoop_rep h s ok
        obtain ⟨b2, e2, r2⟩ := fill_rep r1 false (padBits b.nbits (s.filter fun c => c = 48 || c = 49).length .after)
        rw [padBits_eq _ _ _ (by decide), hn] at r2
        refine ⟨b2, by rw [e1]; simp only [Option.bind_some, if_true, e2]; rfl, ?_⟩
        simpa only [padded, List.length_map] using r2
  | truncate n => exact truncate_rep h n ok
  | updateBit i bit => exact ⟨_, rfl, (updateBit_rep h i bit).2⟩
  | setBit bit i f =>
    simp only [exec, effect, setBit]
    by_cases hi : i < l.length
    · rw [if_pos hi, if_pos (by have := h.1; omega)]
      exact ⟨_, rfl, (updateBit_rep h i bit).2⟩
    · rw [if_neg hi, if_neg (by have := h.1; omega), h.1]
      obtain ⟨b1, e1, r1⟩ := fill_rep h f (i - l.length)
      obtain ⟨b2, e2, r2⟩ := addBit_rep r1 bit
      exact ⟨b2, by rw [e1]; exact e2, r2⟩

/-- Histories with good arguments, and the bits they should leave. -/
inductive Hist : List Op → List Bool → Prop
  | nil : Hist [] []
  | snoc {ops l op} : Hist ops l → OkArg l op → Hist (ops ++ [op]) (effect l op)

/-- Running a history. -/
def run (ops : List Op) : Option BBuf := ops.foldl (fun b op => b.bind fun b => exec b op) (some create)

/-- After every history, the bytes of the buffer are the intended bits followed by less than a byte of zeros, and no access was
out of bounds.  Missing: partial bytes appended with non-zero padding (`addBytes_dirty_fails`). -/
theorem history_partial {ops : List Op} {l : List Bool} (h : Hist ops l) :
    ∃ b, run ops = some b ∧ b.nbits = l.length ∧ ∃ z, z < 8 ∧ bits b.bytes = l ++ List.replicate z false := by
  induction h with
  | nil => exact ⟨create, rfl, rfl, 0, by omega, rfl⟩
  | snoc _ ok ih =>
    obtain ⟨b, e, r⟩ := ih
    obtain ⟨b', e', r'⟩ := exec_rep r _ ok
    refine ⟨b', ?_, r'⟩
    unfold run at *
    rw [List.foldl_append, e]
    exact e'

/-- Three bits, then a byte across the boundary, then a bit changed. -/
example : Hist [.addBit true, .add 2 2 .none, .addBytes [0xA5] 8, .updateBit 1 false] ([true, false, false] ++ bits [0xA5]) ∧
    run [.addBit true, .add 2 2 .none, .addBytes [0xA5] 8, .updateBit 1 false] = some ⟨[0x94, 0xA0], 11⟩ :=
  ⟨.snoc (op := .updateBit 1 false) (.snoc (op := .addBytes [0xA5] 8) (.snoc (op := .add 2 2 .none) (.snoc (op := .addBit true) .nil trivial)
    ⟨by decide, by decide⟩) ⟨by decide, fun h => absurd h (by decide)⟩) trivial, by decide +kernel⟩

/-- Four bits of `0xFF` appended to an empty buffer keep the other four bits of the byte: a zero appended next is read back as
one. -/
theorem addBytes_dirty_fails : run [.addBytes [0xFF] 4, .addBit false] = some ⟨[0xFF], 5⟩ ∧
    bits [0xFF] ≠ [true, true, true, true, false] ++ List.replicate 3 false := by decide

/-- `M_bit_buf_update_bit` tells whether the bit exists. -/
theorem updateBit_result {b : BBuf} {l : List Bool} (h : Rep b l) (i : Nat) (bit : Bool) : (updateBit b i bit).1 = decide (i < l.length) :=
  (updateBit_rep h i bit).1

/-- A character that is neither a digit of a bit nor a space is rejected. -/
theorem addBitstr_rejects {b : BBuf} {l : List Bool} (h : Rep b l) (s t : List UInt8) (c : UInt8)
    (hs : ∀ c ∈ s, Chr.isSpace c ∨ c = 48 ∨ c = 49) (hc : ¬ (Chr.isSpace c ∨ c = 48 ∨ c = 49)) :
    ∃ b', addBitstr b (s ++ c :: t) .none = some (false, b') ∧
      Rep b' (l ++ (s.filter fun c => c = 48 || c = 49).map fun c => decide (c = 49)) := by
  have loop : ∃ b', bitstrLoop b (s ++ c :: t) = some (false, b') ∧
      Rep b' (l ++ (s.filter fun c => c = 48 || c = 49).map fun c => decide (c = 49)) := by
    induction s generalizing b l with
    | nil =>
      refine ⟨b, ?_, by simpa using h⟩
      rw [List.nil_append, bitstrLoop, if_neg (fun h => hc (Or.inl h)), if_pos ⟨fun h => hc (Or.inr (Or.inl h)), fun h => hc (Or.inr (Or.inr h))⟩]
    | cons d s ih =>
      have hs' : ∀ c ∈ s, Chr.isSpace c ∨ c = 48 ∨ c = 49 := fun c hc => hs c (List.mem_cons_of_mem _ hc)
      rw [List.cons_append, bitstrLoop]
      by_cases hsp : Chr.isSpace d = true
      · rw [if_pos hsp]
        have h48 : d ≠ 48 := by intro e; subst e; exact absurd hsp (by decide)
        have h49 : d ≠ 49 := by intro e; subst e; exact absurd hsp (by decide)
        rw [List.filter_cons_of_neg (by simp [h48, h49])]
        exact ih h hs'
      · rw [if_neg hsp]
        have hd : d = 48 ∨ d = 49 := by
          rcases hs d List.mem_cons_self with h | h
          · exact absurd h hsp
          · exact h
        rw [if_neg (by rcases hd with rfl | rfl <;> decide)]
        obtain ⟨b1, e1, r1⟩ := addBit_rep h (decide (d ≠ 48))
        obtain ⟨b2, e2, r2⟩ := ih r1 hs'
        refine ⟨b2, by rw [e1]; exact e2, ?_⟩
        rw [List.filter_cons_of_pos (by rcases hd with rfl | rfl <;> decide), List.map_cons]
        rw [List.append_assoc, List.singleton_append] at r2
        have : decide (d ≠ 48) = decide (d = 49) := by rcases hd with rfl | rfl <;> decide
        rw [this] at r2
        exact r2
  obtain ⟨b', e, r⟩ := loop
  refine ⟨b', ?_, r⟩
  unfold addBitstr
  rw [if_neg (by simp)]
  simp only [reduceCtorEq, if_false, Option.bind_some, e, Bool.false_eq_true]

/-! ### C29 -/

/-- A constant parser over `bytes` reads their first `n` bits. -/
theorem createConst_rep (bytes : List UInt8) (n : Nat) (h : n ≤ 8 * bytes.length) : PRep (createConst bytes n) ((bits bytes).take n) := by
  refine ⟨?_, rfl, h, Nat.zero_le _⟩
  rw [List.length_take, bits_length]
  simp only [createConst]
  omega

/-- A parser with its own copy reads the same bits, and has a readable byte after them. -/
theorem create_rep (bytes : List UInt8) (n : Nat) (h : n ≤ 8 * bytes.length) :
    ∃ p, createP bytes n = some p ∧ PRep p ((bits bytes).take n) ∧ Slack p := by
  have hl := bits_length bytes
  unfold createP addBytes
  by_cases h0 : n = 0
  · subst h0
    exact ⟨_, rfl, ⟨by simp, rfl, by simp, Nat.zero_le _⟩, by simp [Slack, create]⟩
  · have hneed : n / 8 + (if n % 8 > 0 then 1 else 0) = (n + 7) / 8 := by split <;> omega
    simp only [if_neg h0, hneed]
    rw [if_neg (by omega)]
    refine ⟨_, rfl, ⟨?_, ?_, ?_, ?_⟩, ?_⟩
    · rw [List.length_take]; simp only; omega
    · simp only [create, List.nil_append, bits_append, bits_take]
      rw [List.take_append_of_le_length (by rw [List.length_take]; omega), List.take_take, Nat.min_eq_left (by omega)]
    · simp only [create, List.length_append, List.length_take, List.length_nil, List.length_singleton]; omega
    · exact Nat.zero_le _
    · simp only [Slack, create, List.length_append, List.length_take, List.length_nil, List.length_singleton]; omega

/-- What was written to a buffer is what a parser of the buffer reads. -/
theorem written_is_read_partial {ops : List Op} {l : List Bool} (h : Hist ops l) :
    ∃ b, run ops = some b ∧ PRep (createConst b.bytes b.nbits) l ∧ ∃ p, createP b.bytes b.nbits = some p ∧ PRep p l ∧ Slack p := by
  obtain ⟨b, e, hn, z, _, hb⟩ := history_partial h
  have hlen := congrArg List.length hb
  rw [bits_length, List.length_append] at hlen
  have ht : (bits b.bytes).take b.nbits = l := by rw [hb, hn, List.take_append_of_le_length (Nat.le_refl _), List.take_length]
  have h1 := createConst_rep b.bytes b.nbits (by omega)
  have h2 := create_rep b.bytes b.nbits (by omega)
  rw [ht] at h1 h2
  exact ⟨b, e, h1, h2⟩

/-- A parser that owns a buffer holding exactly the bits `src`. -/
def Owns (p : BP) (src : List Bool) : Prop := ∃ b, p.bbuf = some b ∧ Rep b src ∧ p.mem = b.bytes ++ [0] ∧ p.nbits = b.nbits ∧ p.offset ≤ p.nbits

theorem Owns.prep {p : BP} {src : List Bool} (h : Owns p src) : PRep p src ∧ Slack p := by
  obtain ⟨b, _, ⟨hn, z, hz, hb⟩, hm, hpn, ho⟩ := h
  have hlen := congrArg List.length hb
  rw [bits_length, List.length_append, List.length_replicate] at hlen
  refine ⟨⟨by omega, ?_, ?_, ho⟩, ?_⟩
  · rw [hm, bits_append, hb, List.append_assoc, hpn, hn, List.take_append_of_le_length (Nat.le_refl _), List.take_length]
  · rw [hm, List.length_append, List.length_singleton]; omega
  · unfold Slack; rw [hm, List.length_append, List.length_singleton]; omega

/-- Appending to an owning parser adds bits after the unread ones, without moving the position. -/
theorem append_correct_partial {p : BP} {src : List Bool} (h : Owns p src) (bytes : List UInt8) (n : Nat) (hn : n ≤ 8 * bytes.length)
    (hc : src.length % 8 = 0 → Clean bytes n) :
    ∃ p', append p bytes n = some p' ∧ Owns p' (src ++ (bits bytes).take n) ∧ p'.offset = p.offset ∧ p'.marked = p.marked := by
  obtain ⟨b, hb, r, hm, hpn, ho⟩ := h
  unfold append ensureAppend
  by_cases h0 : n = 0
  · subst h0
    rw [if_pos rfl, List.take_zero, List.append_nil]
    exact ⟨p, rfl, ⟨b, hb, r, hm, hpn, ho⟩, rfl, rfl⟩
  · rw [if_neg h0, hb]
    obtain ⟨b', e, r'⟩ := addBytes_rep r bytes n hn hc
    simp only [Option.bind_some, e, Option.map_some]
    refine ⟨_, rfl, ⟨b', rfl, r', rfl, rfl, ?_⟩, rfl, rfl⟩
    have h1 := r.1
    have h2 := r'.1
    rw [List.length_append] at h2
    simp only
    omega

/-- Appending a number to an owning parser. -/
theorem appendUint_correct {p : BP} {src : List Bool} (h : Owns p src) (v n : Nat) (h1 : 1 ≤ n) (h64 : n ≤ 64) :
    ∃ p', appendUint p v n = some p' ∧ Owns p' (src ++ lowBits v n) ∧ p'.offset = p.offset ∧ p'.marked = p.marked := by
  obtain ⟨b, hb, r, hm, hpn, ho⟩ := h
  unfold appendUint ensureAppend
  rw [if_neg (by omega), hb]
  obtain ⟨b', e, r'⟩ := add_rep r v n .none h1 h64
  simp only [Option.bind_some, e, Option.map_some]
  refine ⟨_, rfl, ⟨b', rfl, r', rfl, rfl, ?_⟩, rfl, rfl⟩
  have h1 := r.1
  have h2 := r'.1
  simp only [List.length_append] at h2
  simp only
  omega

/-- Reading one bit: the next one if there is one. -/
theorem readBit_correct {p : BP} {src : List Bool} (h : PRep p src) :
    readBit p = some (match src.drop p.offset with
      | [] => (none, p)
      | b :: _ => (some b, { p with offset := p.offset + 1 })) := by
  unfold readBit
  rw [peekBit_eq h]
  cases src.drop p.offset <;> rfl

/-- Reading `n` bits into a bit buffer or as a string: all or nothing. -/
theorem readBitBuf_correct {p : BP} {src : List Bool} (h : PRep p src) (n : Nat) (h0 : 0 < n) :
    readBitBuf p n = some (if p.offset + n ≤ src.length then (some ((src.drop p.offset).take n), { p with offset := p.offset + n }) else (none, p)) ∧
    readStrdup p n = some (if p.offset + n ≤ src.length then
      (some (((src.drop p.offset).take n).map fun b => if b then 49 else 48), { p with offset := p.offset + n }) else (none, p)) := by
  have hl := h.len
  have hp := h.pos
  unfold readBitBuf readStrdup
  rw [len_eq h, List.length_drop]
  by_cases hn : p.offset + n ≤ src.length
  · simp only [if_pos hn, readLoop_eq h n hn]
    constructor
    · rw [if_neg (by omega), if_neg (by omega)]; rfl
    · rw [if_neg (by omega)]; rfl
  · simp only [if_neg hn]
    constructor
    · rw [if_neg (by omega), if_pos (by omega)]
    · rw [if_pos (by omega)]

/-- Reading `n` bits as bytes: the bits, zero padded, if there are enough of them.  Missing: constant parsers read at an
unaligned position (`readBytes_overread_fails`) and lengths near `2^64` (`readBytes_wrap_fails`). -/
theorem readBytes_correct_partial {p : BP} {src : List Bool} (h : PRep p src) (n destlen : Nat) (h0 : 0 < n) (hw : p.offset + n + 7 < w64)
    (hd : (n + 7) / 8 ≤ destlen) (hs : Slack p ∨ p.offset % 8 = 0) :
    if p.offset + n ≤ src.length then
      ∃ d, readBytes p destlen n = some (some d, { p with offset := p.offset + n }) ∧ bits d = (src.drop p.offset).take n ++ padTo n
    else readBytes p destlen n = some (none, p) := by
  have hl := h.len
  unfold readBytes
  simp only [show n ≠ 0 by omega, show destlen ≠ 0 by omega, if_false]
  by_cases hn : p.offset + n ≤ src.length
  · rw [if_pos hn]
    obtain ⟨d, e1, e2, _, e4⟩ := peekNextBytes_eq h destlen n true h0 hn hw hd hs
    rw [e1]
    match d, e2 with
    | [], e2 => simp at e2; omega
    | x :: xs, e2 => exact ⟨_, rfl, e4 rfl⟩
  · rw [if_neg hn]
    unfold peekNextBytes
    rw [if_neg (by omega), Nat.mod_eq_of_lt (show p.offset + n < w64 by omega), if_pos (by omega)]
    rfl

/-- Bits 1 to 7 of the only byte of a constant parser: the byte after it is read. -/
theorem readBytes_overread_fails : PRep { createConst [0xAA] 8 with offset := 1 } (bits [0xAA]) ∧
    readBytes { createConst [0xAA] 8 with offset := 1 } 8 7 = none ∧ readUint { createConst [0xAA] 8 with offset := 1 } 7 = none := by
  refine ⟨⟨by decide, by decide, by decide, by decide⟩, by decide, by decide⟩

/-- Asking for `2^64 - 1` bits at position 1 passes the length check and writes before the destination. -/
theorem readBytes_wrap_fails : readBytes { createConst [0xAA, 0] 8 with offset := 1 } 8 18446744073709551615 = none := by decide

/-- Reading a number of `n` bits: the number they write, if there are enough of them.  Missing as above. -/
theorem readUint_correct_partial {p : BP} {src : List Bool} (h : PRep p src) (n : Nat) (h0 : 0 < n) (h64 : n ≤ 64) (hw : src.length + 7 < w64)
    (hs : Slack p ∨ p.offset % 8 = 0) :
    readUint p n = some (if p.offset + n ≤ src.length then (some (natOf ((src.drop p.offset).take n)), { p with offset := p.offset + n })
      else (none, p)) := by
  by_cases hn : p.offset + n ≤ src.length
  · rw [if_pos hn]; exact readUint_eq h n h0 h64 hw hs hn
  · rw [if_neg hn]; exact readUint_short h n h0 (by omega)

example : (createP [0xAB, 0xCD] 16).bind (fun p => readUint { p with offset := 3 } 11) =
    some (some 755, ⟨[0xAB, 0xCD, 0], 16, 14, 0, some ⟨[0xAB, 0xCD], 16⟩⟩) ∧ natOf (((bits [0xAB, 0xCD]).drop 3).take 11) = 755 := by
  decide +kernel

/-- The signed number written by a sign bit and `k` more bits. -/
def signedOf (sign : Bool) (low : List Bool) : Fmt → Int
  | .signMag => if sign then -(natOf low : Int) else natOf low
  | .onesComp => (natOf low : Int) - (if sign then 2 ^ low.length - 1 else 0)
  | .twosComp => (natOf low : Int) - (if sign then 2 ^ low.length else 0)

theorem xor_pow (k low : Nat) (h : low < 2 ^ k) : (2 ^ k + low) ^^^ 2 ^ k = low ∧ low ^^^ 2 ^ k = 2 ^ k + low := by
  have e : 2 ^ k + low = low ^^^ 2 ^ k := by
    apply Nat.eq_of_testBit_eq
    intro i
    rw [Nat.testBit_xor, Nat.testBit_two_pow]
    by_cases hi : i = k
    · subst hi
      rw [Nat.testBit_two_pow_add_eq, Nat.testBit_lt_two_pow h]; simp
    · rcases Nat.lt_or_gt_of_ne hi with hl | hg
      · rw [Nat.testBit_two_pow_add_gt hl]
        have : ¬ k = i := by omega
        simp [this]
      · have h1 : 2 ^ k + low < 2 ^ i := by
          have : 2 ^ (k + 1) ≤ 2 ^ i := Nat.pow_le_pow_right (by omega) (by omega)
          rw [Nat.pow_succ] at this; omega
        have h2 : low < 2 ^ i := by omega
        rw [Nat.testBit_lt_two_pow h1, Nat.testBit_lt_two_pow h2]
        have : ¬ k = i := by omega
        simp [this]
  refine ⟨?_, e.symm⟩
  rw [e, Nat.xor_assoc, Nat.xor_self, Nat.xor_zero]

theorem and_pow (x k : Nat) : x &&& 2 ^ k = (x.testBit k).toNat * 2 ^ k := by
  apply Nat.eq_of_testBit_eq
  intro i
  rw [Nat.testBit_and, Nat.testBit_two_pow]
  by_cases hi : k = i
  · subst hi
    cases x.testBit k <;> simp [Nat.testBit_two_pow]
  · cases x.testBit k <;> simp [hi, Nat.testBit_two_pow]

/-- Reading a signed number of `k + 1` bits when there are enough of them.  Missing: too few bits are not reported
(`readInt_short_fails`). -/
theorem readInt_correct_partial {p : BP} {src : List Bool} (h : PRep p src) {sign : Bool} {low rest : List Bool}
    (hd : src.drop p.offset = sign :: (low ++ rest)) (h1 : 1 ≤ low.length) (h63 : low.length ≤ 63) (hw : src.length + 7 < w64) (hs : Slack p)
    (fmt : Fmt) :
    readInt p (low.length + 1) fmt = some (true, signedOf sign low fmt, { p with offset := p.offset + (low.length + 1) }) := by
  have hlen := congrArg List.length hd
  simp only [List.length_drop, List.length_cons, List.length_append] at hlen
  have hn : p.offset + (low.length + 1) ≤ src.length := by omega
  have hp63 : 2 ^ low.length ≤ 9223372036854775808 := Nat.pow_le_pow_right (n := 2) (by omega) h63
  have hlt := natOf_lt low
  have hi64 : toInt64 (natOf low) = natOf low := by unfold toInt64; rw [if_pos (by omega)]
  have hu := readUint_eq h (low.length + 1) (by omega) (by omega) hw (Or.inl hs) hn
  rw [hd, List.take_succ_cons, List.take_append_of_le_length (Nat.le_refl _), List.take_length, natOf_cons] at hu
  unfold readInt
  rw [if_neg (by omega)]
  have hmask : 1 <<< (low.length + 1 - 1) = 2 ^ low.length := by rw [Nat.shiftLeft_eq, Nat.one_mul, Nat.add_sub_cancel]
  cases fmt with
  | signMag =>
    simp only
    rw [readBit_correct h, hd]
    simp only [Option.bind_some]
    have h' := h.adv (n := 1) (by omega)
    have hd' : src.drop (p.offset + 1) = low ++ rest := by
      rw [← List.drop_drop, hd]; rfl
    have hu' := readUint_eq h' low.length (by omega) (by omega) hw (Or.inl hs) (by simp only; omega)
    simp only [hd', List.take_append_of_le_length (Nat.le_refl _), List.take_length] at hu'
    rw [Nat.add_sub_cancel, hu']
    simp only [Option.bind_some, hi64, signedOf]
    have hadd : p.offset + 1 + low.length = p.offset + (low.length + 1) := by omega
    cases sign with
    | false => simp [hadd]
    | true =>
      unfold neg64
      rw [if_pos rfl, if_neg (by omega)]
      simp [hadd]
  | onesComp =>
    simp only [hu, Option.bind_some, hmask]
    have hp0 : 0 < 2 ^ low.length := Nat.pow_pos (by omega)
    have htest : (sign.toNat * 2 ^ low.length + natOf low) &&& 2 ^ low.length = sign.toNat * 2 ^ low.length := by
      rw [and_pow]
      congr 1
      cases sign with
      | false => simp only [Bool.toNat_false, Nat.zero_mul, Nat.zero_add]; rw [Nat.testBit_lt_two_pow hlt]; rfl
      | true => simp only [Bool.toNat_true, Nat.one_mul]; rw [Nat.testBit_two_pow_add_eq, Nat.testBit_lt_two_pow hlt]; rfl
    rw [htest]
    cases sign with
    | false =>
      simp only [Bool.toNat_false, Nat.zero_mul, Nat.zero_add, ne_eq, not_true, if_false, hi64, signedOf, Bool.false_eq_true]
      simp
    | true =>
      simp only [Bool.toNat_true, Nat.one_mul]
      rw [if_pos (by omega), Nat.and_two_pow_sub_one_eq_mod]
      have hmod : (w64 - 1 - (2 ^ low.length + natOf low)) % 2 ^ low.length = 2 ^ low.length - 1 - natOf low := by
        have hw : w64 = 2 ^ low.length * 2 ^ (64 - low.length) := by
          rw [← Nat.pow_add, show low.length + (64 - low.length) = 64 by omega]; decide
        have h2 : 2 ≤ 2 ^ (64 - low.length) := by
          calc 2 = 2 ^ 1 := rfl
            _ ≤ 2 ^ (64 - low.length) := Nat.pow_le_pow_right (by omega) (by omega)
        obtain ⟨q, hq⟩ : ∃ q, 2 ^ (64 - low.length) = q + 2 := ⟨2 ^ (64 - low.length) - 2, by omega⟩
        rw [hw, hq, Nat.mul_add]
        generalize 2 ^ low.length = P at *
        rw [show P * q + P * 2 - 1 - (P + natOf low) = (P - 1 - natOf low) + P * q by omega, Nat.add_mul_mod_self_left, Nat.mod_eq_of_lt (by omega)]
      rw [hmod]
      have : toInt64 (2 ^ low.length - 1 - natOf low) = (2 ^ low.length - 1 - natOf low : Nat) := by unfold toInt64; rw [if_pos (by omega)]
      rw [this]
      unfold neg64
      rw [if_neg (by omega)]
      simp only [Option.map_some, signedOf, if_true]
      congr 3
      have : ((2 : Int) ^ low.length) = ((2 ^ low.length : Nat) : Int) := by simp
      rw [this]
      omega
  | twosComp =>
    simp only [hu, Option.bind_some, hmask]
    have hw64 : w64 = 18446744073709551616 := rfl
    have hx := xor_pow low.length (natOf low) hlt
    have hc : ((2 : Int) ^ low.length) = ((2 ^ low.length : Nat) : Int) := by simp
    cases sign with
    | false =>
      simp only [Bool.toNat_false, Nat.zero_mul, Nat.zero_add, hx.2]
      rw [show 2 ^ low.length + natOf low + (w64 - 2 ^ low.length) = natOf low + w64 by omega, Nat.add_mod_right, Nat.mod_eq_of_lt (by omega), hi64]
      simp [signedOf]
    | true =>
      simp only [Bool.toNat_true, Nat.one_mul, hx.1]
      have hp0 : 0 < 2 ^ low.length := Nat.pow_pos (by omega)
      rw [Nat.mod_eq_of_lt (by omega)]
      unfold toInt64
      rw [if_neg (by omega)]
      simp only [signedOf, if_true, hc]
      congr 3
      omega

example : (createP [0xF6] 8).bind (fun p => readInt p 5 .twosComp) = some (true, -2, ⟨[0xF6, 0], 8, 5, 0, some ⟨[0xF6], 8⟩⟩) ∧
    signedOf true [true, true, true, false] .twosComp = -2 := by decide +kernel

/-- Asking for 8 bits when there are 4: TRUE and 0. -/
theorem readInt_short_fails : readInt (createConst [0xFF] 4) 8 .twosComp = some (true, 0, createConst [0xFF] 4) := by decide

/-- Consuming succeeds exactly when there are enough bits. -/
theorem consume_correct {p : BP} {src : List Bool} (h : PRep p src) (n : Nat) :
    consume p n = if p.offset + n ≤ src.length then (true, { p with offset := p.offset + n }) else (false, p) := by
  have hl := h.len
  have hp := h.pos
  unfold consume
  rw [len_eq h, List.length_drop]
  by_cases h0 : n = 0
  · subst h0; rw [if_pos rfl, if_pos (by omega)]; rfl
  · rw [if_neg h0]
    by_cases hn : p.offset + n ≤ src.length
    · rw [if_neg (by omega), if_pos hn]
    · rw [if_pos (by omega), if_neg hn]

/-- Rewinding to a mark returns to the position of the mark and reports the distance. -/
theorem mark_rewind {p : BP} (n : Nat) : markRewind { mark p with offset := p.offset + n } = (n, mark p) := by
  unfold markRewind mark
  simp

/-- Reading a run: the next bit and how often it is repeated, at most `max`. -/
theorem readRange_correct {p : BP} {src : List Bool} (h : PRep p src) (max : Nat) (hm : 0 < max) :
    readRange p max = some (match src.drop p.offset with
      | [] => (none, p)
      | b :: t => (some (b, min max (1 + (t.takeWhile (· == b)).length)),
          { p with offset := p.offset + min max (1 + (t.takeWhile (· == b)).length) })) := by
  cases hd : src.drop p.offset with
  | nil =>
    unfold readRange
    rw [if_neg (by omega), peekBit_eq h, hd]; rfl
  | cons b t => exact readRange_eq h hd max hm

/-- Skipping to the next `bit` within `max` bits: it is consumed if found, everything searched is consumed otherwise. -/
theorem consumeToNext_correct {p : BP} {src : List Bool} (h : PRep p src) (bit : Bool) (max : Nat) :
    ∃ r, consumeToNext p bit max = some r ∧ (r.1 = true ↔ bit ∈ (src.drop p.offset).take max) ∧
      r.2 = { p with offset := p.offset + (if bit ∈ (src.drop p.offset).take max then ((src.drop p.offset).takeWhile (· != bit)).length + 1
        else ((src.drop p.offset).take max).length) } := by
  unfold consumeToNext
  rw [len_eq h]
  have hl0 : (if (src.drop p.offset).length > max then max else (src.drop p.offset).length) = min max (src.drop p.offset).length := by
    split <;> omega
  simp only [hl0]
  cases hd : src.drop p.offset with
  | nil =>
    rw [if_pos (by simp)]
    exact ⟨_, rfl, by simp, by simp⟩
  | cons b t =>
    by_cases hm : max = 0
    · subst hm
      rw [if_pos (by simp)]
      exact ⟨_, rfl, by simp, by simp⟩
    · have ho : p.offset < src.length := by
        apply Classical.byContradiction
        intro hn
        rw [List.drop_eq_nil_of_le (by omega)] at hd
        cases hd
      have hb0 : src[p.offset] = b := by
        rw [List.drop_eq_getElem_cons ho] at hd
        exact (List.cons.inj hd).1
      rw [if_neg (by rw [List.length_cons]; omega), peekNextBit_eq h ho, Option.bind_some, hb0]
      obtain ⟨k, rfl⟩ := Nat.exists_eq_succ_of_ne_zero hm
      by_cases hb : b = bit
      · subst hb
        rw [if_pos rfl]
        exact ⟨_, rfl, by simp, by simp⟩
      · rw [if_neg hb, readRange_eq h hd _ (by rw [List.length_cons]; omega)]
        simp only [Option.bind_some]
        -- a run of the other bit
        have hrun : ∀ u : List Bool, u.takeWhile (· == b) = u.takeWhile (· != bit) := by
          intro u
          congr 1
          funext x
          cases x <;> cases b <;> cases bit <;> simp_all
        have hmem : ∀ (u : List Bool) (j : Nat), bit ∈ u.take j ↔ (u.takeWhile (· != bit)).length < min j u.length := by
          intro u
          induction u with
          | nil => intro j; simp
          | cons x u ih =>
            intro j
            cases j with
            | zero => simp
            | succ j =>
              rw [List.take_succ_cons, List.mem_cons, ih]
              by_cases hx : bit = x
              · subst hx
                simp
              · rw [List.takeWhile_cons_of_pos (by simp; exact fun e => hx e.symm)]
                simp only [List.length_cons, hx, false_or]
                omega
        have hb' : bit ≠ b := fun e => hb e.symm
        rw [hrun, List.takeWhile_cons_of_pos (by simpa using hb)]
        have hm' := hmem t k
        have htw : (t.takeWhile (· != bit)).length ≤ t.length := (List.takeWhile_sublist _).length_le
        simp only [List.take_succ_cons, List.mem_cons, hb', false_or, hm', List.length_cons, List.length_take]
        by_cases hin : (t.takeWhile (· != bit)).length < min k t.length
        · rw [if_neg (by omega)]
          refine ⟨_, rfl, by simp [hin], ?_⟩
          rw [if_pos hin]
          simp only
          congr 1
          omega
        · rw [if_pos (by omega)]
          refine ⟨_, rfl, by simp [hin], ?_⟩
          rw [if_neg hin]
          simp only
          congr 1
          omega

/-- Counting the remaining ones or zeros when the unused bits of the last byte are zero.  Missing: a partial byte with other bits
set (`count_dirty_fails`). -/
theorem count_correct_partial {p : BP} {src : List Bool} (h : PRep p src) (hc : Clean p.mem p.nbits) (bit : Bool) :
    count p bit = some ((src.drop p.offset).filter (· == bit)).length := by
  have hl := h.len
  have hr := h.room
  have hp := h.pos
  have hones : ∀ l : List UInt8, (l.map popcount).sum = ((bits l).filter id).length := by
    intro l
    induction l with
    | nil => rfl
    | cons a l ih => rw [List.map_cons, List.sum_cons, bits_cons, List.filter_append, List.length_append, ih, byte_popcount]
  have hzero : ∀ u : List Bool, (∀ b ∈ u, b = false) → (u.filter id).length = 0 := by
    intro u hu
    rw [List.length_eq_zero_iff, List.filter_eq_nil_iff]
    intro a ha; simp [hu a ha]
  have hsplit : ∀ u : List Bool, (u.filter id).length + (u.filter (· == false)).length = u.length := by
    intro u
    induction u with
    | nil => rfl
    | cons x u ih =>
      cases x
      · rw [List.filter_cons_of_neg (by simp), List.filter_cons_of_pos (by simp), List.length_cons, List.length_cons]; omega
      · rw [List.filter_cons_of_pos (by simp), List.filter_cons_of_neg (by simp), List.length_cons, List.length_cons]; omega
  unfold count
  by_cases ho : p.offset ≥ p.nbits
  · rw [if_pos ho, List.drop_eq_nil_of_le (by omega)]; simp
  · rw [if_neg ho]
    simp only
    rw [if_neg (by omega)]
    have hone : (if p.offset % 8 > 0 then popcount (UInt8.ofNat ((p.mem[p.offset / 8]?.getD 0).toNat <<< (p.offset % 8))) else 0) +
        (((p.mem.take ((p.nbits + 7) / 8)).drop (if p.offset % 8 > 0 then p.offset / 8 + 1 else p.offset / 8)).map popcount).sum =
        ((src.drop p.offset).filter id).length := by
      -- everything up to the end of the last byte
      have hall : ((src.drop p.offset).filter id).length = ((((bits p.mem).take (8 * ((p.nbits + 7) / 8))).drop p.offset).filter id).length := by
        have e : (bits p.mem).take (8 * ((p.nbits + 7) / 8)) = src ++ ((bits p.mem).take (8 * ((p.nbits + 7) / 8))).drop p.nbits := by
          conv => lhs; rw [← List.take_append_drop p.nbits (List.take _ _)]
          rw [List.take_take, Nat.min_eq_left (by omega), h.mem]
        conv => rhs; rw [e]
        rw [List.drop_append_of_le_length (by omega), List.filter_append, List.length_append, hzero _ hc, Nat.add_zero]
      rw [hall, hones, bits_drop, bits_take]
      have hbl := bits_length p.mem
      by_cases h8 : p.offset % 8 > 0
      · rw [if_pos h8, if_pos h8]
        have hi : p.offset / 8 < p.mem.length := by omega
        rw [List.getElem?_eq_getElem hi, Option.getD_some, byte_popcount, byte_shl ⟨p.offset % 8, by omega⟩, List.filter_append]
        have : ((List.replicate (p.offset % 8) false).filter id) = [] := by
          rw [List.filter_eq_nil_iff]; intro a ha; simp [(List.mem_replicate.1 ha).2]
        rw [this, List.append_nil]
        rw [← List.length_append, ← List.filter_append]
        congr 2
        have hk : (List.take (8 * ((p.nbits + 7) / 8)) (bits p.mem)).drop p.offset =
            ((List.take (8 * ((p.nbits + 7) / 8)) (bits p.mem)).drop (8 * (p.offset / 8))).drop (p.offset % 8) := by
          rw [List.drop_drop]; congr 1; omega
        rw [hk]
        have hx : (List.take (8 * ((p.nbits + 7) / 8)) (bits p.mem)).drop (8 * (p.offset / 8)) =
            byteBits p.mem[p.offset / 8] ++ (List.take (8 * ((p.nbits + 7) / 8)) (bits p.mem)).drop (8 * (p.offset / 8 + 1)) := by
          rw [← bits_take, ← bits_drop, ← bits_drop, List.drop_eq_getElem_cons (by rw [List.length_take]; omega), bits_cons, List.getElem_take]
        rw [hx, List.drop_append_of_le_length (by rw [byteBits_length]; omega)]
      · rw [if_neg h8, if_neg h8, show 8 * (p.offset / 8) = p.offset by omega, Nat.zero_add]
    rw [hone]
    have hs := hsplit (src.drop p.offset)
    cases bit with
    | true =>
      have e : (fun x : Bool => x == true) = id := by funext x; simp
      rw [e, if_pos rfl]
    | false =>
      simp only [Bool.false_eq_true, if_false]
      congr 1
      rw [List.length_drop] at hs
      omega

/-- One bit of `0xFF` counts as eight. -/
theorem count_dirty_fails : count (createConst [0xFF] 1) true = some 8 := by decide

end Verif.Bits
