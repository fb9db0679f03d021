import Verif.Chr
/-! Model of `base/data/m_bit_buf.c` and `base/data/m_bit_parser.c`.

Byte buffers (`M_buf_t`) are lists of bytes; `none` is an access outside them.  A bit argument is a `Bool` (zero or not).
NULL arguments are not modelled. -/
namespace Verif.Bits

/-! ### Bit buffer -/

/-- `base/data/m_bit_buf.c:31-34`, `struct M_bit_buf`. -/
structure BBuf where
  bytes : List UInt8
  nbits : Nat
deriving DecidableEq, Repr

/-- `base/data/m_bit_buf.c:38-47`, `M_bit_buf_create`. -/
def create : BBuf := ⟨[], 0⟩

/-- `*last_byte |= bits`, as in `base/data/m_bit_buf.c:194-197` and `:164-167`. -/
def orLast (bytes : List UInt8) (pos : Nat) : Option (List UInt8) :=
  match bytes[bytes.length - 1]? with
  | none => none
  | some b => some (bytes.set (bytes.length - 1) (b ||| UInt8.ofNat (1 <<< pos)))

/-- `base/data/m_bit_buf.c:177-201`, `M_bit_buf_add_bit`. -/
def addBit (b : BBuf) (bit : Bool) : Option BBuf :=
  let pos := 7 - b.nbits % 8
  let bytes := if pos = 7 then b.bytes ++ [0] else b.bytes
  if bit then (orLast bytes pos).map fun bytes => ⟨bytes, b.nbits + 1⟩
  else some ⟨bytes, b.nbits + 1⟩

/-- `base/data/m_bit_buf.c:140-174`, `M_bit_buf_fill`; the second branch of the loop is the body of `M_bit_buf_add_bit`. -/
def fill (b : BBuf) (bit : Bool) (len : Nat) : Option BBuf :=
  if len = 0 then some b
  else if 7 - b.nbits % 8 = 7 ∧ len ≥ 8 then fill ⟨b.bytes ++ [if bit then 255 else 0], b.nbits + 8⟩ bit (len - 8)
  else (addBit b bit).bind fun b => fill b bit (len - 1)
termination_by len
decreasing_by all_goals omega

/-- `base/data/m_buf.c:135-145`, `M_buf_truncate`, on the bytes. -/
def bufTruncate (bytes : List UInt8) (len : Nat) : List UInt8 := if bytes.length ≤ len then bytes else bytes.take len

/-- `base/data/m_bit_buf.c:110-137`, `M_bit_buf_truncate`. -/
def truncate (b : BBuf) (len : Nat) : Option BBuf :=
  let full := len / 8
  let part := len % 8
  if part ≠ 0 then
    match b.bytes[full]? with
    | none => none
    | some last =>
      let mask := UInt8.ofNat (1 <<< (8 - part))
      let mask := ~~~(mask - 1)
      some ⟨bufTruncate b.bytes full ++ [last &&& mask], len⟩
  else some ⟨bufTruncate b.bytes full, len⟩

/-- `base/data/m_bit_buf.c:220-254`, `M_bit_buf_update_bit`. -/
def updateBit (b : BBuf) (idx : Nat) (bit : Bool) : Bool × BBuf :=
  if idx ≥ b.nbits then (false, b)
  else
    let pos := 7 - idx % 8
    match b.bytes[idx / 8]? with
    | none => (false, b)
    | some byte =>
      let m := UInt8.ofNat (1 <<< pos)
      (true, ⟨b.bytes.set (idx / 8) (if bit then byte ||| m else byte &&& ~~~m), b.nbits⟩)

/-- `base/data/m_bit_buf.c:204-217`, `M_bit_buf_set_bit`. -/
def setBit (b : BBuf) (bit : Bool) (idx : Nat) (fillBit : Bool) : Option BBuf :=
  if idx < b.nbits then some (updateBit b idx bit).2
  else (fill b fillBit (idx - b.nbits)).bind fun b => addBit b bit

/-- `M_bit_buf_pad_t`. -/
inductive Pad
  | none | before | after
deriving DecidableEq, Repr

/-- The loop of `base/data/m_bit_buf.c:293-320`, `M_bit_buf_add`. -/
def addLoop (b : BBuf) (bits : Nat) : Nat → Option BBuf
  | 0 => some b
  | n + 1 => (addBit b ((bits >>> n) &&& 1 ≠ 0)).bind fun b => addLoop b bits n

/-- The number of padding bits in `M_bit_buf_add` and `M_bit_buf_add_bitstr`. -/
def padBits (have_ add : Nat) (pad : Pad) : Nat :=
  if pad ≠ .none then
    let rem := (have_ + add) % 8
    if rem ≠ 0 then 8 - rem else 0
  else 0

/-- `base/data/m_bit_buf.c:293-320`, `M_bit_buf_add`. -/
def add (b : BBuf) (bits nbits : Nat) (pad : Pad) : Option BBuf :=
  if nbits < 1 ∨ nbits > 64 then some b
  else
    let np := padBits b.nbits nbits pad
    ((if pad = .before then fill b false np else some b).bind fun b => addLoop b bits nbits).bind fun b =>
      if pad = .after then fill b false np else some b

/-- The loop of `base/data/m_bit_buf.c:257-290`, `M_bit_buf_add_bytes`, over whole bytes. -/
def addWhole (b : BBuf) : List UInt8 → Option BBuf
  | [] => some b
  | x :: xs => (add b x.toNat 8 .none).bind fun b => addWhole b xs

/-- `base/data/m_bit_buf.c:257-290`, `M_bit_buf_add_bytes`. -/
def addBytes (b : BBuf) (src : List UInt8) (nbits : Nat) : Option BBuf :=
  if nbits = 0 then some b
  else
    let whole := nbits / 8
    let left := nbits % 8
    let need := whole + (if left > 0 then 1 else 0)
    if src.length < need then none
    else if b.nbits % 8 = 0 then some ⟨b.bytes ++ src.take need, b.nbits + nbits⟩
    else (addWhole b (src.take whole)).bind fun b =>
      if left > 0 then
        match src[whole]? with
        | none => none
        | some x => add b (x.toNat >>> (8 - left)) left .none
      else some b

/-- The second loop of `base/data/m_bit_buf.c:323-380`, `M_bit_buf_add_bitstr`. -/
def bitstrLoop (b : BBuf) : List UInt8 → Option (Bool × BBuf)
  | [] => some (true, b)
  | c :: cs =>
    if Chr.isSpace c then bitstrLoop b cs
    else if c ≠ 48 ∧ c ≠ 49 then some (false, b)
    else (addBit b (c ≠ 48)).bind fun b => bitstrLoop b cs

/-- `base/data/m_bit_buf.c:323-380`, `M_bit_buf_add_bitstr`, on a string without its terminator. -/
def addBitstr (b : BBuf) (s : List UInt8) (pad : Pad) : Option (Bool × BBuf) :=
  if s = [] then some (true, b)
  else
    let nbits := (s.filter fun c => c = 48 || c = 49).length
    let np := padBits b.nbits nbits pad
    ((if pad = .before then fill b false np else some b).bind fun b => bitstrLoop b s).bind fun (ok, b) =>
      if ok then (if pad = .after then fill b false np else some b).map fun b => (true, b) else some (false, b)

/-! ### Bit parser -/

/-- `2^64`, the range of `size_t` and `M_uint64`. -/
def w64 : Nat := 18446744073709551616

/-- `base/data/m_bit_parser.c:31-38`, `struct M_bit_parser`.  `mem` are the readable bytes at `bytes`: those given to a constant
parser; the bytes of the buffer and their terminating zero byte (`base/data/m_buf.c:135-145`) for an owning parser. -/
structure BP where
  mem : List UInt8
  nbits : Nat
  offset : Nat
  marked : Nat
  bbuf : Option BBuf
deriving DecidableEq, Repr

/-- `base/data/m_bit_parser.c:137-147`, `M_bit_parser_create_const`. -/
def createConst (bytes : List UInt8) (nbits : Nat) : BP := ⟨bytes, nbits, 0, 0, none⟩

/-- `base/data/m_bit_parser.c:121-134`, `M_bit_parser_create`. -/
def createP (bytes : List UInt8) (nbits : Nat) : Option BP :=
  (addBytes create bytes nbits).map fun b => ⟨b.bytes ++ [0], nbits, 0, 0, some b⟩

/-- `base/data/m_bit_parser.c:107-118`, `ensure_append`, for a non-zero number of bits. -/
def ensureAppend (p : BP) : Option BBuf :=
  match p.bbuf with
  | some b => some b
  | none => addBytes create p.mem p.nbits

/-- `base/data/m_bit_parser.c:150-161`, `M_bit_parser_append`. -/
def append (p : BP) (bytes : List UInt8) (nbits : Nat) : Option BP :=
  if nbits = 0 then some p
  else (ensureAppend p).bind fun b => (addBytes b bytes nbits).map fun b =>
    { p with bbuf := some b, nbits := b.nbits, mem := b.bytes ++ [0] }

/-- `base/data/m_bit_parser.c:164-175`, `M_bit_parser_append_uint`. -/
def appendUint (p : BP) (bits nbits : Nat) : Option BP :=
  if nbits = 0 then some p
  else (ensureAppend p).bind fun b => (add b bits nbits .none).map fun b =>
    { p with bbuf := some b, nbits := b.nbits, mem := b.bytes ++ [0] }

/-- `base/data/m_bit_parser.c:198-221`, `M_bit_parser_reset`. -/
def reset (p : BP) (bytes : List UInt8) (nbits : Nat) : Option BP :=
  (p.bbuf.elim (some create) fun b => truncate b 0).bind fun b =>
      (addBytes b bytes nbits).map fun b => (⟨b.bytes ++ [0], b.nbits, 0, 0, some b⟩ : BP)

/-- `base/data/m_bit_parser.c:236-243`, `M_bit_parser_len`. -/
def len (p : BP) : Nat := if p.offset ≥ p.nbits then 0 else p.nbits - p.offset

/-- `base/data/m_bit_parser.c:42-55`, `peek_next_bit`. -/
def peekNextBit (p : BP) : Option Bool :=
  match p.mem[p.offset / 8]? with
  | none => none
  | some b => some (b.toNat &&& (1 <<< (7 - p.offset % 8)) ≠ 0)

/-- The loop of `base/data/m_bit_parser.c:88-90` in `peek_next_bytes`. -/
def shiftBytes (skip : Nat) : List UInt8 → Nat → Option (List UInt8)
  | _, 0 => some []
  | a :: b :: rest, n + 1 =>
    (shiftBytes skip (b :: rest) n).map fun r => UInt8.ofNat ((a.toNat <<< skip) ||| (b.toNat >>> (8 - skip))) :: r
  | _, _ + 1 => none

/-- `base/data/m_bit_parser.c:59-104`, `peek_next_bytes`: the bytes written to `dest`; none written when it returns 0. -/
def peekNextBytes (p : BP) (destlen nbits : Nat) (strict : Bool) : Option (List UInt8) :=
  if nbits = 0 then some []
  else if (p.offset + nbits) % w64 > p.nbits then some []
  else
    let nbytes := ((nbits + 7) % w64) / 8
    let src := p.mem.drop (p.offset / 8)
    let skip := p.offset % 8
    if destlen < nbytes then some []
    else
      (if skip = 0 then (if src.length < nbytes then none else some (src.take nbytes))
        else shiftBytes skip src nbytes).bind fun dest =>
      if strict then
        let pad := nbits % 8
        if pad > 0 then
          match dest[nbytes - 1]? with
          | none => none
          | some x => some (dest.set (nbytes - 1) (x &&& ~~~UInt8.ofNat ((1 <<< (8 - pad)) - 1)))
        else some dest
      else some dest

/-- `base/data/m_bit_parser.c:339-351`, `M_bit_parser_consume`. -/
def consume (p : BP) (nbits : Nat) : Bool × BP :=
  if nbits = 0 then (true, p)
  else if nbits > len p then (false, p)
  else (true, { p with offset := p.offset + nbits })

/-- `base/data/m_bit_parser.c:304-311`, `M_bit_parser_mark`. -/
def mark (p : BP) : BP := { p with marked := p.offset }

/-- `base/data/m_bit_parser.c:324-336`, `M_bit_parser_mark_rewind`. -/
def markRewind (p : BP) : Nat × BP := (p.offset - p.marked, { p with offset := p.marked })

/-- `base/data/m_bit_parser.c:293-301`, `M_bit_parser_rewind_to_start`. -/
def rewind (p : BP) : BP := { p with offset := 0, marked := 0 }

/-- `base/data/m_bit_parser.c:354-363`, `M_bit_parser_peek_bit`: the inner `none` is FALSE. -/
def peekBit (p : BP) : Option (Option Bool) :=
  if p.offset ≥ p.nbits then some none else (peekNextBit p).map some

/-- `base/data/m_bit_parser.c:366-373`, `M_bit_parser_read_bit`. -/
def readBit (p : BP) : Option (Option Bool × BP) :=
  (peekBit p).map fun
    | none => (none, p)
    | some b => (some b, { p with offset := p.offset + 1 })

/-- The loops of `M_bit_parser_read_bit_buf` and `M_bit_parser_read_strdup`: `n` bits with `peek_next_bit`. -/
def readLoop (p : BP) : Nat → Option (List Bool × BP)
  | 0 => some ([], p)
  | n + 1 => (peekNextBit p).bind fun b => (readLoop { p with offset := p.offset + 1 } n).map fun (l, p) => (b :: l, p)

/-- `base/data/m_bit_parser.c:376-394`, `M_bit_parser_read_bit_buf`: the bits handed to `M_bit_buf_add_bit` in order. -/
def readBitBuf (p : BP) (nbits : Nat) : Option (Option (List Bool) × BP) :=
  if nbits = 0 then some (some [], p)
  else if len p < nbits then some (none, p)
  else (readLoop p nbits).map fun (l, p) => (some l, p)

/-- `base/data/m_bit_parser.c:449-466`, `M_bit_parser_read_strdup`: `none` inside is NULL. -/
def readStrdup (p : BP) (nbits : Nat) : Option (Option (List UInt8) × BP) :=
  if nbits = 0 ∨ len p < nbits then some (none, p)
  else (readLoop p nbits).map fun (l, p) => (some (l.map fun b => if b then 49 else 48), p)

/-- `base/data/m_bit_parser.c:424-446`, `M_bit_parser_read_bytes`, into a buffer of `destlen` bytes: `none` inside is FALSE.
`M_bit_parser_read_buf` is the same with a buffer large enough. -/
def readBytes (p : BP) (destlen nbits : Nat) : Option (Option (List UInt8) × BP) :=
  if nbits = 0 then some (some [], p)
  else if destlen = 0 then some (none, p)
  else (peekNextBytes p destlen nbits true).map fun
    | [] => (none, p)
    | l => (some l, { p with offset := p.offset + nbits })

/-- `base/data/m_bit_parser.c:469-506`, `M_bit_parser_read_uint`: `none` inside is FALSE. -/
def readUint (p : BP) (nbits : Nat) : Option (Option Nat × BP) :=
  if nbits = 0 then some (some 0, p)
  else if nbits > 64 ∨ len p < nbits then some (none, p)
  else (peekNextBytes p 8 nbits false).map fun
    | [] => (none, p)
    | l =>
      let res := l.foldl (fun r a => (r <<< 8) % w64 ||| a.toNat) 0
      let i := nbits % 8
      (some (if i > 0 then res >>> (8 - i) else res), { p with offset := p.offset + nbits })

/-- `M_bit_parser_int_format_t`. -/
inductive Fmt
  | signMag | onesComp | twosComp
deriving DecidableEq, Repr

/-- Conversion `(M_int64)` of an `M_uint64`. -/
def toInt64 (n : Nat) : Int := if n < 9223372036854775808 then n else (n : Int) - 18446744073709551616

/-- Negation of an `M_int64`. -/
def neg64 (i : Int) : Option Int := if i = -9223372036854775808 then none else some (-i)

/-- `base/data/m_bit_parser.c:509-551`, `M_bit_parser_read_int`: the return value and `*res`. -/
def readInt (p : BP) (nbits : Nat) (fmt : Fmt) : Option (Bool × Int × BP) :=
  if nbits < 2 then some (false, 0, p)
  else
    match fmt with
    | .signMag => (readBit p).bind fun
      | (none, p) => some (true, 0, p)
      | (some sign, p) => (readUint p (nbits - 1)).bind fun
        | (none, p) => some (true, 0, p)
        | (some val, p) => if sign then (neg64 (toInt64 val)).map fun r => (true, r, p) else some (true, toInt64 val, p)
    | .onesComp => (readUint p nbits).bind fun
      | (none, p) => some (true, 0, p)
      | (some val, p) =>
        let mask := 1 <<< (nbits - 1)
        if val &&& mask ≠ 0 then (neg64 (toInt64 ((w64 - 1 - val) &&& (mask - 1)))).map fun r => (true, r, p)
        else some (true, toInt64 val, p)
    | .twosComp => (readUint p nbits).bind fun
      | (none, p) => some (true, 0, p)
      | (some val, p) =>
        let mask := 1 <<< (nbits - 1)
        some (true, toInt64 (((val ^^^ mask) + (w64 - mask)) % w64), p)

/-- The loop of `base/data/m_bit_parser.c:554-581`, `M_bit_parser_read_range`, after the first bit: `n` bits counted. -/
def rangeLoop (bit : Bool) (max : Nat) : Nat → BP → Nat → Option (Nat × BP)
  | 0, _, _ => none
  | fuel + 1, p, n =>
    if n < max then
      (peekBit p).bind fun
        | some nb => if nb = bit then rangeLoop bit max fuel { p with offset := p.offset + 1 } (n + 1) else some (n, p)
        | none => some (n, p)
    else some (n, p)

/-- `base/data/m_bit_parser.c:554-581`, `M_bit_parser_read_range`: the bit and the count; `none` inside is FALSE.  Every
iteration advances, so as many iterations as bits are enough. -/
def readRange (p : BP) (max : Nat) : Option (Option (Bool × Nat) × BP) :=
  if max = 0 then some (none, p)
  else (peekBit p).bind fun
    | none => some (none, p)
    | some b => (rangeLoop b max (p.nbits + 1) { p with offset := p.offset + 1 } 1).map fun (n, p) => (some (b, n), p)

/-- `base/data/m_bit_parser.c:593-625`, `M_bit_parser_consume_to_next`. -/
def consumeToNext (p : BP) (bit : Bool) (max : Nat) : Option (Bool × BP) :=
  let l := if len p > max then max else len p
  if l = 0 then some (false, p)
  else (peekNextBit p).bind fun b =>
    if b = bit then some (true, { p with offset := p.offset + 1 })
    else (readRange p l).bind fun
      | (none, p) => some (false, p)
      | (some (_, n), p) => if n ≥ l then some (false, p) else some (true, { p with offset := p.offset + 1 })

/-- Number of ones of a byte, `M_uint8_popcount` (`include/mstdlib/base/m_bithacks.h`). -/
def popcount (b : UInt8) : Nat := ((List.range 8).filter fun i => b.toNat.testBit i).length

/-- `base/data/m_bit_parser.c:256-290`, `M_bit_parser_count`. -/
def count (p : BP) (bit : Bool) : Option Nat :=
  if p.offset ≥ p.nbits then some 0
  else
    let nbytes := (p.nbits + 7) / 8
    let first := p.offset / 8
    let consumed := p.offset % 8
    if p.mem.length < nbytes then none
    else
      let c := if consumed > 0 then popcount (UInt8.ofNat ((p.mem[first]?.getD 0).toNat <<< consumed)) else 0
      let start := if consumed > 0 then first + 1 else first
      let c := c + (((p.mem.take nbytes).drop start).map popcount).sum
      some (if bit then c else p.nbits - (p.offset + c))

end Verif.Bits
