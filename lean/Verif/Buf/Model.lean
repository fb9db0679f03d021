import Verif.Chr
import Verif.Mem.Model
/- Model of the byte buffer of `base/data/m_buf.c`.  The allocation is a list of bytes; every read and every write is
checked against it and `none` is an access outside it (or a loop that does not end).  `size_t` is 64 bits wide.  Not
modelled: a failing allocation (`M_realloc` is taken to succeed), null arguments where they only return at once,
arguments that point into the buffer itself, and the operations not mentioned here (encodings, money and decimal
formatting, line splitting, joins).  The byte values of fresh memory are arbitrary: every function takes them as `g`. -/
namespace Verif.Buf

/-- Number of values of `size_t`. -/
def W : Nat := 18446744073709551616

/-- `base/data/m_buf.c:32-38`, `struct M_buf`.  `data` is empty exactly when the pointer is null. -/
structure Buf where
  data : List UInt8
  size : Nat
  len : Nat
  cons : Nat
deriving DecidableEq, Repr

/-- `base/data/m_buf.c:42-50`, `M_buf_create`. -/
def create : Buf := { data := [], size := 0, len := 0, cons := 0 }

/-- `M_mem_copy`/`M_mem_move`/`M_mem_set` and single stores: `bs` stored from index `i` on. -/
def wr (d : List UInt8) (i : Nat) (bs : List UInt8) : Option (List UInt8) :=
  if i + bs.length ≤ d.length then some (d.take i ++ bs ++ d.drop (i + bs.length)) else none

/-- Loads of `n` bytes from index `i` on. -/
def rd (d : List UInt8) (i n : Nat) : Option (List UInt8) :=
  if i + n ≤ d.length then some ((d.drop i).take n) else none

/-- `base/data/m_buf.c:62-75`, `M_buf_consume`. -/
def consume (b : Buf) : Option Buf :=
  if b.cons = 0 then some b
  else
    (if b.len = 0 then some b.data else (rd b.data b.cons b.len).bind (wr b.data 0)).bind fun d =>
    (wr d b.len [0]).map fun d => { b with data := d, cons := 0 }

/-- `base/data/m_buf.c:78-100`, `M_buf_finish`: the returned memory (whole allocation) and length. -/
def finish (b : Buf) : Option (List UInt8 × Nat) := (consume b).map fun b => (b.data, b.len)

/-- `base/data/m_buf.c:108-113`, `M_buf_len`. -/
def blen (b : Buf) : Nat := b.len

/-- `base/data/m_buf.c:127-133`, `M_buf_peek`: the bytes readable from the returned pointer on, `none` for null. -/
def peek (b : Buf) : Option (List UInt8) := if b.data = [] then none else some (b.data.drop b.cons)

/-- `base/data/m_buf.c:135-145`, `M_buf_truncate`. -/
def truncate (b : Buf) (length : Nat) : Option Buf :=
  if b.len ≤ length ∨ b.data = [] then some b
  else
    (wr b.data (b.cons + length) (List.replicate (b.len - length) 0xFF)).bind fun d =>
    (wr d (b.cons + length) [0]).map fun d => { b with data := d, len := length }

/-- `base/data/m_buf.c:147-162`, `M_buf_drop`. -/
def drop (b : Buf) (num : Nat) : Option Buf :=
  if num = 0 then some b
  else
    (wr b.data b.cons (List.replicate (min num b.len) 0xFF)).map fun d =>
      { b with data := d, cons := b.cons + min num b.len, len := b.len - min num b.len }

/-- `base/data/m_buf.c:240-257`, `next_multiple_of_block_size`, the loop; `none` when the fuel runs out, see
`grow_hangs` for a loop that runs out of any fuel. -/
def growLoop (needed curr : Nat) : Nat → Nat → Option Nat
  | 0, _ => none
  | f + 1, n =>
    if needed > n then
      if n * 2 % W < curr then some 0 else growLoop needed curr f (n * 2 % W)
    else some n

/-- `base/data/m_buf.c:240-257`, `next_multiple_of_block_size`. -/
def nextSize (fuel needed curr : Nat) : Option Nat := growLoop needed curr fuel (if curr = 0 then 1024 else curr)

/-- `M_realloc` at `base/data/m_buf.c:281`: the old bytes followed by arbitrary ones. -/
def realloc (g : Nat → UInt8) (d : List UInt8) (n : Nat) : List UInt8 := d ++ (List.range (n - d.length)).map g

/-- `base/data/m_buf.c:277-285`, the growing half of `ensure_space`. -/
def enlarge (g : Nat → UInt8) (new : Nat) (b : Buf) : Option (Buf × Bool) :=
  if new > b.size then
    (nextSize 64 new b.size).map fun s =>
      if s = 0 then (b, false) else ({ b with data := realloc g b.data (s + 1), size := s }, true)
  else some (b, true)

/-- `base/data/m_buf.c:259-286`, `ensure_space`. -/
def ensureSpace (g : Nat → UInt8) (b : Buf) (add : Nat) : Option (Buf × Bool) :=
  if (b.len + add) % W < (b.size + W - b.cons) % W then some (b, true)
  else (consume b).bind (enlarge g ((b.len + add) % W))

/-- The transformation bit mask, `include/mstdlib/base/m_buf.h:80-87`. -/
structure Tr where
  upper : Bool := false
  lower : Bool := false
  ltrim : Bool := false
  rtrim : Bool := false
deriving DecidableEq, Repr

/-- `base/data/m_buf.c:312-323`, `M_buf_transform_upper_cb`, on the byte. -/
def upperByte (c : UInt8) : UInt8 := if Chr.isLower c then Chr.toUpper c else c

/-- `base/data/m_buf.c:325-336`, `M_buf_transform_lower_cb`, on the byte. -/
def lowerByte (c : UInt8) : UInt8 := if Chr.isUpper c then Chr.toLower c else c

/-- `base/data/m_buf.c:316-320` and 329-333: the `n` bytes from `off` on are replaced one by one. -/
def mapAt (d : List UInt8) (off n : Nat) (f : UInt8 → UInt8) : Option (List UInt8) :=
  (rd d off n).bind fun bs => wr d off (bs.map f)

/-- `base/data/m_buf.c:342-343`, the scan of `M_buf_transform_ltrim_cb` (also 1216-1219 of `M_buf_trim`): the number of
blanks from the given byte on.  There is no length check, so the scan fails if it leaves the allocation. -/
def scan : List UInt8 → Option Nat
  | [] => none
  | c :: cs => if Chr.isSpace c then (scan cs).map (· + 1) else some 0

/-- `base/data/m_buf.c:338-352`, `M_buf_transform_ltrim_cb`. -/
def ltrimAt (d : List UInt8) (off n : Nat) : Option (List UInt8 × Nat) :=
  (scan (d.drop off)).bind fun i =>
    if i = 0 then some (d, n)
    else if n < i then none
    else ((rd d (off + i) (n - i)).bind (wr d off)).map fun d => (d, n - i)

/-- `base/data/m_buf.c:354-360`, `M_buf_transform_rtrim_cb`: the new length. -/
def rtrimAt (d : List UInt8) (off : Nat) : Nat → Option Nat
  | 0 => some 0
  | n + 1 => (d[off + n]?).bind fun c => if Chr.isSpace c then rtrimAt d off n else some (n + 1)

/-- One round of the loop `base/data/m_buf.c:396-415`: nothing happens when the length is zero or the bit is not set;
otherwise the transformation runs and, if the length changed, the total is corrected and the terminator stored. -/
def trRound (on : Bool) (f : List UInt8 → Nat → Option (List UInt8 × Nat)) (off : Nat) (s : Buf × Nat) : Option (Buf × Nat) :=
  if s.2 = 0 ∨ on = false then some s
  else (f s.1.data s.2).bind fun r =>
    if r.2 = s.2 then some ({ s.1 with data := r.1 }, s.2)
    else
      (wr r.1 (off + r.2) [0]).map fun d =>
        ({ s.1 with data := d, len := if r.2 > s.2 then s.1.len + (r.2 - s.2) else s.1.len - (s.2 - r.2) }, r.2)

/-- `base/data/m_buf.c:391-417`, the transformations in the order of the table (369-375). -/
def transform (t : Tr) (off : Nat) (b : Buf) (n : Nat) : Option (Buf × Nat) :=
  (trRound t.upper (fun d k => (mapAt d off k upperByte).map (·, k)) off (b, n)).bind fun s =>
  (trRound t.lower (fun d k => (mapAt d off k lowerByte).map (·, k)) off s).bind fun s =>
  (trRound t.ltrim (fun d k => ltrimAt d off k) off s).bind fun s =>
  trRound t.rtrim (fun d k => (rtrimAt d off k).map (d, ·)) off s

/-- `base/data/m_buf.c:384-389`, the appending part of `M_buf_add_bytes_transform`. -/
def append (b : Buf) (bytes : List UInt8) : Option Buf :=
  (wr b.data (b.cons + b.len) bytes).bind fun d =>
  (wr d (b.cons + b.len + bytes.length) [0]).map fun d => { b with data := d, len := b.len + bytes.length }

/-- `base/data/m_buf.c:363-418`, `M_buf_add_bytes_transform`: the buffer and the returned length. -/
def addTransform (g : Nat → UInt8) (b : Buf) (t : Tr) (bytes : List UInt8) : Option (Buf × Nat) :=
  if bytes.length = 0 then some (b, 0)
  else (ensureSpace g b bytes.length).bind fun r =>
    if r.2 = false then some (r.1, 0)
    else (append r.1 bytes).bind fun b2 => transform t (r.1.cons + r.1.len) b2 bytes.length

/-- `base/data/m_buf.c:421-424`, `M_buf_add_bytes`; also `M_buf_add_byte` and `M_buf_add_str` (462-465), with the bytes
before the terminator. -/
def addBytes (g : Nat → UInt8) (b : Buf) (bytes : List UInt8) : Option Buf := (addTransform g b {} bytes).map (·.1)

/-- `base/data/m_buf.c:529-542`, `M_buf_add_fill`. -/
def addFill (g : Nat → UInt8) (b : Buf) (c : UInt8) (width : Nat) : Option Buf :=
  if width = 0 then some b
  else (ensureSpace g b width).bind fun r =>
    if r.2 = false then some r.1 else append r.1 (List.replicate width c)

/-- `base/data/m_buf.c:289-298`, `M_buf_direct_write_start`: the buffer, the offset of the returned pointer and the
number of bytes offered.  (The result of `ensure_space` is ignored.) -/
def writeStart (g : Nat → UInt8) (b : Buf) (n : Nat) : Option (Buf × Nat × Nat) :=
  (ensureSpace g b n).map fun r => (r.1, r.1.cons + r.1.len, (r.1.size + 2 * W - r.1.cons - r.1.len) % W)

/-- `base/data/m_buf.c:301-309`, `M_buf_direct_write_end`. -/
def writeEnd (b : Buf) (n : Nat) : Option Buf :=
  if n = 0 then some b
  else (wr b.data (b.cons + (b.len + n)) [0]).map fun d => { b with data := d, len := b.len + n }

/-- A caller of the direct write interface that asks for `req` bytes (not zero), stores `bytes` at the pointer and
reports their number. -/
def directWrite (g : Nat → UInt8) (b : Buf) (req : Nat) (bytes : List UInt8) : Option Buf :=
  (writeStart g b req).bind fun r => (wr r.1.data r.2.1 bytes).bind fun d => writeEnd { r.1 with data := d } bytes.length

/-- `base/data/m_buf.c:166-172`, `M_buf_merge`: the bytes are taken from the start of the allocation of the source. -/
def merge (g : Nat → UInt8) (dest src : Buf) : Option Buf :=
  if src.len = 0 then some dest else (rd src.data 0 src.len).bind (addBytes g dest)

/-- `base/data/m_buf.c:1201-1230`, `M_buf_trim`. -/
def trim (b : Buf) : Option Buf :=
  if b.data = [] ∨ b.len = 0 then some b
  else
    (scan (b.data.drop b.cons)).bind fun dropNum =>
    (rtrimAt b.data b.cons b.len).bind fun truncNum =>
    (truncate b truncNum).bind fun b => drop b dropNum

/-- `M_str_justify_type_t` (`include/mstdlib/base/m_str.h`), the kinds of padding and cutting. -/
inductive Just | right | rightTruncRight | rightNoTrunc | left | leftTruncRight | leftNoTrunc | center | centerTruncRight | centerNoTrunc | truncLeft | truncRight
deriving DecidableEq, Repr

/-- `base/data/m_str.c:1846-1869`, what is left of the source when it is longer than the field. -/
def justCut (t : Just) (src : List UInt8) (width : Nat) : List UInt8 :=
  if src.length > width then
    match t with
    | .right | .left | .center | .truncLeft => src.drop (src.length - width)
    | _ => src.take width
  else src

/-- `base/data/m_str.c:1826-1921`, `M_str_justify_max` with a destination longer than the field: the bytes stored (the
terminator follows), `none` when it returns 0 without storing anything. -/
def justify (t : Just) (fill : UInt8) (src : List UInt8) (width : Nat) : Option (List UInt8) :=
  if (t = .leftNoTrunc ∨ t = .rightNoTrunc ∨ t = .centerNoTrunc) ∧ src.length > width then none
  else
    let s := justCut t src width
    match t with
    | .right | .rightTruncRight | .rightNoTrunc => some (List.replicate (width - s.length) fill ++ s)
    | .left | .leftTruncRight | .leftNoTrunc => some (s ++ List.replicate (width - s.length) fill)
    | .truncLeft | .truncRight => some s
    | .center | .centerTruncRight | .centerNoTrunc =>
      some (List.replicate ((width - s.length + 1) / 2) fill ++ s ++ List.replicate ((width - s.length) / 2) fill)

/-- `base/data/m_buf.c:698-708`, justification in place at a recorded offset. -/
def justAt (b : Buf) (off n : Nat) (t : Just) (fill : UInt8) (width : Nat) : Option Buf :=
  (rd b.data off n).bind fun src =>
  (match justify t fill src width with
    | none => some (b.data, 0)
    | some out => (wr b.data off (out ++ [0])).map (·, out.length)).bind fun r =>
  (wr r.1 (b.cons + (b.len + r.2 - n)) [0]).map fun d => { b with data := d, len := b.len + r.2 - n }

/-- `base/data/m_buf.c:674-709`, `M_buf_add_bytes_just_transform`: the offset is recorded before anything is appended. -/
def addJust (g : Nat → UInt8) (b : Buf) (t : Tr) (bytes : List UInt8) (j : Just) (fill : UInt8) (width : Nat) : Option Buf :=
  if width = 0 then some b
  else (addTransform g b t bytes).bind fun r =>
    (if width > r.2 then (ensureSpace g r.1 width).map (·.1) else some r.1).bind fun b2 =>
      justAt b2 (b.cons + b.len) r.2 j fill width

end Verif.Buf
