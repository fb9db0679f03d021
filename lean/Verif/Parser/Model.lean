import Verif.Buf.Model
import Verif.Bithacks.Model
/- Model of the parser object of `base/data/m_parser.c`: the stream of bytes, its marks and its position.  Pointers into
the buffer are offsets from its start; every load and store is checked against the allocation and `none` is an access
outside it.  `size_t` is 64 bits wide; the byte count `consumed` and the line and column counts are unbounded numbers.
Not modelled: a failing allocation, null arguments where they only return at once, and the functions not mentioned. -/
namespace Verif.Parser
open Verif.Buf (W wr rd realloc)

/-- `base/data/m_parser_int.h:36-52`, `struct M_parser`.  `mem` is the constant data (`const`) or the allocation of a
dynamic parser, empty when there is none yet; a mark of -1 is `none`. -/
structure P where
  const : Bool
  mem : List UInt8
  pos : Nat
  len : Nat
  consumed : Nat
  markU : Option Nat
  markI : Option Nat
  track : Bool
  line : Nat
  col : Nat
deriving DecidableEq, Repr

/-- `base/data/m_parser.c:400-407`, `M_parser_create` with `M_parser_init` (372-385). -/
def create (track : Bool) : P :=
  { const := false, mem := [], pos := 0, len := 0, consumed := 0, markU := none, markI := none, track := track, line := 0, col := 0 }

/-- `base/data/m_parser.c:387-397`, `M_parser_create_const` with `M_parser_init` (372-385). -/
def createConst (bytes : List UInt8) (track : Bool) : P :=
  { const := true, mem := bytes, pos := 0, len := bytes.length, consumed := 0, markU := none, markI := none, track := track, line := 0, col := 0 }

/-- `base/data/m_parser.c:48-52`: the smaller of the selected marks. -/
def minMark (p : P) (u i : Bool) : Option Nat :=
  let m := if u then p.markU else none
  if i then
    match p.markI, m with
    | some k, none => some k
    | some k, some x => if k < x then some k else some x
    | none, m => m
  else m

/-- `base/data/m_parser.c:40-67`, `M_parser_marked_buffer_start`: start offset and marked length. -/
def markedStart (p : P) (u i : Bool) : Nat × Nat :=
  match minMark p u i with
  | none => (p.pos, 0)
  | some m => (m, (p.pos + W - m) % W)

/-- `base/data/m_parser.c:70-94`, `M_parser_mark_int` for the user mark, `M_parser_mark` (588-591). -/
def mark (p : P) : P := { p with markU := some p.pos }

/-- `base/data/m_parser.c:70-94`, `M_parser_mark_int` for the internal mark. -/
def markInt (p : P) : P := { p with markI := some p.pos }

/-- `base/data/m_parser.c:97-121`, `M_parser_mark_clear_int`. -/
def markClear (p : P) (u i : Bool) : Option P :=
  let s := if p.const = true ∨ p.mem = [] then (0, 0) else markedStart p true true
  let q := { p with markU := if u then none else p.markU, markI := if i then none else p.markI }
  if s.2 ≠ 0 ∧ q.markI = none ∧ q.markU = none then
    (wr q.mem s.1 (List.replicate s.2 0xFF)).map fun m => { q with mem := m }
  else some q

/-- `base/data/m_parser.c:427-447`, the moving half of `M_parser_ensure_space`, and the length kept. -/
def compact (p : P) : Option (P × Nat × Nat) :=
  if p.mem = [] then some (p, 0, 0)
  else
    let s := markedStart p true true
    let keep := (p.len + s.2) % W
    if s.1 ≠ 0 ∧ keep ≠ 0 then
      ((rd p.mem s.1 keep).bind (wr p.mem 0)).map fun m =>
        ({ p with mem := m, pos := s.2, markI := p.markI.map (· - s.1), markU := p.markU.map (· - s.1) }, keep, s.2)
    else some ({ p with pos := s.2 }, keep, s.2)

/-- `base/data/m_parser.c:421-460`, `M_parser_ensure_space`. -/
def ensureSpace (g : Nat → UInt8) (p : P) (len : Nat) : Option P :=
  (compact p).map fun r =>
    if len = 0 then r.1
    else if r.1.mem = [] ∨ len > (r.1.mem.length + W - r.2.1) % W then
      { r.1 with mem := (realloc g r.1.mem (Bithacks.roundUp64 ((r.2.1 + len) % W))).take (Bithacks.roundUp64 ((r.2.1 + len) % W)), pos := r.2.2 }
    else r.1

/-- `base/data/m_parser.c:463-486`, `M_parser_append`. -/
def append (g : Nat → UInt8) (p : P) (bytes : List UInt8) : Option (P × Bool) :=
  if p.const = true then some (p, false)
  else if bytes.length = 0 then some (p, true)
  else (ensureSpace g p bytes.length).bind fun p =>
    (wr p.mem (p.pos + p.len) bytes).map fun m => ({ p with mem := m, len := p.len + bytes.length }, true)

/-- `base/data/m_parser.c:489-506`, `M_parser_direct_write_start`, a caller that stores `bytes` at the pointer returned,
and `M_parser_direct_write_end`. -/
def directWrite (g : Nat → UInt8) (p : P) (req : Nat) (bytes : List UInt8) : Option P :=
  if p.const = true then some p
  else (ensureSpace g p req).bind fun p =>
    (wr p.mem (p.pos + p.len) bytes).map fun m => { p with mem := m, len := p.len + bytes.length }

/-- `base/data/m_parser.c:512-517`, `M_parser_len`. -/
def plen (p : P) : Nat := p.len

/-- `base/data/m_parser.c:520-525`, `M_parser_current_offset`. -/
def offset (p : P) : Nat := p.consumed

/-- `base/data/m_parser.c:528-533`, `M_parser_current_line`. -/
def curLine (p : P) : Nat := if p.track then p.line + 1 else 0

/-- `base/data/m_parser.c:536-541`, `M_parser_current_column`. -/
def curCol (p : P) : Nat := if p.track then p.col + 1 else 0

/-- `base/data/m_parser.c:600-605`, `M_parser_mark_len`. -/
def markLen (p : P) : Nat := (markedStart p true false).2

/-- `base/data/m_parser.c:706-712`, `M_parser_peek`: the bytes readable from the pointer on. -/
def peek (p : P) : List UInt8 := p.mem.drop p.pos

/-- `base/data/m_parser.c:715-721`, `M_parser_peek_mark`: the marked bytes, `none` if they lie outside the buffer. -/
def peekMark (p : P) : Option (List UInt8) := rd p.mem (markedStart p true false).1 (markedStart p true false).2

/-- `base/data/m_parser.c:734-741`, `M_parser_peek_bytes`; `M_parser_peek_byte` (724-731) is the case of one byte. -/
def peekBytes (p : P) (n : Nat) : Option (List UInt8 × Bool) :=
  if p.len < n ∨ n = 0 then some ([], false) else (rd p.mem p.pos n).map (·, true)

/-- `base/data/m_parser.c:656-660`, the column found by scanning back to the previous line feed. -/
def scanBack : List UInt8 → Nat
  | [] => 0
  | c :: cs => if c = 10 then 0 else scanBack cs + 1

/-- `base/data/m_parser.c:634-640`, a mark behind the new position is dropped. -/
def keepMark (m : Option Nat) (pos : Nat) : Option Nat := m.bind fun k => if k > pos then none else some k

/-- `base/data/m_parser.c:610-664`, `M_parser_rewind_int`. -/
def rewindInt (p : P) (n : Nat) : Option (P × Bool) :=
  if n = 0 then some (p, false)
  else if n > p.pos then some (p, false)
  else
    let q := { p with pos := p.pos - n, len := p.len + n, consumed := p.consumed - n, markI := keepMark p.markI (p.pos - n), markU := keepMark p.markU (p.pos - n) }
    if p.track then
      (rd p.mem q.pos n).bind fun bs =>
        if p.mem.length < q.pos then none
        else some ({ q with line := q.line - (bs.filter (· = 10)).length, col := scanBack (p.mem.take q.pos).reverse }, true)
    else some (q, true)

/-- `base/data/m_parser.c:667-686`, `M_parser_mark_rewind` with `M_parser_mark_rewind_int` for the user mark. -/
def markRewind (p : P) : Option (P × Nat) :=
  if markLen p ≠ 0 then (rewindInt p (markLen p)).map fun r => (r.1, markLen p) else some (p, 0)

/-- `base/data/m_parser.c:667-680`, `M_parser_mark_rewind_int` for the internal mark. -/
def rewindMarkInt (p : P) : Option (P × Nat) :=
  if (markedStart p false true).2 ≠ 0 then (rewindInt p (markedStart p false true).2).map fun r => (r.1, (markedStart p false true).2) else some (p, 0)

/-- `base/data/m_parser.c:689-701`, `M_parser_reset`. -/
def reset (p : P) : Option (P × Nat) :=
  if p.const = false ∧ p.mem ≠ [] then some (p, 0)
  else (rewindInt p p.consumed).map fun r => (r.1, if r.2 then p.consumed else 0)

/-- `base/data/m_parser.c:746-762`, `M_parser_truncate`. -/
def truncate (p : P) (n : Nat) : Option (P × Bool) :=
  if p.len < n then some (p, false)
  else if p.const = false ∧ p.mem ≠ [] then
    (wr p.mem (p.pos + n) (List.replicate (p.len - n) 0xFF)).map fun m => ({ p with mem := m, len := n }, true)
  else some ({ p with len := n }, true)

/-- `base/data/m_parser.c:912-920`, line and column over the consumed bytes. -/
def advance (lc : Nat × Nat) : List UInt8 → Nat × Nat
  | [] => lc
  | c :: cs => advance (if c = 10 then (lc.1 + 1, 0) else (lc.1, lc.2 + 1)) cs

/-- `base/data/m_parser.c:901-934`, `M_parser_consume`. -/
def consume (p : P) (n : Nat) : Option (P × Bool) :=
  if n > p.len then some (p, false)
  else
    (rd p.mem p.pos n).bind fun bs =>
    (if p.const = false ∧ p.mem ≠ [] ∧ p.markU = none ∧ p.markI = none then wr p.mem p.pos (List.replicate n 0xFF) else some p.mem).map fun m =>
      ({ p with
          mem := m, pos := p.pos + n, len := p.len - n, consumed := p.consumed + n,
          line := if p.track then (advance (p.line, p.col) bs).1 else p.line,
          col := if p.track then (advance (p.line, p.col) bs).2 else p.col }, true)

/-- `base/data/m_parser.c:1205-1213`, `M_parser_read_bytes`; `M_parser_read_byte` (1194-1202) is the case of one byte. -/
def readBytes (p : P) (n : Nat) : Option (P × List UInt8 × Bool) :=
  if p.len < n ∨ n = 0 then some (p, [], false)
  else (rd p.mem p.pos n).bind fun bs => (consume p n).map fun r => (r.1, bs, true)

/-- `base/data/m_parser.c:124-145`, `M_parser_read_bytes_mark_int` into a buffer of `bufLen` bytes: the bytes stored; the
returned length is their number. -/
def readMark (p : P) (u i : Bool) (bufLen : Nat) : Option (P × List UInt8) :=
  if bufLen = 0 ∨ (markedStart p u i).2 = 0 ∨ (markedStart p u i).2 > bufLen then some (p, [])
  else (rd p.mem (markedStart p u i).1 (markedStart p u i).2).bind fun bs => (markClear p u i).map (·, bs)

/-- The readers that mark the position internally, consume as many bytes as a scan of the remaining bytes says, and copy
what was consumed into a buffer of `bufLen` (not zero) bytes: `M_parser_read_bytes_charset_int` (191-214),
`M_parser_read_bytes_until` (1233-1252), `M_parser_read_bytes_boundary` (1255-1275), `M_parser_read_bytes_predicate`
(1290-1306) of `base/data/m_parser.c`.  The scan `f` is given by its result on the remaining bytes. -/
def readVia (f : List UInt8 → Nat) (p : P) (bufLen : Nat) : Option (P × List UInt8) :=
  let q := markInt p
  (rd q.mem q.pos q.len).bind fun rest =>
  (consume q (f rest)).bind fun r =>
    if f rest = 0 then (markClear r.1 false true).map (·, [])
    else readMark r.1 false true bufLen

end Verif.Parser
