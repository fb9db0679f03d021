import Verif.Buf.Model
import Verif.Bithacks.Model
/-! Model of the buffer layer of `io/m_io_buffer.c`, between an application and the layer below, with the soft events of `M_io_read` and
`M_io_write` (`io/m_io.c`).

The buffers are those of `Verif.Buf`; `none` is an access outside of them.  The layer below holds the bytes that have arrived; a read gives
as many of them as there is room for, and fails if there are none.  A write to it takes any number of bytes; if it takes less than
all of them it reports later that it can take more.  Events are edge triggered: bytes that arrive where there were none are
reported once, other bytes may be.  The application is the topmost layer.  Not in the model: connections that end in an error, `M_io_buffer_reset_cb`, a layer
that buffers one direction only (the other is passed through). -/
namespace Verif.IoBuffer
open Verif.Buf (Buf W)
open Verif.Bithacks (roundUp64)

/-- `io/m_io_buffer.c:30-37`, `struct M_io_handle`. -/
structure Layer where
  maxR : Nat
  r : Buf
  hitR : Bool
  maxW : Nat
  w : Buf
  hitW : Bool

/-- `io/m_io_buffer.c:281-294`, `M_io_add_buffer`. -/
def add (maxR maxW : Nat) : Layer where
  maxR := roundUp64 maxR
  r := Buf.create
  hitR := false
  maxW := roundUp64 maxW
  w := Buf.create
  hitW := false

/-- `base/data/m_buf.c:115-125`, `M_buf_alloc_size`. -/
def allocSize (b : Buf) : Nat := if b.size = 0 then 1024 else b.size

/-- `io/m_io_buffer.c:62-76`: the size the read buffer may have now. -/
def target (h : Layer) : Nat :=
  let a :=
    if h.hitR then
      let a := roundUp64 (allocSize h.r + 1)
      if a > h.maxR then h.maxR else a
    else allocSize h.r
  if a < 16384 then 16384 else a

/-- `io/m_io_buffer.c:47-105`, `M_io_buffer_process_read_cb`: the layer, whether the event is consumed, and the bytes that were read.  The layer
below is asked for a number of bytes, and fails or gives bytes. -/
def processRead (g : Nat → UInt8) (h : Layer) (below : Nat → Option (List UInt8)) : Option (Layer × Bool × List UInt8) :=
  let a := target h
  let h := { h with hitR := false }
  let req := (a + W - h.r.len) % W
  if req = 0 then some (h, true, [])
  else
    (Buf.writeStart g h.r req).bind fun r =>
    match below r.2.2 with
    | none => some ({ h with r := r.1 }, true, [])
    | some bs =>
      (Buf.wr r.1.data r.2.1 bs).bind fun d => (Buf.writeEnd { r.1 with data := d } bs.length).map fun b =>
        ({ h with r := b, hitR := decide (bs.length ≥ req) }, decide (b.len ≠ bs.length), bs)

/-- `io/m_io_buffer.c:107-137`, `M_io_buffer_process_write_cb`: the layer, whether the event is consumed, and the bytes that were taken.  The layer
below is given bytes, and fails or says how many it has taken. -/
def processWrite (h : Layer) (below : List UInt8 → Option Nat) : Option (Layer × Bool × List UInt8) :=
  if h.w.len = 0 then some (h, false, [])
  else
    (Buf.rd h.w.data h.w.cons h.w.len).bind fun bs =>
    match below bs with
    | none => some (h, true, [])
    | some 0 => some (h, true, [])
    | some k => (Buf.drop h.w k).map fun b =>
        if h.hitW = false then ({ h with w := b }, true, bs.take k)
        else ({ h with w := b, hitW := false }, false, bs.take k)

/-- `io/m_io_buffer.c:173-204`, `M_io_buffer_read_cb` of up to `n` bytes: the bytes (none: the call would block), and whether a read event is
queued. -/
def readCb (h : Layer) (n : Nat) : Option (Layer × List UInt8 × Bool) :=
  let len := if h.r.len < n then h.r.len else n
  if len = 0 then some (h, [], false)
  else (Buf.rd h.r.data h.r.cons len).bind fun bs => (Buf.drop h.r len).map fun b => ({ h with r := b }, bs, h.hitR)

/-- `io/m_io_buffer.c:207-237`, `M_io_buffer_write_cb`: how many of the bytes are taken (none: the call would block). -/
def writeCb (g : Nat → UInt8) (h : Layer) (bs : List UInt8) : Option (Layer × Nat) :=
  let full := decide ((h.w.len + bs.length) % W ≥ h.maxW)
  let len := if full then (h.maxW + W - h.w.len) % W else bs.length
  let h := if full then { h with hitW := true } else h
  if len = 0 then some (h, 0)
  else (Buf.addBytes g h.w (bs.take len)).map fun b => ({ h with w := b }, len)

/-- The layer, those around it, and what they have exchanged. -/
structure St where
  h : Layer
  /-- bytes that have arrived below -/
  kern : List UInt8
  /-- the layer below will report that it can take bytes -/
  busy : Bool
  /-- events that wait for the layer -/
  rdEv : Bool
  wrEv : Bool
  /-- soft events that wait for the application -/
  usrR : Bool
  usrW : Bool
  /-- the application was told, and has not yet read until there was nothing more (written until no more was taken) -/
  toldR : Bool
  toldW : Bool
  /-- the application could not write all it wanted, and was not told since then -/
  blocked : Bool
  /-- what arrived, what the application has read, what it has written, what the layer below has taken -/
  inp : List UInt8
  got : List UInt8
  acc : List UInt8
  out : List UInt8

def init (maxR maxW : Nat) : St where
  h := add maxR maxW
  kern := []
  busy := false
  rdEv := false
  wrEv := false
  usrR := false
  usrW := false
  toldR := false
  toldW := false
  blocked := false
  inp := []
  got := []
  acc := []
  out := []

/-- A read of the layer below. -/
def lowRead (kern : List UInt8) (n : Nat) : Option (List UInt8) := if kern = [] then none else some (kern.take n)

/-- One step. -/
inductive Step (g : Nat → UInt8) : St → St → Prop
  | arrive {s} (bs : List UInt8) (again : Bool) : bs ≠ [] →
      Step g s { s with kern := s.kern ++ bs, inp := s.inp ++ bs, rdEv := s.rdEv || again || decide (s.kern = []) }
  | readEv {s h c bs} : s.rdEv = true → processRead g s.h (lowRead s.kern) = some (h, c, bs) →
      Step g s { s with h := h, rdEv := false, kern := s.kern.drop bs.length, toldR := s.toldR || !c }
  /-- `io/m_io.c:455-496`, `M_io_read` -/
  | read {s} {h : Layer} {bs : List UInt8} {soft : Bool} (n : Nat) : 0 < n → readCb s.h n = some (h, bs, soft) →
      Step g s { s with h := h, got := s.got ++ bs, rdEv := s.rdEv || soft,
                        usrR := if bs.length < n then false else true, toldR := if bs.length < n then false else s.toldR }
  | usrR {s : St} : s.usrR = true → Step g s { s with usrR := false, toldR := true }
  /-- `io/m_io.c:643-682`, `M_io_write` -/
  | write {s} {h : Layer} {k : Nat} (bs : List UInt8) : bs ≠ [] → s.h.maxW + bs.length < W → writeCb g s.h bs = some (h, k) →
      Step g s { s with h := h, acc := s.acc ++ bs.take k, wrEv := s.wrEv || decide (0 < k),
                        usrW := if k < bs.length then false else true, toldW := if k < bs.length then false else s.toldW,
                        blocked := if k < bs.length then true else s.blocked }
  /-- the layer below takes at most `k` bytes -/
  | writeEv {s h c bs} (k : Nat) : s.wrEv = true → processWrite s.h (fun l => some (min k l.length)) = some (h, c, bs) →
      Step g s { s with h := h, wrEv := false, out := s.out ++ bs, busy := s.busy || decide (bs.length < s.h.w.len),
                        toldW := s.toldW || !c, blocked := s.blocked && c }
  | usrW {s : St} : s.usrW = true → Step g s { s with usrW := false, toldW := true }
  | low {s : St} : s.busy = true → Step g s { s with busy := false, wrEv := true }

/-- The states that can be reached. -/
inductive Reach (g : Nat → UInt8) (maxR maxW : Nat) : St → Prop
  | init : Reach g maxR maxW (init maxR maxW)
  | step {s s'} : Reach g maxR maxW s → Step g s s' → Reach g maxR maxW s'

end Verif.IoBuffer
