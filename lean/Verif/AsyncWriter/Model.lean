import Verif.Chr
/- Model of `log/m_async_writer.c`.  A step is what one thread does while it holds the lock, or one callback outside of it; other threads act
between the steps.  The queue is the list of its messages, the oldest first (the code inserts at the front and takes from the back).  Numbers
of bytes and messages are natural numbers: a run that queues or drops 2^64 of them is not modelled.  Callbacks that change the message
are not modelled, nor is `M_async_writer_is_alive`, whose only effect on the rest is to wake up the thread. -/
namespace Verif.AsyncWriter

abbrev Msg := List UInt8

/-- `log/m_async_writer.c:28-34`, `writer_state_t`. -/
inductive Mode where
  | stopped
  | running
  | flushStop
  | flushDestroy
  | destroying
deriving DecidableEq

/-- Where the internal thread is, `log/m_async_writer.c:210-296`. -/
inductive Pc where
  /-- There is no thread. -/
  | gone
  /-- Before the call of `pop_one` at 227. -/
  | top
  /-- At 127, waiting; with the mark that it was woken. -/
  | wait (woken : Bool)
  /-- Before the callback at 236. -/
  | notice (m : Option Msg) (c : BitVec 64) (n : Nat)
  /-- Before the callback at 251. -/
  | call (m : Option Msg) (c : BitVec 64) (n : Nat)
  /-- Before the lock at 254. -/
  | signal (m : Option Msg) (n : Nat) (ans : Bool)
  /-- Before the call of `replace_one` at 265. -/
  | putBack (m : Msg) (n : Nat)
  /-- Before the callback at 274. -/
  | stopCb
  /-- Before the lock at 276. -/
  | fin
  /-- Before the call of `destroy_int` at 291. -/
  | free
deriving DecidableEq

/-- `log/m_async_writer.c:36-65`, and: `pc` is the internal thread, `cmdWait` says that a thread waits in
`M_async_writer_set_command_block` (more are held by `block_cmd_lock`), `stopWait` is the number of those that wait in `M_async_writer_stop`,
`killWait` says that one waits in `M_async_writer_destroy_blocking`; `locked` says that the lock is held for ever and `freed` that the memory
was given back. -/
structure St where
  max : Nat
  cmd : BitVec 64
  force : Bool
  q : List Msg
  stored : Nat
  dropped : Nat
  mode : Mode
  cmdDone : Bool
  done : Bool
  pc : Pc
  cmdWait : Bool
  stopWait : Nat
  killWait : Bool
  locked : Bool
  freed : Bool
deriving DecidableEq

/-- `log/m_async_writer.c:302-346`, `M_async_writer_create`. -/
def create (max : Nat) : St where
  max := max
  cmd := 0
  force := false
  q := []
  stored := 0
  dropped := 0
  mode := .stopped
  cmdDone := true
  done := false
  pc := .gone
  cmdWait := false
  stopWait := 0
  killWait := false
  locked := false
  freed := false

/-- What became of a message that was written; only `added` is `M_TRUE`. -/
inductive WRes where
  | added
  | tooBig
  | refused
deriving DecidableEq

/-- What threads do.  `entered` says that the caller has to wait; its return is an event of its own. -/
inductive Ev where
  | write (m : Msg) (r : WRes)
  /-- A call that does not come back. -/
  | writeHang (m : Msg)
  | setMax (n : Nat)
  | setCmd (c : BitVec 64) (force ok : Bool)
  | block (c : BitVec 64) (ok : Bool)
  | blockRet
  | start (created ok : Bool)
  | stop (entered : Bool)
  | stopRet
  | destroy (flush : Bool)
  | kill (flush entered : Bool)
  | killRet (done : Bool)
  /-- The internal thread. -/
  | pop
  | wake
  | spurious
  | notice (n : Nat) (shutdown ans : Bool)
  | cb (m : Option Msg) (c : BitVec 64) (ans : Bool)
  | signal
  | putBack
  | stopCb
  | fin
  | free
deriving DecidableEq

/-- What comes of an event: it cannot happen, it uses memory that was given back, it starts a second internal thread, or the next state. -/
inductive Out where
  | no
  | ub
  | two
  | to (s : St)
deriving DecidableEq

/-- `log/m_async_writer.c:89-95`, `in_flush`. -/
def inFlush (s : St) : Bool := s.mode == .flushStop || s.mode == .flushDestroy

/-- `M_thread_cond_broadcast` on `cond_updated`. -/
def wakeUp (s : St) : St :=
  match s.pc with
  | .wait _ => { s with pc := .wait true }
  | _ => s

/-- `log/m_async_writer.c:664-678`: the oldest messages are dropped; `none` if the loop does not end, as taking from the empty list gives
a null pointer, whose length is 0. -/
def trim (max : Nat) : List Msg → Nat → Nat → Option (List Msg × Nat × Nat)
  | [], stored, dropped => if stored > max then none else some ([], stored, dropped)
  | o :: q, stored, dropped => if stored > max then trim max q (stored - o.length) (dropped + 1) else some (o :: q, stored, dropped)

/-- `log/m_async_writer.c:625-686`, `M_async_writer_write`; `none` if it does not come back. -/
def write (s : St) (m : Msg) : Option (WRes × St) :=
  if m.length = 0 then some (.refused, s)
  else if inFlush s then some (.refused, s)
  else if m.length > s.max then some (.tooBig, { s with dropped := s.dropped + 1 })
  else (trim s.max (s.q ++ [m]) (s.stored + m.length) s.dropped).map fun (q, st, d) => (.added, wakeUp { s with q := q, stored := st, dropped := d })

/-- What follows `pop_one`, `log/m_async_writer.c:229-242`. -/
def afterPop (m : Option Msg) (c : BitVec 64) (n : Nat) : Pc :=
  if n > 0 then .notice m c n else if m = none ∧ c = 0 then .stopCb else .call m c n

/-- What follows the callbacks, `log/m_async_writer.c:261-269`. -/
def afterCb (m : Option Msg) (n : Nat) (ans : Bool) : Pc :=
  match m, ans with
  | some m, false => .putBack m n
  | _, _ => .top

/-- The condition for waiting, `log/m_async_writer.c:125-126`. -/
def mustWait (s : St) : Bool := s.q.length == 0 && s.mode == .running && (!s.force || s.cmd == 0)

/-- `log/m_async_writer.c:104-174`, `pop_one`, after the lock was taken. -/
def pop (s : St) : St :=
  if mustWait s then { s with pc := .wait false }
  else if s.mode = .destroying ∨ s.mode = .stopped ∨ (inFlush s = true ∧ s.q.length = 0) then
    { s with pc := afterPop none 0 (if s.mode = .stopped then 0 else s.dropped + s.q.length) }
  else match s.q with
    | o :: q => { s with q := q, stored := s.stored - o.length, dropped := 0, cmd := 0, pc := afterPop (some o) s.cmd s.dropped }
    | [] => { s with cmd := 0, pc := afterPop none s.cmd 0 }

/-- `log/m_async_writer.c:180-207`, `replace_one`, and the end of the turn at 268.  Inserting after the last node of an empty list does nothing
(`base/list/m_llist.c:616-620`). -/
def replace (s : St) (m : Msg) (n : Nat) : St :=
  if m.length = 0 then { s with pc := .top }
  else
    let s := if s.dropped = 0 ∧ s.stored + m.length ≤ s.max then { s with q := if s.q = [] then [] else m :: s.q, stored := s.stored + m.length }
      else { s with dropped := s.dropped + 1 }
    { s with dropped := s.dropped + n, pc := .top }

/-- The events of the internal thread that take no lock. -/
def lockFree : Ev → Bool
  | .notice .. | .cb .. | .stopCb | .free => true
  | _ => false

/-- Whether some thread is at the place where the event happens; for calls from outside it always is. -/
def possible (s : St) : Ev → Bool
  | .write .. | .writeHang .. | .setMax .. | .setCmd .. | .block .. | .start .. | .stop .. | .destroy .. | .kill .. => true
  | .blockRet => s.cmdWait
  | .stopRet => s.stopWait > 0
  | .killRet _ => s.killWait
  | _ => s.pc ≠ .gone

/-- One event on memory that is there. -/
def act (s : St) : Ev → Out
  | .write m r => match write s m with
    | some (r', s') => if r = r' then .to s' else .no
    | none => .no
  | .writeHang m => match write s m with
    | some _ => .no
    | none => .to { s with locked := true }
  /- `log/m_async_writer.c:611-622` -/
  | .setMax n => .to { s with max := n }
  /- `log/m_async_writer.c:548-573` -/
  | .setCmd c f ok =>
    if inFlush s then (if ok then .no else .to s)
    else if ok then (let s' := { s with cmd := s.cmd ||| c, force := s.force || f }; .to (if f then wakeUp s' else s')) else .no
  /- `log/m_async_writer.c:576-608`; the calls of other threads are held at 582 -/
  | .block c ok =>
    if s.cmdWait then .no
    else if inFlush s then (if ok then .no else .to s)
    else if ok then .to { wakeUp { s with cmd := s.cmd ||| c, force := true } with cmdDone := false, cmdWait := true } else .no
  | .blockRet => if s.cmdWait ∧ s.cmdDone then .to { s with cmdWait := false } else .no
  /- `log/m_async_writer.c:439-467`; if no thread can be created, the lock is kept -/
  | .start created ok =>
    if s.mode ≠ .stopped then (if ok = (s.mode == .running) then .to s else .no)
    else if created then
      (if ok then (if s.pc = .gone then .to { s with done := false, cmdDone := true, pc := .top, mode := .running } else .two) else .no)
    else if ok then .no else .to { s with done := false, cmdDone := true, locked := true }
  /- `log/m_async_writer.c:521-545` -/
  | .stop entered =>
    if s.mode ≠ .running then (if entered then .no else .to s)
    else if entered then .to (wakeUp { s with mode := .stopped, stopWait := s.stopWait + 1 }) else .no
  | .stopRet => if s.stopWait > 0 ∧ s.done then .to { s with stopWait := s.stopWait - 1 } else .no
  /- `log/m_async_writer.c:349-375` -/
  | .destroy flush =>
    if s.mode = .flushDestroy ∨ s.mode = .destroying then .to s
    else if s.mode = .stopped then .to { s with freed := true }
    else .to (wakeUp { s with mode := if flush then .flushDestroy else .destroying })
  /- `log/m_async_writer.c:378-436`; a second call that waits is not modelled -/
  | .kill flush entered =>
    if s.mode = .destroying ∨ inFlush s then (if entered then .no else .to s)
    else if s.mode = .stopped then (if entered then .no else .to { s with freed := true })
    else if entered ∧ ¬ s.killWait then .to (wakeUp { s with mode := if flush then .flushStop else .stopped, killWait := true }) else .no
  | .killRet d =>
    if ¬ s.killWait ∨ d ≠ s.done then .no
    else if d then .to { s with freed := true, killWait := false }
    else .to (wakeUp { s with mode := .destroying, killWait := false })
  | .pop => if s.pc = .top then .to (pop s) else .no
  | .wake => if s.pc = .wait true then .to (pop s) else .no
  | .spurious => if s.pc = .wait false then .to (pop s) else .no
  /- `log/m_async_writer.c:229-242`, 250, 264 -/
  | .notice n sh ans =>
    match s.pc with
    | .notice m c k =>
      if n = k ∧ sh = decide (m = none ∧ c = 0) then
        .to { s with pc := if m = none ∧ c = 0 then .stopCb else if ans then .call m c k else afterCb m k false }
      else .no
    | _ => .no
  /- `log/m_async_writer.c:250-253` -/
  | .cb m c ans =>
    match s.pc with
    | .call m' c' n => if m = m' ∧ c = c' then .to { s with pc := if c ≠ 0 then .signal m n ans else afterCb m n ans } else .no
    | _ => .no
  /- `log/m_async_writer.c:254-257` -/
  | .signal =>
    match s.pc with
    | .signal m n ans => .to { s with cmdDone := true, pc := afterCb m n ans }
    | _ => .no
  | .putBack =>
    match s.pc with
    | .putBack m n => .to (replace s m n)
    | _ => .no
  /- `log/m_async_writer.c:271-275` -/
  | .stopCb => if s.pc = .stopCb then .to { s with pc := .fin } else .no
  /- `log/m_async_writer.c:276-295` -/
  | .fin =>
    if s.pc = .fin then
      let mode := if s.mode = .flushDestroy then .destroying else if s.mode = .flushStop then .stopped else s.mode
      .to { s with cmdDone := true, done := true, mode := mode, pc := if mode = .destroying then .free else .gone }
    else .no
  /- `log/m_async_writer.c:68-83`, `destroy_int`, called at 291 -/
  | .free => if s.pc = .free then .to { s with freed := true, pc := .gone } else .no

/-- One event. -/
def step (s : St) (e : Ev) : Out :=
  if possible s e = false then .no
  else if s.freed then .ub
  else if s.locked ∧ lockFree e = false then .no
  else act s e

/-- A run of events. -/
def run : St → List Ev → Option St
  | s, [] => some s
  | s, e :: es => match step s e with
    | .to s' => run s' es
    | _ => none

end Verif.AsyncWriter
