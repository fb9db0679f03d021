/-! Model of `io/m_io_bwshaping.c`: the layer that limits the rate of reads and writes.

Times are in whole milliseconds: `M_time_timeval_diff` (`base/time/m_time_elapsed.c:41-49`) turns both times into milliseconds before it
subtracts.  Every reading of the clock is a reading of its own: a call gets a function `c` from the number of the reading to the time, and the
functions below pass on the number `k` of the next reading.  The ring of slots is a list with a capacity.  Counts of bytes are not
reduced modulo `2^64` (that many bytes are not moved); numbers that a user can set are.  Use of a slot that is `NULL` is `none`.
`M_io_bwshaping_reset_cb`, the registration of the timer and the locks are left out. -/
namespace Verif.Shaping

/-- One more than `M_UINT64_MAX`. -/
def W : Nat := 2 ^ 64

/-- `include/mstdlib/base/m_types.h:111`, `M_TIMEOUT_INF`. -/
def inf : Nat := W - 1

/-- Subtraction of `M_uint64`. -/
def wsub (a b : Nat) : Nat := (a + W - b % W) % W

/-- `M_time_elapsed`: never negative. -/
def elapsed (start now : Nat) : Nat := now - start

/-- `io/m_io_bwshaping.c:69-73`, `struct M_io_bwshaping_slot`. -/
structure Slot where
  bytes : Nat
  start : Nat
deriving DecidableEq, Repr

/-- `io/m_io_bwshaping.c:75-82`, `struct M_io_bwshaping_bwtrack`; the first slot is the oldest. -/
structure Track where
  bytes : Nat
  slots : List Slot
  size : Nat
deriving DecidableEq, Repr

/-- `io/m_io_bwshaping.c:85-100`, the settings of one direction: bytes per second, mode, period in seconds, frequency and latency in
milliseconds. -/
structure Conf where
  bps : Nat
  burst : Bool
  period : Nat
  freq : Nat
  lat : Nat
deriving DecidableEq, Repr

/-- `io/m_io_bwshaping.c:102-126`, the part of `struct M_io_handle` for one direction.  `full` is used for reading only. -/
structure Dir where
  conf : Conf
  tr : Track
  last : Nat
  total : Nat
  waiting : Bool
  full : Bool
deriving DecidableEq, Repr

/-- `io/m_io_bwshaping.c:102-126`, `struct M_io_handle`.  `timer` is the delay the timer was started with, `none` when it is stopped. -/
structure H where
  inn : Dir
  out : Dir
  disc : Bool
  timer : Option Nat
deriving DecidableEq, Repr

/-- `period_s * 1000` as an `M_uint64`. -/
def periodMs (f : Conf) : Nat := f.period * 1000 % W

/-- `io/m_io_bwshaping.c:203-215`, `M_io_bwshaping_bwtrack_remove_expired`; `bytes` and the slots that remain, and the next reading. -/
def expire (c : Nat → Nat) (keep : Nat) : Nat → List Slot → Nat → Nat × List Slot × Nat
  | bytes, [], k => (bytes, [], k)
  | bytes, s :: rest, k =>
    if elapsed s.start (c k) < keep then (bytes, s :: rest, k + 1)
    else expire c keep (bytes - s.bytes) rest (k + 1)

/-- `io/m_io_bwshaping.c:203-215` on the record. -/
def expired (c : Nat → Nat) (f : Conf) (tr : Track) (k : Nat) : Track × Nat :=
  let r := expire c (periodMs f) tr.bytes tr.slots k
  ({ tr with bytes := r.1, slots := r.2.1 }, r.2.2)

/-- `io/m_io_bwshaping.c:188-200`, `M_io_bwshaping_bwtrack_add`, the branch for a new slot: `M_io_bwshaping_slots_add`
(`io/m_io_bwshaping.c:145-151`) gives `NULL` when the ring is full, and that is used. -/
def newSlot (c : Nat → Nat) (n : Nat) (tr : Track) (k : Nat) : Option (Track × Nat) :=
  if tr.slots.length = tr.size then none
  else some ({ tr with bytes := tr.bytes + n, slots := tr.slots ++ [{ bytes := n, start := c k }] }, k + 1)

/-- `n` more bytes in the last slot. -/
def bump (n : Nat) : List Slot → List Slot
  | [] => []
  | [s] => [{ s with bytes := s.bytes + n }]
  | s :: t :: rest => s :: bump n (t :: rest)

/-- `io/m_io_bwshaping.c:188-200`, `M_io_bwshaping_bwtrack_add`. -/
def add (c : Nat → Nat) (f : Conf) (n : Nat) (tr : Track) (k : Nat) : Option (Track × Nat) :=
  match tr.slots.getLast? with
  | none => newSlot c n tr k
  | some s =>
    if elapsed s.start (c k) > f.freq then newSlot c n tr (k + 1)
    else some ({ tr with bytes := tr.bytes + n, slots := bump n tr.slots }, k + 1)

/-- `io/m_io_bwshaping.c:218-232`, `M_io_bwshaping_bwtrack_bytesinperiod`. -/
def inPeriod (c : Nat → Nat) (f : Conf) (tr : Track) (k : Nat) : Nat × Nat :=
  match tr.slots.getLast? with
  | none => (0, k)
  | some s => if elapsed s.start (c k) ≥ f.freq then (0, k + 1) else (s.bytes, k + 1)

/-- `io/m_io_bwshaping.c:253-257`: the bytes of one slot in mode trickle. -/
def perSlot (f : Conf) : Nat :=
  if f.bps * f.period % W / (periodMs f / f.freq) = 0 then 1 else f.bps * f.period % W / (periodMs f / f.freq)

/-- `io/m_io_bwshaping.c:242-259`, `M_io_bwshaping_bwtrack_max_size` after old slots are gone. -/
def allowed (c : Nat → Nat) (f : Conf) (tr : Track) (k : Nat) : Nat × Nat :=
  if f.bps = 0 then (W - 1, k)
  else if f.burst then
    (if f.bps * f.period % W ≤ tr.bytes then 0 else f.bps * f.period % W - tr.bytes, k)
  else
    let r := inPeriod c f tr k
    (wsub (perSlot f) r.1, r.2)

/-- `io/m_io_bwshaping.c:235-260`, `M_io_bwshaping_bwtrack_max_size`. -/
def maxSize (c : Nat → Nat) (f : Conf) (tr : Track) (k : Nat) : Nat × Track × Nat :=
  let e := expired c f tr k
  let a := allowed c f e.1 e.2
  (a.1, e.1, a.2)

/-- The slot that `io/m_io_bwshaping.c:275-287` looks at, and the time it counts down from. -/
def waitFor (f : Conf) (tr : Track) : Option (Slot × Nat) :=
  if f.burst then tr.slots.head?.map fun s => (s, periodMs f)
  else tr.slots.getLast?.map fun s => (s, f.freq)

/-- `io/m_io_bwshaping.c:263-290`, `M_io_bwshaping_bwtrack_next_ms`. -/
def nextMs (c : Nat → Nat) (f : Conf) (tr : Track) (k : Nat) : Option (Nat × Track × Nat) :=
  let m := maxSize c f tr k
  if m.1 ≠ 0 then some (0, m.2)
  else
    match waitFor f m.2.1 with
    | none => none
    | some w => some (wsub w.2 (elapsed w.1.start (c m.2.2)), m.2.1, m.2.2 + 1)

/-- `io/m_io_bwshaping.c:293-298`, `M_io_bwshaping_bwtrack_size`. -/
def slotsFor (f : Conf) : Nat := periodMs f / f.freq + 1

/-- `io/m_io_bwshaping.c:317-328`, `M_io_bwshaping_add_transfer`. -/
def transfer (c : Nat → Nat) (n : Nat) (d : Dir) (k : Nat) : Option (Dir × Nat) :=
  (add c d.conf n d.tr (k + 1)).map fun r => ({ d with total := d.total + n, last := c k, tr := r.1 }, r.2)

/-- `io/m_io_bwshaping.c:331-353`, `M_io_bwshaping_latency_next_ms`; `rd` is true for reading. -/
def latency (c : Nat → Nat) (rd : Bool) (d : Dir) (k : Nat) : Nat :=
  if d.conf.lat < elapsed d.last (c k) then 0
  else if rd && d.full then 0
  else d.conf.lat - elapsed d.last (c k)

/-- `io/m_io_bwshaping.c:360-394`, `M_io_bwshaping_timeout_direction`. -/
def timeoutDir (c : Nat → Nat) (rd disc : Bool) (d : Dir) (k : Nat) : Option (Nat × Dir × Nat) :=
  if (!rd && disc) = true then some (inf, d, k)
  else if d.conf.bps = 0 ∧ d.conf.lat = 0 then some (inf, d, k)
  else if d.waiting = false then some (inf, d, k)
  else (nextMs c d.conf d.tr k).map fun r => (max r.1 (latency c rd d r.2.2), { d with tr := r.2.1 }, r.2.2 + 1)

/-- `io/m_io_bwshaping.c:435-441`: the timer for the two times. -/
def arm (i o : Nat) : Option Nat := if min i o = inf then none else some (min i o)

/-- `io/m_io_bwshaping.c:427-442`, `M_io_bwshaping_set_timeout`. -/
def setTimeout (c : Nat → Nat) (h : H) (k : Nat) : Option (H × Nat) :=
  match timeoutDir c true h.disc h.inn k with
  | none => none
  | some i =>
    match timeoutDir c false h.disc h.out i.2.2 with
    | none => none
    | some o => some ({ h with inn := i.2.1, out := o.2.1, timer := arm i.1 o.1 }, o.2.2)

/-- What the layer below answers: so many bytes, would block, or an error. -/
inductive Lower
  | ok (n : Nat)
  | block
  | err
deriving DecidableEq, Repr

/-- What can be seen from outside.  `moved` has the time that the code keeps as the time of the transfer. -/
inductive Ev
  | moved (rd : Bool) (time n : Nat)
  | block (rd : Bool)
  | fail (rd : Bool)
  | soft (rd : Bool)
  | pass (rd : Bool)
  | eaten (rd : Bool)
  | total (rd : Bool) (n : Nat)
  | rate (rd : Bool) (n : Nat)
  | refused
deriving DecidableEq, Repr

/-- `io/m_io_bwshaping.c:564-566` and `:622-625`: the layer below moved less than it was asked for. -/
def lessThan (d : Dir) : Dir := { d with full := false, waiting := decide (d.conf.lat ≠ 0) }

/-- `io/m_io_bwshaping.c:546-566` and `:600-625`, the branch where something may be moved, `m` bytes at most.  The layer below does not
move more than it is asked for. -/
def go (c : Nat → Nat) (rd : Bool) (d : Dir) (len m : Nat) (res : Lower) (k : Nat) : Option (Dir × Ev × Nat) :=
  let d1 := { d with waiting := decide (m < len), full := rd && !decide (m < len) }
  match res with
  | .ok n =>
    (transfer c (min n (min len m)) d1 k).map fun r =>
      (if min n (min len m) < min len m then lessThan r.1 else r.1, .moved rd (c k) (min n (min len m)), r.2)
  | .block => some (lessThan d1, .block rd, k)
  | .err => some ({ d1 with full := false }, .fail rd, k)

/-- `io/m_io_bwshaping.c:524-570`, `M_io_bwshaping_write_cb`, and `io/m_io_bwshaping.c:578-629`, `M_io_bwshaping_read_cb`, without the
timer.  `SIZE_MAX` is `M_UINT64_MAX`. -/
def xfer (c : Nat → Nat) (rd : Bool) (d : Dir) (len : Nat) (res : Lower) : Option (Dir × Ev × Nat) :=
  if latency c rd d 0 ≠ 0 then some ({ d with waiting := true }, .block rd, 1)
  else
    let m := maxSize c d.conf d.tr 1
    if m.1 = 0 then some ({ d with tr := m.2.1, waiting := true }, .block rd, m.2.2)
    else go c rd { d with tr := m.2.1 } len m.1 res m.2.2

/-- The direction. -/
def get (h : H) (rd : Bool) : Dir := if rd then h.inn else h.out

/-- The direction replaced. -/
def put (h : H) (rd : Bool) (d : Dir) : H := if rd then { h with inn := d } else { h with out := d }

/-- `io/m_io_bwshaping.c:524-575` and `:578-633`: a write or a read. -/
def io (c : Nat → Nat) (h : H) (rd : Bool) (len : Nat) (res : Lower) : Option (H × List Ev) :=
  match xfer c rd (get h rd) len res with
  | none => none
  | some r => (setTimeout c (put h rd r.1) r.2.2).map fun x => (x.1, [r.2.1])

/-- `io/m_io_bwshaping.c:795-809`, `M_io_bwshaping_clear_state`. -/
def clear (d : Dir) : Dir := { d with tr := { bytes := 0, slots := [], size := slotsFor d.conf } }

/-- `io/m_io_bwshaping.c:812-833`, `M_io_bwshaping_set_throttle`. -/
def setThrottle (d : Dir) (bps : Nat) : Dir := clear { d with conf := { d.conf with bps } }

/-- `io/m_io_bwshaping.c:836-857`, `M_io_bwshaping_set_throttle_mode`. -/
def setMode (d : Dir) (burst : Bool) : Dir := clear { d with conf := { d.conf with burst } }

/-- `io/m_io_bwshaping.c:866`: the values are refused. -/
def badPeriod (period freq : Nat) : Bool := period = 0 || freq < 15 || period * 1000 % W ≤ freq

/-- `io/m_io_bwshaping.c:860-885`, `M_io_bwshaping_set_throttle_period`, with values that are not refused. -/
def setPeriod (d : Dir) (period freq : Nat) : Dir := clear { d with conf := { d.conf with period, freq } }

/-- `io/m_io_bwshaping.c:888-909`, `M_io_bwshaping_set_latency`. -/
def setLatency (c : Nat → Nat) (d : Dir) (lat : Nat) : Dir := { d with conf := { d.conf with lat }, last := c 0 }

/-- `io/m_io_bwshaping.c:404-424`, `M_io_bwshaping_range_ms`. -/
def rangeMs (c : Nat → Nat) (tr : Track) (k : Nat) : Nat :=
  match tr.slots with
  | [] => 1
  | s :: _ => if elapsed s.start (c k) = 0 then 1 else elapsed s.start (c k)

/-- `io/m_io_bwshaping.c:912-935`, `M_io_bwshaping_get_Bps`. -/
def getBps (c : Nat → Nat) (d : Dir) : Dir × Nat :=
  let e := expired c d.conf d.tr 0
  ({ d with tr := e.1 }, e.1.bytes * 1000 % W / rangeMs c e.1 e.2)

/-- The soft event of `io/m_io_bwshaping.c:461-471`. -/
def softIf (rd : Bool) (t : Nat) : List Ev := if t = 0 then [.soft rd] else []

/-- `num_wait` of `io/m_io_bwshaping.c:450-471`. -/
def numWait (h : H) (i o : Nat) : Nat :=
  (if h.inn.waiting then 1 else 0) + (if h.out.waiting then 1 else 0) - (if i = 0 then 1 else 0) - (if o = 0 then 1 else 0)

/-- `io/m_io_bwshaping.c:445-477`, `M_io_bwshaping_timer_cb`; the timer fires once.  A time of 0 for writing is not given while
disconnecting. -/
def timerCb (c : Nat → Nat) (h : H) : Option (H × List Ev) :=
  match timeoutDir c true h.disc h.inn 0 with
  | none => none
  | some i =>
    match timeoutDir c false h.disc h.out i.2.2 with
    | none => none
    | some o =>
      if numWait h i.1 o.1 > 0 then
        (setTimeout c { h with inn := i.2.1, out := o.2.1, timer := none } o.2.2).map fun x =>
          (x.1, softIf true i.1 ++ softIf false o.1)
      else some ({ h with inn := i.2.1, out := o.2.1, timer := none }, softIf true i.1 ++ softIf false o.1)

/-- `io/m_io_bwshaping.c:642-684`, `M_io_bwshaping_process_cb` for a read or write event. -/
def processCb (c : Nat → Nat) (h : H) (rd : Bool) : Option (H × List Ev) :=
  if (!rd && h.disc) = true then some (h, [.eaten rd])
  else
    match timeoutDir c rd h.disc (get h rd) 0 with
    | none => none
    | some r =>
      if r.1 = 0 then (setTimeout c (put h rd { r.2.1 with waiting := false }) r.2.2).map fun x => (x.1, [.pass rd])
      else if r.1 = inf then some (put h rd r.2.1, [.pass rd])
      else some (put h rd r.2.1, [.eaten rd])

/-- Calls and events. -/
inductive Op
  | io (rd : Bool) (len : Nat) (res : Lower)
  | throttle (rd : Bool) (bps : Nat)
  | mode (rd burst : Bool)
  | period (rd : Bool) (period freq : Nat)
  | latency (rd : Bool) (ms : Nat)
  | disconnect
  | timer
  | event (rd : Bool)
  | total (rd : Bool)
  | rate (rd : Bool)
deriving DecidableEq, Repr

/-- One call, with the clock during it. -/
def step (c : Nat → Nat) (h : H) : Op → Option (H × List Ev)
  | .io rd len res => io c h rd len res
  | .throttle rd bps => some (put h rd (setThrottle (get h rd) bps), [])
  | .mode rd burst => some (put h rd (setMode (get h rd) burst), [])
  | .period rd p f => some (if badPeriod p f then (h, [.refused]) else (put h rd (setPeriod (get h rd) p f), []))
  | .latency rd ms => some (put h rd (setLatency c (get h rd) ms), [])
  | .disconnect => some ({ h with disc := true }, [])
  | .timer => timerCb c h
  | .event rd => processCb c h rd
  | .total rd => some (h, [.total rd (get h rd).total])
  | .rate rd => some (put h rd (getBps c (get h rd)).1, [.rate rd (getBps c (get h rd)).2])

/-- A call and the readings of the clock it makes. -/
structure Call where
  op : Op
  c : Nat → Nat

/-- Calls one after the other. -/
def run (h : H) : List Call → Option (H × List Ev)
  | [] => some (h, [])
  | x :: xs =>
    match step x.c h x.op with
    | none => none
    | some r => (run r.1 xs).map fun y => (y.1, r.2 ++ y.2)

/-- `io/m_io_bwshaping.c:759-767`, the settings of a new layer. -/
def conf0 : Conf := { bps := 0, burst := true, period := 10, freq := 100, lat := 0 }

/-- One direction of a new layer. -/
def dir0 : Dir := clear { conf := conf0, tr := ⟨0, [], 0⟩, last := 0, total := 0, waiting := false, full := false }

/-- `io/m_io_bwshaping.c:748-792`, `M_io_add_bwshaping`. -/
def create : H := { inn := dir0, out := dir0, disc := false, timer := none }

/-- `io/m_io_bwshaping.c:496-521`, `M_io_bwshaping_accept_cb`: the layer of a connection that is accepted by `h`. -/
def accepted (h : H) : H :=
  { create with inn := { dir0 with conf := h.inn.conf }, out := { dir0 with conf := h.out.conf } }

end Verif.Shaping
