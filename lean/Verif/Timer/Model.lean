/-! Model of `io/m_event_timer.c`: the timers of an event loop, the thread of the loop, and any number of threads that use the timers.

Times are in microseconds.  The queue of timers is a sorted list (`M_queue_t` with a comparison): where a timer goes among equal ones is
left open.  Sections under the lock of the event are one step; the fields that the code changes without the lock change in one step too.
Identifiers stand for addresses and are not used again; users do not use a timer they have removed. -/
namespace Verif.Timer

/-- `io/m_event_timer.c:28-52`, `struct M_event_timer`, without the callback.  Zero is "not set" in `endTv`, `startTv` and `next`.
`executing` is a place in the state, see `St`. -/
structure T where
  next : Nat
  last : Nat
  interval : Nat
  fireCnt : Nat
  cnt : Nat
  started : Bool
  auto : Bool
  delay : Bool
  endTv : Nat
  startTv : Nat
  relative : Bool
deriving DecidableEq, Repr

/-- `base/time/m_time_elapsed.c:41-49`, `M_time_timeval_diff`: seconds and microseconds are turned into whole milliseconds before the
subtraction. -/
def ms (t : Nat) : Nat := t / 1000

/-- `base/time/m_time_elapsed.c:41-49`, `M_time_timeval_diff`. -/
def diff (start stop : Nat) : Int := (ms stop : Int) - ms start

/-- `io/m_event_timer.c:56`, `INTERVAL_MAX`. -/
def intervalMax : Nat := 30 * 86400 * 1000

/-- `io/m_event_timer.c:58-92`, `M_event_timer_compar_cb`. -/
def cmp (t1 t2 : T) : Int :=
  if t1.started = false ∧ t2.started = false then 0
  else if t1.started = false ∧ t2.started = true then 1
  else if t1.started = true ∧ t2.started = false then -1
  else if diff t2.next t1.next < 0 then -1
  else if diff t2.next t1.next > 0 then 1
  else if diff t2.last t1.last < 0 then -1
  else if diff t2.last t1.last > 0 then 1
  else 0

/-- `io/m_event_timer.c:244-284`, `M_event_timer_schedule`, with the counter `now` and the time of day `wall`. -/
def schedule (t : T) (now wall : Nat) : T × Bool :=
  if t.interval = 0 ∧ t.fireCnt ≠ 1 then (t, false)
  else
    let base := if t.next = 0 ∨ t.relative = true then now else t.next
    if t.startTv ≠ 0 then
      let d := (diff wall t.startTv).toNat
      if d > intervalMax then ({ t with next := base }, false)
      else ({ t with next := base + d * 1000, startTv := 0 }, true)
    else ({ t with next := base + t.interval * 1000 }, true)

/-- What has happened, for the statements only.  `start` has the result, the time, the delay in milliseconds and whether it was called
while the callback of the same timer ran; `fire` has the time and the time at which the timer was due. -/
inductive Ev
  | start (i : Nat) (ok : Bool) (time delay : Nat) (own : Bool)
  | stop (i : Nat)
  | remove (i : Nat)
  | setCnt (i n : Nat)
  | fire (i time due : Nat)
deriving DecidableEq, Repr

/-- The event loop.  `q`: the queue of timers; `exec`: the timer whose callback runs; `pass`: the local variables `curr` and
`last_timer` of `M_event_timer_process`; `pend`: the removals queued as tasks; `log` has the latest event first. -/
structure St where
  q : List (Nat × T)
  exec : Option (Nat × T)
  pass : Option (Nat × Option Nat)
  pend : List Nat
  now : Nat
  used : List Nat
  log : List Ev
deriving DecidableEq, Repr

def init (now : Nat) : St := ⟨[], none, none, [], now, [], []⟩

/-- `io/m_event_timer.c:95-107`, `M_event_timer_enqueue`: somewhere in the queue so that it stays sorted. -/
def Ins (x : Nat × T) (q q' : List (Nat × T)) : Prop :=
  ∃ l1 l2, q = l1 ++ l2 ∧ q' = l1 ++ x :: l2 ∧ (∀ y ∈ l1, cmp y.2 x.2 ≤ 0) ∧ ∀ y ∈ l2, cmp x.2 y.2 ≤ 0

/-- `io/m_event_timer.c:110-115`, `M_event_timer_dequeue`. -/
def dequeue (i : Nat) (q : List (Nat × T)) : List (Nat × T) := q.filter (·.1 ≠ i)

/-- `io/m_event_timer.c:118-140`, `M_event_timer_add`. -/
def fresh : T := ⟨0, 0, 0, 0, 0, false, false, false, 0, 0, true⟩

/-- `io/m_event_timer.c:287-316`, `M_event_timer_start`, the record. -/
def start (t : T) (interval now wall : Nat) : T × Bool :=
  let r := schedule { t with interval := interval, cnt := 0, next := 0 } now wall
  if r.2 then ({ r.1 with started := true }, true) else r

/-- The delay that `M_event_timer_start` is asked for, in milliseconds. -/
def delayOf (t : T) (interval wall : Nat) : Nat := if t.startTv ≠ 0 then (diff wall t.startTv).toNat else interval

/-- `io/m_event_timer.c:574-578`, `M_event_timer_process`: a timer that has fired often enough stops. -/
def stopIfDone (t : T) : T := if t.fireCnt ≠ 0 ∧ t.cnt ≥ t.fireCnt then { t with started := false } else t

/-- `io/m_event_timer.c:574-598`, `M_event_timer_process` after the callback: the timer to put back, if it is not freed. -/
def after (t : T) (now wall : Nat) : Option T :=
  let t1 := stopIfDone t
  if t1.started = false ∧ t1.auto = true then none
  else if t1.delay = true then none
  else
    let t2 := { t1 with last := now }
    some (if t2.started then (schedule t2 now wall).1 else t2)

/-- `io/m_event_timer.c:536-543`, `M_event_timer_process`: whether the timer has expired. -/
def expired (t : T) (wall : Nat) : Bool := t.endTv ≠ 0 ∧ diff wall t.endTv ≤ 0

/-- `io/m_event_timer.c:529-530`, the condition of the loop of `M_event_timer_process` for the first timer of the queue. -/
def dueFirst (curr : Nat) (last : Option Nat) (x : Nat × T) : Bool := last ≠ some x.1 ∧ x.2.started = true ∧ diff x.2.next curr ≥ 0

/-- One step.  `wall` is the time of day, about which nothing is assumed. -/
inductive Step : St → St → Prop
  /-- the counter of `M_time_elapsed_start` grows -/
  | tick {s : St} (now : Nat) : s.now ≤ now → Step s { s with now := now }
  /-- `io/m_event_timer.c:118-140`, `M_event_timer_add` -/
  | add {s : St} {i : Nat} {q' : List (Nat × T)} : i ∉ s.used → Ins (i, fresh) s.q q' → Step s { s with q := q', used := i :: s.used }
  /-- `io/m_event_timer.c:287-316`, `M_event_timer_start` -/
  | start {s : St} {i : Nat} {t : T} {q' : List (Nat × T)} (interval wall : Nat) : (i, t) ∈ s.q → interval ≤ intervalMax →
      Ins (i, (start t interval s.now wall).1) (dequeue i s.q) q' →
      Step s { s with q := q', log := .start i (start t interval s.now wall).2 s.now (delayOf t interval wall) false :: s.log }
  /-- `io/m_event_timer.c:287-316`, `M_event_timer_start` while the callback of the timer runs -/
  | startExec {s : St} {i : Nat} {t : T} (interval wall : Nat) : s.exec = some (i, t) → interval ≤ intervalMax →
      Step s { s with exec := some (i, (start t interval s.now wall).1),
                      log := .start i (start t interval s.now wall).2 s.now (delayOf t interval wall) true :: s.log }
  /-- `io/m_event_timer.c:319-337`, `M_event_timer_stop_int` -/
  | stop {s : St} {i : Nat} {t : T} {q' : List (Nat × T)} : (i, t) ∈ s.q → Ins (i, { t with started := false }) (dequeue i s.q) q' →
      Step s { s with q := q', log := .stop i :: s.log }
  /-- `io/m_event_timer.c:319-337`, `M_event_timer_stop_int` -/
  | stopExec {s : St} {i : Nat} {t : T} : s.exec = some (i, t) →
      Step s { s with exec := some (i, { t with started := false }), log := .stop i :: s.log }
  /-- `io/m_event_timer.c:360-377`, `M_event_timer_adjust` -/
  | setInterval {s : St} {i : Nat} {t : T} {l1 l2 : List (Nat × T)} (interval : Nat) : s.q = l1 ++ (i, t) :: l2 → interval ≠ 0 → interval ≤ intervalMax →
      Step s { s with q := l1 ++ (i, { t with interval := interval }) :: l2 }
  /-- `io/m_event_timer.c:360-377`, `M_event_timer_adjust` -/
  | setIntervalExec {s : St} {i : Nat} {t : T} (interval : Nat) : s.exec = some (i, t) → interval ≠ 0 → interval ≤ intervalMax →
      Step s { s with exec := some (i, { t with interval := interval }) }
  /-- `io/m_event_timer.c:414-421`, `M_event_timer_set_firecount` -/
  | setCnt {s : St} {i : Nat} {t : T} {l1 l2 : List (Nat × T)} (n : Nat) : s.q = l1 ++ (i, t) :: l2 →
      Step s { s with q := l1 ++ (i, { t with fireCnt := n }) :: l2, log := .setCnt i n :: s.log }
  /-- `io/m_event_timer.c:414-421`, `M_event_timer_set_firecount` -/
  | setCntExec {s : St} {i : Nat} {t : T} (n : Nat) : s.exec = some (i, t) →
      Step s { s with exec := some (i, { t with fireCnt := n }), log := .setCnt i n :: s.log }
  /-- `io/m_event_timer.c:380-441`, `M_event_timer_set_starttv`, `M_event_timer_set_endtv`, `M_event_timer_set_autoremove`,
  `M_event_timer_set_mode` -/
  | set {s : St} {i : Nat} {t : T} {l1 l2 : List (Nat × T)} (startTv endTv : Nat) (auto relative : Bool) : s.q = l1 ++ (i, t) :: l2 →
      Step s { s with q := l1 ++ (i, { t with startTv := startTv, endTv := endTv, auto := auto, relative := relative }) :: l2 }
  /-- `io/m_event_timer.c:380-441`, the same while the callback of the timer runs -/
  | setExec {s : St} {i : Nat} {t : T} (startTv endTv : Nat) (auto relative : Bool) : s.exec = some (i, t) →
      Step s { s with exec := some (i, { t with startTv := startTv, endTv := endTv, auto := auto, relative := relative }) }
  /-- `io/m_event_timer.c:145-193`, `M_event_timer_remove` by the thread of the loop -/
  | remove {s : St} {i : Nat} {t : T} : (i, t) ∈ s.q → Step s { s with q := dequeue i s.q, log := .remove i :: s.log }
  /-- `io/m_event_timer.c:145-193`, `M_event_timer_remove` in the callback of the timer -/
  | removeExec {s : St} {i : Nat} {t : T} : s.exec = some (i, t) →
      Step s { s with exec := some (i, { t with started := false, delay := true }), log := .remove i :: s.log }
  /-- `io/m_event_timer.c:145-193`, `M_event_timer_remove` by another thread -/
  | removeOther {s : St} {i : Nat} {t : T} {q' : List (Nat × T)} : (i, t) ∈ s.q → Ins (i, { t with started := false }) (dequeue i s.q) q' →
      Step s { s with q := q', pend := i :: s.pend, log := .remove i :: s.log }
  /-- `io/m_event_timer.c:145-193`, `M_event_timer_remove` by another thread while the callback of the timer runs -/
  | removeOtherExec {s : St} {i : Nat} {t : T} : s.exec = some (i, t) →
      Step s { s with exec := some (i, { t with started := false }), pend := i :: s.pend, log := .remove i :: s.log }
  /-- `io/m_event_timer.c:196-208`, `M_event_timer_remove_cb` -/
  | removeCb {s : St} {i : Nat} : i ∈ s.pend → s.pass = none → Step s { s with q := dequeue i s.q, pend := s.pend.erase i }
  /-- `io/m_event_timer.c:520-527`, `M_event_timer_process` -/
  | enter {s : St} : s.pass = none → Step s { s with pass := some (s.now, none) }
  /-- `io/m_event_timer.c:529-553`, `M_event_timer_process`: the callback is called -/
  | fire {s : St} {x : Nat × T} {q : List (Nat × T)} {curr : Nat} {last : Option Nat} (wall : Nat) : s.pass = some (curr, last) → s.exec = none →
      s.q = x :: q → dueFirst curr last x = true → expired x.2 wall = false →
      Step s { s with q := q, exec := some (x.1, { x.2 with cnt := x.2.cnt + 1 }), pass := some (curr, some x.1),
                      log := .fire x.1 s.now x.2.next :: s.log }
  /-- `io/m_event_timer.c:529-543`, `M_event_timer_process`: the timer has expired and is freed or put back -/
  | expireFree {s : St} {x : Nat × T} {q : List (Nat × T)} {curr : Nat} {last : Option Nat} (wall : Nat) : s.pass = some (curr, last) → s.exec = none →
      s.q = x :: q → dueFirst curr last x = true → expired x.2 wall = true → after { x.2 with started := false } s.now wall = none →
      Step s { s with q := q, pass := some (curr, some x.1) }
  /-- `io/m_event_timer.c:529-605`, the same when it is put back -/
  | expireKeep {s : St} {x : Nat × T} {q q' : List (Nat × T)} {curr : Nat} {last : Option Nat} {t : T} (wall : Nat) : s.pass = some (curr, last) →
      s.exec = none → s.q = x :: q → dueFirst curr last x = true → expired x.2 wall = true → after { x.2 with started := false } s.now wall = some t →
      Ins (x.1, t) q q' → Step s { s with q := q', pass := some (s.now, some x.1) }
  /-- `io/m_event_timer.c:555-590`, `M_event_timer_process` after the callback, the timer is freed -/
  | retFree {s : St} {i : Nat} {t : T} (wall : Nat) : s.exec = some (i, t) → after t s.now wall = none → Step s { s with exec := none }
  /-- `io/m_event_timer.c:555-605`, `M_event_timer_process` after the callback, the timer is put back -/
  | retKeep {s : St} {i : Nat} {t t' : T} {q' : List (Nat × T)} {last : Option Nat} {curr : Nat} (wall : Nat) : s.exec = some (i, t) →
      s.pass = some (curr, last) → after t s.now wall = some t' → Ins (i, t') s.q q' → Step s { s with exec := none, q := q', pass := some (s.now, last) }
  /-- `io/m_event_timer.c:529-530`, `M_event_timer_process` ends -/
  | leave {s : St} {curr : Nat} {last : Option Nat} : s.pass = some (curr, last) → s.exec = none → (∀ x q, s.q = x :: q → dueFirst curr last x = false) →
      Step s { s with pass := none }

inductive Reach (now : Nat) : St → Prop
  | init : Reach now (init now)
  | step {s s'} : Reach now s → Step s s' → Reach now s'

end Verif.Timer
