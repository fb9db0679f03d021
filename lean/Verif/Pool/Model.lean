/-! Model of `thread/m_threadpool.c`: any number of threads that dispatch tasks, wait for them or wait for a free pool thread, and
the pool's own threads.

The mutexes and condition variables are those of the system and trusted to behave as specified by POSIX: a section under a mutex
is one step, waiting on a condition releases the mutex and sleeps in the same step, a signal wakes one sleeping thread if there is
one, a broadcast wakes all of them, sleeping threads may wake without reason, and timed waits may end at any time.  Creating a
thread always succeeds. -/
namespace Verif.Pool

/-- The settings of a pool, `thread/m_threadpool.c:46-65`; `idle = none` stands for `M_UINT64_MAX`. -/
structure Cfg where
  minT : Nat
  maxT : Nat
  maxQ : Nat
  idle : Option Nat
deriving DecidableEq, Repr

/-- A dispatched task: the parent it belongs to and a name that distinguishes it from all other dispatched tasks. -/
structure Task where
  parent : Nat
  id : Nat
deriving DecidableEq, Repr

/-- `thread/m_threadpool.c:68-75`, `struct M_threadpool_parent`. -/
structure Parent where
  remaining : Int
  isWaiting : Bool
deriving DecidableEq, Repr

/-- Where a pool thread is. -/
inductive W
  /-- at the start of `M_threadpool_queue_fetch` -/
  | fetch
  /-- sleeping on `queue_ocond`, with or without a time limit -/
  | sleep (timed : Bool)
  /-- woken, by the time limit or otherwise, and not yet owner of the mutex -/
  | woken (timeout : Bool)
  /-- in the callbacks of a task -/
  | run (t : Task)
  /-- the callbacks have returned, the parent has not been told -/
  | done (t : Task)
  /-- `M_threadpool_queue_fetch` has returned false -/
  | exiting
  /-- ended -/
  | dead
deriving DecidableEq, Repr

/-- Where a thread that uses the pool is. -/
inductive C
  | idle
  /-- in the loop of `M_threadpool_queue_insert` with the tasks not yet queued and `i_just_woke_up` -/
  | ins (todo : List Task) (woke : Bool)
  /-- sleeping in that loop on `queue_icond` -/
  | inSleep (todo : List Task)
  | inWoken (todo : List Task)
  /-- sleeping in `M_threadpool_parent_wait` -/
  | wSleep (p : Nat)
  | wWoken (p : Nat)
  /-- sleeping in `M_threadpool_wait_available_thread` on `queue_icond` -/
  | avSleep
  | avWoken
  /-- sleeping in `M_threadpool_destroy` on `queue_icond` -/
  | dSleep
  | dWoken
  | dDone
deriving DecidableEq, Repr

/-- The pool, its threads `ws`, the threads that use it `cs`, and the parents.  `disp`, `insd`, `log` and `fin` only record what has
happened: the tasks dispatched, put into the queue, started and finished. -/
structure St where
  queue : List Task
  numT : Int
  numIdle : Int
  waiters : Int
  up : Bool
  ws : List W
  cs : List C
  ps : List Parent
  disp : List Task
  insd : List Task
  log : List Task
  fin : List Task
deriving DecidableEq, Repr

/-- `thread/m_threadpool.c:86-105`, `M_threadpool_queue_init`, the size of the queue; `w` is `SIZE_MAX`. -/
def queueSize (w maxT size : Nat) : Nat := if size = 0 then (if maxT < w / 8 then maxT * 8 else w) else size

/-- `thread/m_threadpool.c:342-373`, `M_threadpool_create`, the settings. -/
def mkCfg (w minT maxT : Nat) (idle : Option Nat) (size : Nat) : Cfg :=
  let maxT := if maxT < minT then minT else maxT
  let size := if size ≠ 0 ∧ size < maxT then 0 else size
  ⟨minT, maxT, queueSize w maxT size, idle⟩

/-- `thread/m_threadpool.c:342-373`, `M_threadpool_create`, with `n` threads that use the pool and `k` parents. -/
def init (c : Cfg) (n k : Nat) : St :=
  ⟨[], c.minT, 0, 0, true, List.replicate c.minT .fetch, List.replicate n .idle, List.replicate k ⟨0, false⟩, [], [], [], []⟩

/-- Sleeping on `queue_icond`. -/
def onI : C → Bool
  | .inSleep _ => true | .avSleep => true | .dSleep => true | _ => false

/-- Woken from `queue_icond`. -/
def wakeI : C → C
  | .inSleep todo => .inWoken todo | .avSleep => .avWoken | .dSleep => .dWoken | x => x

/-- `M_thread_cond_signal(pool->queue_icond)`. -/
def SignalI (cs cs' : List C) : Prop :=
  (∃ (j : Nat) (x : C), cs[j]? = some x ∧ onI x = true ∧ cs' = cs.set j (wakeI x)) ∨ ((∀ x ∈ cs, onI x = false) ∧ cs' = cs)

/-- Sleeping on `queue_ocond`. -/
def onO : W → Bool
  | .sleep _ => true | _ => false

/-- Woken from `queue_ocond`. -/
def wakeO : W → W
  | .sleep _ => .woken false | x => x

/-- `M_thread_cond_signal(pool->queue_ocond)`. -/
def SignalO (ws ws' : List W) : Prop :=
  (∃ (j : Nat) (x : W), ws[j]? = some x ∧ onO x = true ∧ ws' = ws.set j (wakeO x)) ∨ ((∀ x ∈ ws, onO x = false) ∧ ws' = ws)

/-- Woken from the condition of parent `p`. -/
def wakeP (p : Nat) : C → C
  | .wSleep q => if q = p then .wWoken q else .wSleep q
  | x => x

/-- `thread/m_threadpool.c:132-194`, `M_threadpool_queue_fetch` by pool thread `i`, from the top of the loop to the end of the section
under the mutex; also returns whether `queue_icond` is signalled. -/
def fetchBody (c : Cfg) (s : St) (i : Nat) (timeout : Bool) : St × Bool :=
  if s.up = false then ({ s with ws := s.ws.set i .exiting }, false)
  else match s.queue with
    | q :: rest => ({ s with queue := rest, log := s.log ++ [q], ws := s.ws.set i (.run q) }, decide (s.waiters ≠ 0))
    | [] =>
      if timeout = true ∧ s.numT > c.minT then ({ s with ws := s.ws.set i .exiting }, false)
      else if s.numT > c.minT ∧ c.idle ≠ none then
        -- with no idle time the loop continues at once: the queue is still empty and the thread ends
        if c.idle = some 0 then ({ s with ws := s.ws.set i .exiting }, decide (s.waiters ≠ 0))
        else ({ s with numIdle := s.numIdle + 1, ws := s.ws.set i (.sleep true) }, decide (s.waiters ≠ 0))
      else ({ s with numIdle := s.numIdle + 1, ws := s.ws.set i (.sleep false) }, decide (s.waiters ≠ 0))

/-- `thread/m_threadpool.c:202-240`, `M_threadpool_thread`, the end of a task of parent `pr`: the parent is told. -/
def notify (s : St) (i : Nat) (t : Task) (pr : Parent) : St :=
  let remaining := pr.remaining - 1
  { s with ps := s.ps.set t.parent { pr with remaining := remaining }, ws := s.ws.set i .fetch, fin := s.fin ++ [t],
           cs := if pr.isWaiting = true ∧ remaining = 0 then s.cs.map (wakeP t.parent) else s.cs }

/-- `thread/m_threadpool.c:202-240`, `M_threadpool_thread`, the end of the thread. -/
def exit (s : St) (i : Nat) : St :=
  let numT := s.numT - 1
  { s with numT := numT, ws := s.ws.set i .dead, cs := if s.up = false ∧ numT = 0 then s.cs.map wakeI else s.cs }

/-- `thread/m_threadpool.c:244-252` and `268-272`, `M_threadpool_thread_spawn` in `M_threadpool_queue_insert`. -/
def spawn (c : Cfg) (s : St) : St :=
  if s.numIdle ≤ s.queue.length ∧ s.numT < c.maxT then { s with numT := s.numT + 1, ws := s.ws ++ [.fetch] } else s

/-- `thread/m_threadpool.c:262-308`, `M_threadpool_queue_insert`, one iteration of the loop after the spawning; also returns whether
`queue_ocond` is signalled.  In the model other threads may run between two iterations, which allows more schedules than the
code. -/
def insBody (c : Cfg) (s : St) (i : Nat) (t : Task) (todo : List Task) (woke : Bool) : St × Bool :=
  if (s.waiters = 0 ∨ woke = true) ∧ c.maxQ > s.queue.length then
    ({ s with queue := s.queue ++ [t], insd := s.insd ++ [t], cs := s.cs.set i (if todo = [] then .idle else .ins todo true) }, true)
  else ({ s with waiters := s.waiters + 1, cs := s.cs.set i (.inSleep (t :: todo)) }, false)

/-- `thread/m_threadpool.c:437-466`, `M_threadpool_wait_available_thread`, the top of the loop. -/
def availBody (c : Cfg) (s : St) (i : Nat) : St :=
  if s.numIdle ≠ 0 ∨ s.numT < c.maxT then { s with cs := s.cs.set i .idle }
  else { s with waiters := s.waiters + 1, cs := s.cs.set i .avSleep }

/-- `thread/m_threadpool.c:485-499`, `M_threadpool_parent_wait`, the top of the loop, for parent `p` whose record is `pr`. -/
def waitBody (s : St) (i p : Nat) (pr : Parent) : St :=
  if pr.remaining = 0 then { s with ps := s.ps.set p { pr with isWaiting := false }, cs := s.cs.set i .idle }
  else { s with ps := s.ps.set p { pr with isWaiting := true }, cs := s.cs.set i (.wSleep p) }

/-- `thread/m_threadpool.c:316-339`, `M_threadpool_destroy`, the loop. -/
def destroyBody (s : St) (i : Nat) : St :=
  if s.numT ≠ 0 then { s with cs := s.cs.set i .dSleep } else { s with cs := s.cs.set i .dDone }

/-- In a call that uses the pool. -/
def usesPool : C → Bool
  | .ins _ _ => true | .inSleep _ => true | .inWoken _ => true | .avSleep => true | .avWoken => true | _ => false

/-- One step of a thread.  Nobody starts a call that uses the pool after `M_threadpool_destroy` has been called, and it is called
when no such call is under way. -/
inductive Step (c : Cfg) : St → St → Prop
  | fetch {s : St} {i : Nat} {cs' : List C} : s.ws[i]? = some .fetch →
      (if (fetchBody c s i false).2 then SignalI (fetchBody c s i false).1.cs cs' else cs' = (fetchBody c s i false).1.cs) →
      Step c s { (fetchBody c s i false).1 with cs := cs' }
  | resume {s : St} {i : Nat} {tm : Bool} {cs' : List C} : s.ws[i]? = some (.woken tm) →
      (if (fetchBody c { s with numIdle := s.numIdle - 1 } i tm).2 then SignalI (fetchBody c { s with numIdle := s.numIdle - 1 } i tm).1.cs cs'
        else cs' = (fetchBody c { s with numIdle := s.numIdle - 1 } i tm).1.cs) →
      Step c s { (fetchBody c { s with numIdle := s.numIdle - 1 } i tm).1 with cs := cs' }
  | finish {s : St} {i : Nat} {t : Task} : s.ws[i]? = some (.run t) → Step c s { s with ws := s.ws.set i (.done t) }
  | notify {s : St} {i : Nat} {t : Task} {pr : Parent} : s.ws[i]? = some (.done t) → s.ps[t.parent]? = some pr → Step c s (notify s i t pr)
  | exit {s : St} {i : Nat} : s.ws[i]? = some .exiting → Step c s (exit s i)
  | timeout {s : St} {i : Nat} : s.ws[i]? = some (.sleep true) → Step c s { s with ws := s.ws.set i (.woken true) }
  | spuriousO {s : St} {i : Nat} {b : Bool} : s.ws[i]? = some (.sleep b) → Step c s { s with ws := s.ws.set i (.woken false) }
  | spuriousI {s : St} {i : Nat} {x : C} : s.cs[i]? = some x → onI x = true → Step c s { s with cs := s.cs.set i (wakeI x) }
  | spuriousP {s : St} {i p : Nat} : s.cs[i]? = some (.wSleep p) → Step c s { s with cs := s.cs.set i (.wWoken p) }
  /-- `thread/m_threadpool.c:469-478`, `M_threadpool_dispatch_notify`. -/
  | dispatch {s : St} {i p : Nat} {pr : Parent} {ts : List Task} : s.cs[i]? = some .idle → s.up = true → s.ps[p]? = some pr → ts ≠ [] →
      (∀ t ∈ ts, t.parent = p) → (s.disp ++ ts).Nodup →
      Step c s { s with ps := s.ps.set p { pr with remaining := pr.remaining + ts.length }, disp := s.disp ++ ts, cs := s.cs.set i (.ins ts false) }
  | insert {s : St} {i : Nat} {t : Task} {todo : List Task} {woke : Bool} {ws' : List W} : s.cs[i]? = some (.ins (t :: todo) woke) →
      (if (insBody c (spawn c s) i t todo woke).2 then SignalO (insBody c (spawn c s) i t todo woke).1.ws ws'
        else ws' = (insBody c (spawn c s) i t todo woke).1.ws) →
      Step c s { (insBody c (spawn c s) i t todo woke).1 with ws := ws' }
  | insertResume {s : St} {i : Nat} {todo : List Task} : s.cs[i]? = some (.inWoken todo) →
      Step c s { s with waiters := s.waiters - 1, cs := s.cs.set i (.ins todo true) }
  | avail {s : St} {i : Nat} : s.cs[i]? = some .idle → s.up = true → Step c s (availBody c s i)
  | availResume {s : St} {i : Nat} {cs' : List C} : s.cs[i]? = some .avWoken →
      (if s.waiters - 1 ≠ 0 then SignalI s.cs cs' else cs' = s.cs) → Step c s (availBody c { s with waiters := s.waiters - 1, cs := cs' } i)
  | wait {s : St} {i p : Nat} {pr : Parent} : s.cs[i]? = some .idle → s.ps[p]? = some pr → Step c s (waitBody s i p pr)
  | waitResume {s : St} {i p : Nat} {pr : Parent} : s.cs[i]? = some (.wWoken p) → s.ps[p]? = some pr → Step c s (waitBody s i p pr)
  | destroy {s : St} {i : Nat} : s.cs[i]? = some .idle → s.up = true → (∀ x ∈ s.cs, usesPool x = false) →
      Step c s (destroyBody { s with up := false, ws := s.ws.map wakeO } i)
  | destroyResume {s : St} {i : Nat} : s.cs[i]? = some .dWoken → Step c s (destroyBody s i)

/-- The states that the pool with `n` users and `k` parents can reach. -/
inductive Reach (c : Cfg) (n k : Nat) : St → Prop
  | init : Reach c n k (init c n k)
  | step {s s'} : Reach c n k s → Step c s s' → Reach c n k s'

end Verif.Pool
