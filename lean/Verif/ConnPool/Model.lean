import Verif.Sql.Model
/-! Model of the connection pool of `sql/m_sql_connpool.c`: any number of threads that acquire and release the connections of one of its
two sub-pools (they share nothing but the lock).

The mutex and the condition variable are those of the system, with the behaviour POSIX specifies: a section under the mutex is one step,
waiting on the condition releases the mutex and sleeps in the same step, a signal wakes one sleeping thread if there is one, and threads
may wake without reason.  Connecting may fail, and takes any time.  Clocks are not in the model: whether a connection was idle or up for
too long is left open.  Choosing a host is left out.  A pool is modelled after `M_sql_connpool_start` has returned; starting it twice at
the same time, or using it before, is not. -/
namespace Verif.ConnPool
open Verif.Sql (CState)

/-- `sql/m_sql_connpool.c:37-41`, `M_sql_conn_info_t`. -/
inductive Info
  | new | up | failed
deriving DecidableEq, Repr

/-- `sql/m_sql_connpool.c:61-82`, `struct M_sql_conn`: the object and its `id`. -/
structure Conn where
  uid : Nat
  id : Nat
deriving DecidableEq, Repr

/-- Where a thread is. -/
inductive T
  /-- outside of the pool, without a connection -/
  | out
  /-- at the top of the loop of `M_sql_connpool_acquire_conn`, with `just_woken` and, if `newconn_failed`, `id` -/
  | enter (woken : Bool) (failed : Option Nat)
  /-- sleeping on the condition -/
  | sleep
  /-- woken, and not yet owner of the mutex -/
  | woken
  /-- in `M_sql_conn_create` -/
  | connecting (id : Nat)
  /-- connected, and not yet owner of the mutex -/
  | connected (c : Conn)
  /-- `M_sql_connpool_acquire_conn` has returned the connection -/
  | has (c : Conn)
  /-- it has returned NULL -/
  | refused
deriving DecidableEq, Repr

/-- `sql/m_sql_connpool.c:43-58`, `M_sql_connpool_data_t`, the fields `started` and, for each connection, `state`, and the threads.
`dead` records the connections that were freed, `fresh` is the next address. -/
structure St where
  conns : List Conn
  used : List Conn
  newConns : Nat
  max : Nat
  info : Nat → Info
  waiters : Nat
  started : Bool
  state : Nat → CState
  thr : List T
  dead : List Nat
  fresh : Nat

/-- Pointwise update. -/
def upd {β : Type _} (f : Nat → β) (i : Nat) (v : β) : Nat → β := fun j => if j = i then v else f j

/-- A pool of `max` connections that was started with `k` of them, and `n` threads; `sql/m_sql_connpool.c:531-571`,
`M_sql_connpool_spawn`. -/
def init (max k n : Nat) : St where
  conns := (List.range k).map fun i => ⟨i, i⟩
  used := []
  newConns := 0
  max := max
  info := fun i => if i < k then .up else .new
  waiters := 0
  started := true
  state := fun _ => .ok
  thr := List.replicate n .out
  dead := []
  fresh := k

/-- `sql/m_sql_connpool.c:854-864`, `M_sql_connpool_get_unused_id`, with `n` ids left to look at. -/
def unusedFrom (s : St) : Nat → Nat
  | 0 => 0
  | n + 1 => if s.info (s.max - (n + 1)) ≠ .up then s.max - (n + 1) else unusedFrom s n

def getUnused (s : St) : Nat := unusedFrom s s.max

/-- `sql/m_sql_connpool.c:928-959`: thread `i` under the lock, from the condition of the inner loop; `w` is `just_woken`, `exp` whether the
first idle connection was idle for too long. -/
def body (s : St) (i : Nat) (w exp : Bool) : St :=
  if (s.waiters ≠ 0 ∧ w = false) ∨ (s.conns = [] ∧ s.used.length + s.newConns = s.max) then
    { s with waiters := s.waiters + 1, thr := s.thr.set i .sleep }
  else
    match s.conns with
    | c :: rest =>
      if exp then { s with conns := rest, info := upd s.info c.id .new, dead := c.uid :: s.dead, thr := s.thr.set i (.enter w none) }
      else { s with conns := rest, used := s.used ++ [c], thr := s.thr.set i (.has c) }
    | [] =>
      { s with newConns := s.newConns + 1, info := upd s.info (getUnused s) .up, thr := s.thr.set i (.connecting (getUnused s)) }

/-- `sql/m_sql_connpool.c:901-959`: the part of the loop of `M_sql_connpool_acquire_conn` that is under the lock. -/
def top (s : St) (i : Nat) (w : Bool) (f : Option Nat) (exp : Bool) : St :=
  if s.started = false then { s with thr := s.thr.set i .refused }
  else
    match f with
    | none => body s i w exp
    | some id => body { s with newConns := s.newConns - 1, info := upd s.info id .failed } i w exp

/-- `sql/m_sql_connpool.c:932-934`: back from waiting. -/
def resume (s : St) (i : Nat) (exp : Bool) : St := body { s with waiters := s.waiters - 1 } i true exp

/-- `sql/m_sql_connpool.c:998-1028`: `M_sql_connpool_release_conn` of `c` by thread `i`; `exp`: it was up for too long.  The signal follows. -/
def release (s : St) (i : Nat) (c : Conn) (exp : Bool) : St :=
  let s := { s with used := s.used.erase c, thr := s.thr.set i .out }
  if s.state c.uid = .failed then { s with info := upd s.info c.id .failed, dead := c.uid :: s.dead }
  else if exp then { s with info := upd s.info c.id .new, dead := c.uid :: s.dead }
  else { s with state := upd s.state c.uid .ok, conns := s.conns ++ [c] }

/-- `M_thread_cond_signal`. -/
def Signal (l l' : List T) : Prop := (∃ j : Nat, l[j]? = some .sleep ∧ l' = l.set j .woken) ∨ ((∀ x ∈ l, x ≠ .sleep) ∧ l' = l)

/-- One step of one thread. -/
inductive Step : St → St → Prop
  | call {s} (i) : s.thr[i]? = some .out → Step s { s with thr := s.thr.set i (.enter false none) }
  | top {s} (i w f exp) : s.thr[i]? = some (.enter w f) → Step s (top s i w f exp)
  | wake {s} (i) : s.thr[i]? = some .sleep → Step s { s with thr := s.thr.set i .woken }
  | resume {s} (i exp) : s.thr[i]? = some .woken → Step s (resume s i exp)
  /-- `M_sql_conn_create` (469-528) succeeds -/
  | connOk {s} (i id) : s.thr[i]? = some (.connecting id) →
      Step s { s with thr := s.thr.set i (.connected ⟨s.fresh, id⟩), fresh := s.fresh + 1, state := upd s.state s.fresh .ok }
  /-- it fails -/
  | connFail {s} (i id) : s.thr[i]? = some (.connecting id) → Step s { s with thr := s.thr.set i (.enter true (some id)) }
  /-- 975-977, with `M_sql_connpool_set_used` (867-886) -/
  | use {s} (i c) : s.thr[i]? = some (.connected c) →
      Step s { s with thr := s.thr.set i (.has c), used := s.used ++ [c], newConns := s.newConns - 1 }
  /-- the owner of a connection notes an error, `M_sql_conn_set_state_from_error` -/
  | mark {s} (i : Nat) (c : Conn) (st : CState) : s.thr[i]? = some (.has c) → Step s { s with state := upd s.state c.uid st }
  | release {s} (i c exp thr) : s.thr[i]? = some (.has c) → Signal (release s i c exp).thr thr →
      Step s { release s i c exp with thr := thr }
  /-- 671-696, `M_sql_connpool_stop`, when it returns `M_SQL_ERROR_SUCCESS` -/
  | stop {s} : s.used = [] → s.waiters = 0 → s.newConns = 0 →
      Step s { s with conns := [], dead := s.conns.map (·.uid) ++ s.dead, started := false }

/-- The states that can be reached. -/
inductive Reach (s0 : St) : St → Prop
  | init : Reach s0 s0
  | step {s s'} : Reach s0 s → Step s s' → Reach s0 s'

end Verif.ConnPool
