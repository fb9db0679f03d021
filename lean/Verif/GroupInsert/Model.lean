import Verif.Sql.Model
/-! Model of the group inserts of `sql/m_sql_connpool.c` and `sql/m_sql_stmt.c`: any number of calls of
`M_sql_stmt_groupinsert_prepare`, each followed by binding a row, `M_sql_stmt_execute` and `M_sql_stmt_destroy`, from any threads and
interleaved in any way.

Mutexes and conditions are those of the system and behave as POSIX says.  `pool->lock` is only held for sections that never wait, so
each of them is one step and the lock is not part of the state.  `group_lock` is held by a user between preparing and executing and is
part of the state; the other sections under it are one step.  Waiting on the condition releases the lock and sleeps in the same step, a
broadcast wakes all who sleep, and anyone may wake without reason.

What the database answers is left open, except that `begin`, `execute` and `commit` answer either `M_SQL_ERROR_SUCCESS` or an error, and
that a commit that answers an error has committed nothing.  Not in the model: a row that is only partly bound, error texts, traces, delays,
more than one group insert of the same thread at a time. -/
namespace Verif.GroupInsert
open Verif.Sql (Err isError isRollback)

/-- A query, as the bytes of a C string. -/
abbrev Query := List Nat

/-- `include/mstdlib/base/m_chr.h`, `M_chr_isspace`. -/
def isSpace (c : Nat) : Bool := c = 32 || (9 ≤ c && c ≤ 13)

/-- `base/m_str.c`, `M_strdup_trim`. -/
def trim (q : Query) : Query := ((q.dropWhile isSpace).reverse.dropWhile isSpace).reverse

/-- `sql/m_sql_int.h:209-213`, `M_sql_groupinsert_t`. -/
inductive GState
  | new | pending | finished
deriving DecidableEq, Repr

/-- `sql/m_sql_int.h:216-255`, `struct M_sql_stmt`: the fields that matter to a group.  `rows` names the calls whose rows are bound;
`freed` says that the memory was given back. -/
structure Stmt where
  query : Query
  cnt : Nat
  cntExec : Nat
  state : GState
  locked : Bool
  rows : List Nat
  lastErr : Err
  freed : Bool
deriving DecidableEq, Repr

/-- What follows once the group is closed. -/
inductive After
  /-- the statement is executed -/
  | exec
  /-- the result is handed out -/
  | finish (e : Err)
deriving DecidableEq, Repr

/-- Where one of the calls is. -/
inductive PC
  /-- has the statement, not yet its lock -/
  | joined
  /-- has the lock -/
  | holding
  /-- has bound a row -/
  | bound
  /-- sleeps on the condition -/
  | asleep
  /-- awake, not yet owner of the lock -/
  | awake
  /-- runs the statement for everyone: starts a transaction -/
  | begin
  /-- about to close the group -/
  | close (k : After)
  /-- waits for those who joined and have not executed yet -/
  | spin (k : After)
  /-- about to execute -/
  | exec
  /-- about to commit -/
  | commit
  /-- about to hand out the result -/
  | fin (e : Err)
  /-- `M_sql_stmt_execute` has returned `e`; `m`: this call ran the statement -/
  | returned (e : Err) (m : Bool)
  /-- in `M_sql_stmt_destroy`, as the last one -/
  | freeing (e : Err) (m : Bool)
  /-- done -/
  | gone (e : Err) (m : Bool)
deriving DecidableEq, Repr

/-- One call: its query, the statement it was given, where it is. -/
structure Part where
  q : Query
  s : Nat
  pc : PC
deriving DecidableEq, Repr

/-- The pool's table of open groups, all statements ever made, all calls ever made; `committed` records for each commit the statement
and the rows; `bad` that memory was used after it was freed. -/
structure St where
  table : Query → Option Nat
  stmts : List Stmt
  parts : List Part
  committed : List (Nat × List Nat)
  bad : Bool

/-- No group yet. -/
def init : St := ⟨fun _ => none, [], [], [], false⟩

/-- `M_hash_strvp_insert`, `M_hash_strvp_remove`. -/
def setKey (t : Query → Option Nat) (q : Query) (v : Option Nat) : Query → Option Nat := fun q' => if q' = q then v else t q'

/-- Call `i`, which is `p`, goes to `pc` and its statement `x` becomes `x'`. -/
def upd (st : St) (i : Nat) (p : Part) (x x' : Stmt) (pc : PC) : St :=
  { st with stmts := st.stmts.set p.s x', parts := st.parts.set i { p with pc := pc }, bad := st.bad || x.freed }

/-- `sql/m_sql_connpool.c:1499-1510`: a new statement; `e` is what the ignored `M_sql_stmt_prepare` has answered. -/
def prepareNew (st : St) (q : Query) (e : Err) : St :=
  { st with
    table := setKey st.table q (some st.stmts.length)
    stmts := st.stmts ++ [⟨trim q, 1, 0, .new, false, [], e, false⟩]
    parts := st.parts ++ [⟨q, st.stmts.length, .joined⟩] }

/-- `sql/m_sql_connpool.c:1511-1514`: the statement `x`, number `s`, of the table. -/
def prepareJoin (st : St) (q : Query) (s : Nat) (x : Stmt) : St :=
  { st with
    stmts := st.stmts.set s { x with cnt := x.cnt + 1 }
    parts := st.parts ++ [⟨q, s, .joined⟩]
    bad := st.bad || x.freed }

/-- `sql/m_sql_connpool.c:1519`. -/
def lock (x : Stmt) : Stmt := { x with locked := true }

/-- `sql/m_sql_connpool.c:1523`, `sql/m_sql_stmt_bind.c:80-125`: a row for call `i`. -/
def bind (x : Stmt) (i : Nat) : Stmt := { x with rows := x.rows ++ [i] }

/-- `sql/m_sql_stmt.c:406-434`: the beginning of `M_sql_stmt_execute`. -/
def execCall (x : Stmt) : Stmt × PC :=
  if x.state = .finished then (x, .returned .invalidUse false)
  else if x.cntExec + 1 ≠ 1 then ({ x with cntExec := x.cntExec + 1, locked := false }, .asleep)
  else ({ x with cntExec := x.cntExec + 1, locked := false }, .begin)

/-- `sql/m_sql_stmt.c:417-426`: owner of the lock again. -/
def wake (x : Stmt) : PC := if x.state = .finished then .returned x.lastErr false else .asleep

/-- `sql/m_sql_stmt.c:449-467`: `M_sql_trans_begin` has answered. -/
def beginRes (e : Err) : PC :=
  if isError e then
    if isRollback e then .begin else .close (.finish e)
  else .close .exec

/-- Where closing leads. -/
def after : After → PC
  | .exec => .exec
  | .finish e => .fin e

/-- `sql/m_sql_connpool.c:1551`: the condition of the loop. -/
def check (x : Stmt) (k : After) : PC := if x.cnt = x.cntExec then after k else .spin k

/-- `sql/m_sql_connpool.c:1529-1551`, `M_sql_connpool_close_groupinsert` up to the loop. -/
def close (t : Query → Option Nat) (x : Stmt) (k : After) : (Query → Option Nat) × Stmt × PC :=
  if x.state ≠ .new then (t, x, after k)
  else (setKey t x.query none, { x with state := .pending }, check x k)

/-- `sql/m_sql_stmt.c:494-505`: `M_sql_trans_execute` has answered, and left its answer in the statement. -/
def execRes (x : Stmt) (e : Err) : Stmt × PC :=
  ({ x with lastErr := e },
    if isError e then
      if isRollback e then .begin else .close (.finish e)
    else .commit)

/-- `sql/m_sql_stmt.c:508-518`: `M_sql_trans_commit` has answered. -/
def commitRes (e : Err) : PC :=
  if isError e then
    if isRollback e then .begin else .close (.finish e)
  else .close (.finish e)

/-- What the database has done when it answers `e` to a commit. -/
def record (c : List (Nat × List Nat)) (s : Nat) (x : Stmt) (e : Err) : List (Nat × List Nat) :=
  if isError e then c else c ++ [(s, x.rows)]

/-- `sql/m_sql_stmt.c:538-541`: the state of the statement and the broadcast. -/
def finish (x : Stmt) : Stmt := { x with state := .finished }

def rouse (s : Nat) (p : Part) : Part := if p.s = s ∧ p.pc = .asleep then { p with pc := .awake } else p

/-- `sql/m_sql_stmt.c:38-54`: the beginning of `M_sql_stmt_destroy`. -/
def destroy (x : Stmt) (e : Err) (m : Bool) : Stmt × PC :=
  ({ x with cnt := x.cnt - 1 }, if x.cnt - 1 ≠ 0 then .gone e m else .freeing e m)

/-- `sql/m_sql_stmt.c:56-68`: the rest of it. -/
def free (x : Stmt) : Stmt := { x with freed := true }

/-- What is assumed about the users and the database: the queries that are used, and whether starting or committing a transaction may
fail for good. -/
structure Env where
  query : Query → Prop
  fail : Prop

/-- An answer of the database. -/
def Answer (e : Err) : Prop := e = .success ∨ isError e = true

/-- A step that brings a call forward. -/
inductive Work (env : Env) : St → St → Prop
  | lock {st : St} (i : Nat) (p : Part) (x : Stmt) : st.parts[i]? = some p → st.stmts[p.s]? = some x → p.pc = .joined → x.locked = false →
      Work env st (upd st i p x (lock x) .holding)
  | bind {st : St} (i : Nat) (p : Part) (x : Stmt) : st.parts[i]? = some p → st.stmts[p.s]? = some x → p.pc = .holding →
      Work env st (upd st i p x (bind x i) .bound)
  | call {st : St} (i : Nat) (p : Part) (x : Stmt) : st.parts[i]? = some p → st.stmts[p.s]? = some x → p.pc = .bound →
      Work env st (upd st i p x (execCall x).1 (execCall x).2)
  | wake {st : St} (i : Nat) (p : Part) (x : Stmt) : st.parts[i]? = some p → st.stmts[p.s]? = some x → p.pc = .awake → x.locked = false →
      Work env st (upd st i p x x (wake x))
  | begin {st : St} (i : Nat) (p : Part) (x : Stmt) (e : Err) : st.parts[i]? = some p → st.stmts[p.s]? = some x → p.pc = .begin → Answer e →
      (isError e = true → isRollback e = false → env.fail) →
      Work env st (upd st i p x x (beginRes e))
  | close {st : St} (i : Nat) (p : Part) (x : Stmt) (k : After) : st.parts[i]? = some p → st.stmts[p.s]? = some x → p.pc = .close k →
      x.locked = false →
      Work env st { upd st i p x (close st.table x k).2.1 (close st.table x k).2.2 with table := (close st.table x k).1 }
  | spin {st : St} (i : Nat) (p : Part) (x : Stmt) (k : After) : st.parts[i]? = some p → st.stmts[p.s]? = some x → p.pc = .spin k →
      x.locked = false → x.cnt = x.cntExec →
      Work env st (upd st i p x x (check x k))
  | exec {st : St} (i : Nat) (p : Part) (x : Stmt) (e : Err) : st.parts[i]? = some p → st.stmts[p.s]? = some x → p.pc = .exec → Answer e →
      Work env st (upd st i p x (execRes x e).1 (execRes x e).2)
  | commit {st : St} (i : Nat) (p : Part) (x : Stmt) (e : Err) : st.parts[i]? = some p → st.stmts[p.s]? = some x → p.pc = .commit → Answer e →
      (isError e = true → isRollback e = false → env.fail) →
      Work env st { upd st i p x x (commitRes e) with committed := record st.committed p.s x e }
  | finish {st : St} (i : Nat) (p : Part) (x : Stmt) (e : Err) : st.parts[i]? = some p → st.stmts[p.s]? = some x → p.pc = .fin e →
      x.locked = false →
      Work env st { upd st i p x (finish x) (.returned e true) with parts := (st.parts.map (rouse p.s)).set i { p with pc := .returned e true } }
  | destroy {st : St} (i : Nat) (p : Part) (x : Stmt) (e : Err) (m : Bool) : st.parts[i]? = some p → st.stmts[p.s]? = some x →
      p.pc = .returned e m → x.locked = false →
      Work env st (upd st i p x (destroy x e m).1 (destroy x e m).2)
  | free {st : St} (i : Nat) (p : Part) (x : Stmt) (e : Err) (m : Bool) : st.parts[i]? = some p → st.stmts[p.s]? = some x →
      p.pc = .freeing e m →
      Work env st (upd st i p x (free x) (.gone e m))

/-- One step: of work, a new call, a wake-up without reason, a round of the loop that waits for the others. -/
inductive Step (env : Env) : St → St → Prop
  | work {st st' : St} : Work env st st' → Step env st st'
  | new {st : St} (q : Query) (e : Err) : env.query q → st.table q = none → Step env st (prepareNew st q e)
  | join {st : St} (q : Query) (s : Nat) (x : Stmt) : env.query q → st.table q = some s → st.stmts[s]? = some x →
      Step env st (prepareJoin st q s x)
  | spurious {st : St} (i : Nat) (p : Part) (x : Stmt) : st.parts[i]? = some p → st.stmts[p.s]? = some x → p.pc = .asleep →
      Step env st (upd st i p x x .awake)
  | round {st : St} (i : Nat) (p : Part) (x : Stmt) (k : After) : st.parts[i]? = some p → st.stmts[p.s]? = some x → p.pc = .spin k →
      x.locked = false → Step env st (upd st i p x x (check x k))

/-- The states that can be reached. -/
inductive Reach (env : Env) : St → Prop
  | init : Reach env init
  | step {st st' : St} : Reach env st → Step env st st' → Reach env st'

/-- What `M_sql_stmt_execute` has returned, and whether that call ran the statement. -/
def result : PC → Option (Err × Bool)
  | .returned e m | .freeing e m | .gone e m => some (e, m)
  | _ => none

/-- The calls whose rows are in the database, one entry for each time. -/
def inserted (st : St) : List Nat := st.committed.flatMap (·.2)

end Verif.GroupInsert
