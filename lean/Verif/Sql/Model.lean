/-! Model of the transactions of `sql/m_sql_trans.c` and of `M_sql_stmt_execute` of `sql/m_sql_stmt.c`.

One thread is followed.  What it does to the world is recorded as a list of events, the oldest first.  What the driver, the pool and the
user's function answer is a function of that list, about which nothing is assumed: any behaviour of theirs is some such function.
The loops that try again take the number of rounds they may use; the result is `none` if they use more.  Not in the model: error
texts, traces, the time slept, group inserts. -/
namespace Verif.Sql

/-- `include/mstdlib/sql/m_sql.h:190-253`, `M_sql_error_t`. -/
inductive Err
  | success | successRow
  | connNodriver | connDriverload | connDriverver | connParams | connFailed | connBadauth | connLost
  | prepareInvalid | prepareStrnotbound | prepareNomultiquery
  | queryNotprepared | queryWrongnumparams | queryPrepare | queryDeadlock | queryConstraint | queryFailure
  | inuse | invalidUse | invalidType
  | userSuccess | userBypass | userRetry | userFailure
  | unset
deriving DecidableEq, Repr

/-- `sql/m_sql_error.c:88-93`, `M_sql_error_is_error`. -/
def isError (e : Err) : Bool := e ≠ .success && e ≠ .successRow && e ≠ .userSuccess && e ≠ .userBypass

/-- `sql/m_sql_error.c:96-111`, `M_sql_error_is_disconnect`. -/
def isDisconnect : Err → Bool
  | .connNodriver | .connDriverload | .connDriverver | .connParams | .connFailed | .connBadauth | .connLost => true
  | _ => false

/-- `sql/m_sql_error.c:113-120`, `M_sql_error_is_rollback`. -/
def isRollback (e : Err) : Bool :=
  if e = .queryDeadlock ∨ e = .userRetry then true
  else if isDisconnect e then true
  else false

/-- `sql/m_sql_error.c:123-126`, `M_sql_error_is_fatal`. -/
def isFatal (e : Err) : Bool := isError e && !isRollback e && !isDisconnect e

/-- `M_sql_conn_state_t`. -/
inductive CState
  | ok | rollback | failed
deriving DecidableEq, Repr

/-- `sql/m_sql_connpool.c:1182-1196`, `M_sql_conn_set_state_from_error`. -/
def setState (st : CState) (e : Err) : CState :=
  if isDisconnect e then .failed else if isRollback e then .rollback else st

/-- What the user's function does with a statement of the transaction: `M_sql_trans_execute` or `M_sql_stmt_fetch`. -/
inductive Act
  | exec (s : Nat)
  | fetch (s : Nat)
deriving DecidableEq, Repr

/-- The user's function (`M_sql_trans_commands_t`): what it does next may depend on the results. -/
inductive Prog
  | ret (e : Err)
  | act (a : Act) (k : Err → Prog)

/-- What happens outside; `c` is the connection. -/
inductive Ev
  /-- the pool hands out no connection -/
  | noConn
  | acquire (c : Nat)
  /-- the driver is asked to begin a transaction, and answers -/
  | begin (c : Nat) (e : Err)
  | act (c : Nat) (a : Act) (e : Err)
  /-- the user's function returns -/
  | cmd (e : Err)
  | rollback (c : Nat) (e : Err)
  | commit (c : Nat) (e : Err)
  /-- a statement is executed outside of any transaction -/
  | auto (c : Nat) (s : Nat) (e : Err)
  /-- the connection goes back to the pool, or is closed and freed -/
  | release (c : Nat) (destroyed : Bool)
  /-- the statement keeps the connection as it has more rows -/
  | keep (c : Nat)
deriving DecidableEq, Repr

/-- The answers. -/
structure Env where
  /-- `M_sql_connpool_acquire_conn` -/
  acquire : List Ev → Option Nat
  begin : List Ev → Err
  act : List Ev → Err
  rollback : List Ev → Err
  commit : List Ev → Err
  auto : List Ev → Err
  cmd : List Ev → Prog
  /-- whether the connection has been up for longer than `reconnect_time_s` -/
  expired : List Ev → Bool
  /-- the state of a connection that is back in the pool, where another thread may use it -/
  other : List Ev → CState
  /-- `M_sql_stmt_has_remaining_rows` after an execution outside of a transaction -/
  more : List Ev → Bool
  /-- M_SQL_CONNPOOL_FLAG_NO_AUTORETRY_QUERY -/
  noRetry : Bool

/-- An open transaction: its connection and the state of that. -/
structure Trans where
  c : Nat
  st : CState
deriving DecidableEq, Repr

/-- `sql/m_sql_connpool.c:986-1033`, `M_sql_connpool_release_conn`: whether the connection is freed. -/
def release (env : Env) (tr : Trans) (t : List Ev) : Bool × List Ev :=
  let d := decide (tr.st = .failed) || env.expired t
  (d, t ++ [.release tr.c d])

/-- `sql/m_sql_trans.c:49-111`, `M_sql_trans_begin`.  The first argument is the number of rounds. -/
def begin (env : Env) : Nat → List Ev → Option (Err × Option Trans × List Ev)
  | 0, _ => none
  | n + 1, t =>
    match env.acquire t with
    | none => some (.invalidUse, none, t ++ [.noConn])
    | some c =>
      let t := t ++ [.acquire c]
      let err := env.begin t
      let t := t ++ [.begin c err]
      let tr : Trans := ⟨c, setState .ok err⟩
      let r : Option Trans × List Ev := if err ≠ .success then (none, (release env tr t).2) else (some tr, t)
      if isError err && (!isFatal err && !env.noRetry) then begin env n r.2 else some (err, r.1, r.2)

/-- `sql/m_sql_trans.c:115-146`, `M_sql_trans_rollback`: the error, whether the connection was freed, the events. -/
def rollback (env : Env) (tr : Option Trans) (t : List Ev) : Err × Bool × List Ev :=
  match tr with
  | none => (.invalidUse, false, t)
  | some tr =>
    if tr.st ≠ .failed then
      let err := env.rollback t
      let t := t ++ [.rollback tr.c err]
      (err, release env ⟨tr.c, setState tr.st err⟩ t)
    else (.connFailed, release env tr t)

/-- The result of a call: a value, or undefined behaviour. -/
inductive Out (β : Type)
  | ret (v : β)
  | ub
deriving DecidableEq, Repr

/-- `sql/m_sql_trans.c:149-193`, `M_sql_trans_commit`.  After a forced rollback the connection, which has been released, is read. -/
def commit (env : Env) (tr : Option Trans) (t : List Ev) : Out Err × List Ev :=
  match tr with
  | none => (.ret .invalidUse, t)
  | some tr =>
    if tr.st ≠ .ok then
      let r := rollback env (some tr) t
      if r.2.1 then (.ub, r.2.2)
      else if env.other r.2.2 = .failed then (.ret .connFailed, r.2.2)
      else (.ret .queryDeadlock, r.2.2)
    else
      let err := env.commit t
      let t := t ++ [.commit tr.c err]
      (.ret err, (release env ⟨tr.c, setState tr.st err⟩ t).2)

/-- `sql/m_sql_trans.c:196-224`, `M_sql_trans_execute`, and `sql/m_sql_stmt.c:574-606`, `M_sql_stmt_fetch`, of a statement of the
transaction that has rows left. -/
def act (env : Env) (a : Act) (tr : Option Trans) (t : List Ev) : Err × Option Trans × List Ev :=
  match tr with
  | none => (.invalidUse, none, t)
  | some tr =>
    let run : Err × Option Trans × List Ev :=
      let err := env.act t
      (err, some ⟨tr.c, setState tr.st err⟩, t ++ [.act tr.c a err])
    match a with
    | .exec _ => if tr.st ≠ .ok then (.queryDeadlock, some tr, t) else run
    | .fetch _ => run

/-- The user's function runs. -/
def runCmd (env : Env) : Prog → Option Trans → List Ev → Err × Option Trans × List Ev
  | .ret e, tr, t => (e, tr, t ++ [.cmd e])
  | .act a k, tr, t => let r := act env a tr t; runCmd env (k r.1) r.2.1 r.2.2

/-- `sql/m_sql_trans.c:252-332`, `M_sql_trans_process`; `M_sql_trans_begin` may use `n` rounds.  (Reading `trans->error`, 291, is
undefined if there is no transaction.) -/
def process (env : Env) (n : Nat) : Nat → List Ev → Option (Out Err × List Ev)
  | 0, _ => none
  | k + 1, t =>
    match begin env n t with
    | none => none
    | some (err, tr, t) =>
      if isError err then
        if isRollback err then process env n k (rollback env tr t).2.2
        else some (.ret err, t)
      else
        let r := runCmd env (env.cmd t) tr t
        let cmdErr := r.1
        if isError cmdErr then
          if r.2.1 = none then some (.ub, r.2.2)
          else
            let t := (rollback env r.2.1 r.2.2).2.2
            if isRollback cmdErr then process env n k t else some (.ret cmdErr, t)
        else if cmdErr = .successRow then some (.ret .queryFailure, (rollback env r.2.1 r.2.2).2.2)
        else
          match commit env r.2.1 r.2.2 with
          | (.ub, t) => some (.ub, t)
          | (.ret err, t) =>
            if isError err then
              if isRollback err then process env n k t
              else some (.ret err, t)
            else some (.ret cmdErr, t)

/-- `sql/m_sql_stmt.c:396-545`, `M_sql_stmt_execute` of a statement that is no group insert; `multi`: more than one row is bound. -/
def stmtExecute (env : Env) (n : Nat) (s : Nat) (multi : Bool) : Nat → List Ev → Option (Out Err × List Ev)
  | 0, _ => none
  | k + 1, t =>
    if multi then
      match begin env n t with
      | none => none
      | some (err, tr, t) =>
        if isError err then
          if isRollback err then stmtExecute env n s multi k (rollback env tr t).2.2
          else some (.ret err, t)
        else
          let r := act env (.exec s) tr t
          if isError r.1 then
            let t := (rollback env r.2.1 r.2.2).2.2
            if isRollback r.1 then stmtExecute env n s multi k t else some (.ret r.1, t)
          else
            match commit env r.2.1 r.2.2 with
            | (.ub, t) => some (.ub, t)
            | (.ret err, t) =>
              if isError err then
                if isRollback err then stmtExecute env n s multi k t
                else some (.ret err, t)
              else some (.ret err, t)
    else
      match env.acquire t with
      | none => some (.ret .invalidUse, t ++ [.noConn])
      | some c =>
        let t := t ++ [.acquire c]
        let err := env.auto t
        let t := t ++ [.auto c s err]
        let tr : Trans := ⟨c, setState .ok err⟩
        if isError err && (isRollback err && !env.noRetry) then stmtExecute env n s multi k (release env tr t).2
        else if env.more t then some (.ret err, t ++ [.keep c])
        else some (.ret err, (release env tr t).2)

end Verif.Sql
