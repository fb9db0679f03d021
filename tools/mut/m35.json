[
{
"file": "Sql/Model",
"def": "isError",
"old": " && e ≠ .userBypass",
"new": "",
"claim": "bypass is no error"
},
{
"file": "Sql/Model",
"def": "isError",
"old": "e ≠ .success && e ≠ .successRow",
"new": "e ≠ .success",
"claim": "a row is no error"
},
{
"file": "Sql/Model",
"def": "isDisconnect",
"old": "| .connBadauth | .connLost => true",
"new": "| .connBadauth => true",
"claim": "a lost connection is a disconnect"
},
{
"file": "Sql/Model",
"def": "isDisconnect",
"old": "| .connFailed | .connBadauth",
"new": "| .connFailed | .queryFailure | .connBadauth",
"claim": "a failed query is no disconnect"
},
{
"file": "Sql/Model",
"def": "isRollback",
"old": "e = .queryDeadlock ∨ e = .userRetry",
"new": "e = .queryDeadlock",
"claim": "the user can ask for another try"
},
{
"file": "Sql/Model",
"def": "isRollback",
"old": "e = .queryDeadlock ∨ e = .userRetry",
"new": "e = .queryDeadlock ∨ e = .queryConstraint ∨ e = .userRetry",
"claim": "a constraint violation is final"
},
{
"file": "Sql/Model",
"def": "isRollback",
"old": "else if isDisconnect e then true",
"new": "else if isDisconnect e then false",
"claim": "lost connections are tried again"
},
{
"file": "Sql/Model",
"def": "isFatal",
"old": "&& !isRollback e",
"new": "",
"claim": "fatal errors are not retried"
},
{
"file": "Sql/Model",
"def": "setState",
"old": "if isDisconnect e then .failed else if isRollback e then .rollback",
"new": "if isRollback e then .rollback else if isDisconnect e then .failed",
"claim": "a lost connection is not used again"
},
{
"file": "Sql/Model",
"def": "setState",
"old": "else if isRollback e then .rollback else st",
"new": "else st",
"claim": "a deadlocked transaction is not committed"
},
{
"file": "Sql/Model",
"def": "release",
"old": "decide (tr.st = .failed) || env.expired t",
"new": "env.expired t",
"claim": "a failed connection is closed"
},
{
"file": "Sql/Model",
"def": "begin",
"old": "if err ≠ .success then (none, (release env tr t).2)",
"new": "if isFatal err then (none, (release env tr t).2)",
"claim": "a transaction that did not begin is none"
},
{
"file": "Sql/Model",
"def": "begin",
"old": "(release env tr t).2) else (some tr",
"new": "t) else (some tr",
"claim": "the connection goes back"
},
{
"file": "Sql/Model",
"def": "begin",
"old": "!isFatal err && !env.noRetry",
"new": "!env.noRetry",
"claim": "a fatal error is returned"
},
{
"file": "Sql/Model",
"def": "begin",
"old": "setState .ok err⟩",
"new": "CState.ok⟩",
"claim": "the error of begin is noted"
},
{
"file": "Sql/Model",
"def": "rollback",
"old": "if tr.st ≠ .failed then",
"new": "if tr.st = .failed then",
"claim": "a rollback is sent unless the connection is lost"
},
{
"file": "Sql/Model",
"def": "rollback",
"old": "(err, release env ⟨tr.c, setState tr.st err⟩ t)",
"new": "(err, release env tr t)",
"claim": "a connection whose rollback failed is closed"
},
{
"file": "Sql/Model",
"def": "rollback",
"old": "(err, release env ⟨tr.c, setState tr.st err⟩ t)",
"new": "(err, false, t)",
"claim": "the connection goes back"
},
{
"file": "Sql/Model",
"def": "rollback",
"old": "(.connFailed, release env tr t)",
"new": "(.connFailed, false, t)",
"claim": "the connection goes back"
},
{
"file": "Sql/Model",
"def": "commit",
"old": "if tr.st ≠ .ok then",
"new": "if tr.st = .failed then",
"claim": "a deadlocked transaction is not committed"
},
{
"file": "Sql/Model",
"def": "commit",
"old": "else (.ret .queryDeadlock, r.2.2)",
"new": "else (.ret .success, r.2.2)",
"claim": "a forced rollback is reported"
},
{
"file": "Sql/Model",
"def": "commit",
"old": "(.ret err, (release env ⟨tr.c, setState tr.st err⟩ t).2)",
"new": "(.ret err, t)",
"claim": "the connection goes back"
},
{
"file": "Sql/Model",
"def": "commit",
"old": "(.ret err, (release env ⟨tr.c, setState tr.st err⟩ t).2)",
"new": "(.ret .success, (release env ⟨tr.c, setState tr.st err⟩ t).2)",
"claim": "the error of the commit is reported"
},
{
"file": "Sql/Model",
"def": "act",
"old": "if tr.st ≠ .ok then (.queryDeadlock",
"new": "if tr.st = .failed then (.queryDeadlock",
"claim": "nothing is executed after a deadlock"
},
{
"file": "Sql/Model",
"def": "act",
"old": "setState tr.st err⟩",
"new": "tr.st⟩",
"claim": "errors are noted"
},
{
"file": "Sql/Model",
"def": "act",
"old": "(.queryDeadlock, some tr, t)",
"new": "(.success, some tr, t)",
"claim": "a refused statement is reported"
},
{
"file": "Sql/Model",
"def": "process",
"old": "if isRollback err then process env n k (rollback env tr t).2.2\n        else some (.ret err, t)\n      else",
"new": "if isFatal err then process env n k (rollback env tr t).2.2\n        else some (.ret err, t)\n      else",
"claim": "retries of begin"
},
{
"file": "Sql/Model",
"def": "process",
"old": "let t := (rollback env r.2.1 r.2.2).2.2\n            if isRollback cmdErr",
"new": "let t := r.2.2\n            if isRollback cmdErr",
"claim": "a failed run is rolled back"
},
{
"file": "Sql/Model",
"def": "process",
"old": "if isRollback cmdErr then process env n k t else some (.ret cmdErr, t)",
"new": "process env n k t",
"claim": "a fatal error is returned"
},
{
"file": "Sql/Model",
"def": "process",
"old": "if isRollback cmdErr then process env n k t else some (.ret cmdErr, t)",
"new": "some (.ret cmdErr, t)",
"claim": "a deadlock is tried again"
},
{
"file": "Sql/Model",
"def": "process",
"old": "some (.ret .queryFailure, (rollback env r.2.1 r.2.2).2.2)",
"new": "some (.ret .successRow, (rollback env r.2.1 r.2.2).2.2)",
"claim": "rows left are an error"
},
{
"file": "Sql/Model",
"def": "process",
"old": "some (.ret .queryFailure, (rollback env r.2.1 r.2.2).2.2)",
"new": "some (.ret .queryFailure, (commit env r.2.1 r.2.2).2)",
"claim": "rows left are rolled back"
},
{
"file": "Sql/Model",
"def": "process",
"old": "else if cmdErr = .successRow then some (.ret .queryFailure, (rollback env r.2.1 r.2.2).2.2)\n",
"new": "",
"claim": "rows left are an error"
},
{
"file": "Sql/Model",
"def": "process",
"old": "if isRollback err then process env n k t\n              else some (.ret err, t)\n            else some (.ret cmdErr, t)",
"new": "if isRollback err then process env n k t\n              else some (.ret cmdErr, t)\n            else some (.ret cmdErr, t)",
"claim": "a failed commit is reported"
},
{
"file": "Sql/Model",
"def": "process",
"old": "if isRollback err then process env n k t\n              else some (.ret err, t)\n            else some (.ret cmdErr, t)",
"new": "if isRollback err then process env n k t\n              else some (.ret err, t)\n            else some (.ret err, t)",
"claim": "the user's success code is returned"
},
{
"file": "Sql/Model",
"def": "process",
"old": "if isRollback err then process env n k t\n              else some (.ret err, t)\n            else some (.ret cmdErr, t)",
"new": "if isRollback err then process env n k t\n              else some (.ret err, t)\n            else process env n k t",
"claim": "a committed transaction is not run again"
},
{
"file": "Sql/Model",
"def": "process",
"old": "if isError err then\n              if isRollback err then process env n k t\n              else some (.ret err, t)\n            else some (.ret cmdErr, t)",
"new": "some (.ret cmdErr, t)",
"claim": "a failed commit is not a success"
},
{
"file": "Sql/Model",
"def": "stmtExecute",
"old": "let t := (rollback env r.2.1 r.2.2).2.2\n            if isRollback r.1",
"new": "let t := (commit env r.2.1 r.2.2).2\n            if isRollback r.1",
"claim": "a failed statement is rolled back"
},
{
"file": "Sql/Model",
"def": "stmtExecute",
"old": "isRollback err && !env.noRetry",
"new": "!isRollback err && !env.noRetry",
"claim": "only deadlocks and lost connections are retried"
},
{
"file": "Sql/Model",
"def": "stmtExecute",
"old": "isError err && (isRollback err && !env.noRetry)",
"new": "isRollback err",
"claim": "retries can be turned off"
},
{
"file": "Sql/Model",
"def": "stmtExecute",
"old": "else if env.more t then some (.ret err, t ++ [.keep c])",
"new": "else if isError err then some (.ret .success, t)\n        else if env.more t then some (.ret err, t ++ [.keep c])",
"claim": "errors are reported"
},
{
"file": "Sql/Model",
"def": "stmtExecute",
"old": "if isRollback r.1 then stmtExecute env n s multi k t else some (.ret r.1, t)",
"new": "stmtExecute env n s multi k t",
"claim": "a fatal error is returned"
},
{
"file": "Sql/Model",
"def": "stmtExecute",
"old": "            match commit env r.2.1 r.2.2 with\n            | (.ub, t) => some (.ub, t)\n            | (.ret err, t) =>\n              if isError err then\n                if isRollback err then stmtExecute env n s multi k t\n                else some (.ret err, t)\n              else some (.ret err, t)",
"new": "            some (.ret r.1, (rollback env r.2.1 r.2.2).2.2)",
"claim": "a success is committed"
},
{
"file": "ConnPool/Model",
"def": "getUnused",
"old": "unusedFrom s s.max",
"new": "unusedFrom s 1",
"claim": "an unused number is found"
},
{
"file": "ConnPool/Model",
"def": "unusedFrom",
"old": "if s.info (s.max - (n + 1)) ≠ .up",
"new": "if s.info (s.max - (n + 1)) = .new",
"claim": "failed numbers are used again"
},
{
"file": "ConnPool/Model",
"def": "body",
"old": "s.used.length + s.newConns = s.max",
"new": "s.used.length = s.max",
"claim": "connections being made count"
},
{
"file": "ConnPool/Model",
"def": "body",
"old": "s.used.length + s.newConns = s.max",
"new": "s.used.length + s.newConns = s.max + 1",
"claim": "the maximum"
},
{
"file": "ConnPool/Model",
"def": "body",
"old": "(s.waiters ≠ 0 ∧ w = false) ∨",
"new": "(s.waiters ≠ 0) ∨",
"claim": "a woken thread does not wait behind others"
},
{
"file": "ConnPool/Model",
"def": "body",
"old": "waiters := s.waiters + 1, thr",
"new": "thr",
"claim": "waiters are counted"
},
{
"file": "ConnPool/Model",
"def": "body",
"old": "info := upd s.info c.id .new, dead := c.uid :: s.dead, thr := s.thr.set i (.enter w none)",
"new": "dead := c.uid :: s.dead, thr := s.thr.set i (.enter w none)",
"claim": "the number of a closed connection is free"
},
{
"file": "ConnPool/Model",
"def": "body",
"old": "info := upd s.info c.id .new, dead := c.uid :: s.dead, thr := s.thr.set i (.enter w none)",
"new": "info := upd s.info c.id .new, thr := s.thr.set i (.enter w none)",
"claim": "an expired connection is freed"
},
{
"file": "ConnPool/Model",
"def": "body",
"old": "if exp then { s with conns := rest,",
"new": "if exp then { s with",
"claim": "an expired connection is not idle"
},
{
"file": "ConnPool/Model",
"def": "body",
"old": "{ s with conns := rest, used := s.used ++ [c], thr",
"new": "{ s with used := s.used ++ [c], thr",
"claim": "a connection in use is not idle"
},
{
"file": "ConnPool/Model",
"def": "body",
"old": "used := s.used ++ [c], thr",
"new": "thr",
"claim": "connections in use are counted"
},
{
"file": "ConnPool/Model",
"def": "body",
"old": "{ s with newConns := s.newConns + 1, info",
"new": "{ s with info",
"claim": "connections being made are counted"
},
{
"file": "ConnPool/Model",
"def": "body",
"old": "info := upd s.info (getUnused s) .up, thr",
"new": "thr",
"claim": "the number is reserved"
},
{
"file": "ConnPool/Model",
"def": "top",
"old": "{ s with newConns := s.newConns - 1, info := upd s.info id .failed }",
"new": "{ s with info := upd s.info id .failed }",
"claim": "a failed connect is not counted"
},
{
"file": "ConnPool/Model",
"def": "top",
"old": "{ s with newConns := s.newConns - 1, info := upd s.info id .failed }",
"new": "{ s with newConns := s.newConns - 1 }",
"claim": "the number of a failed connect is free"
},
{
"file": "ConnPool/Model",
"def": "top",
"old": "if s.started = false then { s with thr := s.thr.set i .refused }\n  else\n",
"new": "",
"claim": "a stopped pool gives nothing"
},
{
"file": "ConnPool/Model",
"def": "resume",
"old": "{ s with waiters := s.waiters - 1 }",
"new": "s",
"claim": "waiters are counted"
},
{
"file": "ConnPool/Model",
"def": "resume",
"old": "i true exp",
"new": "i false exp",
"claim": "a woken thread does not wait behind others"
},
{
"file": "ConnPool/Model",
"def": "release",
"old": "used := s.used.erase c, thr",
"new": "thr",
"claim": "a released connection is not in use"
},
{
"file": "ConnPool/Model",
"def": "release",
"old": "{ s with info := upd s.info c.id .failed, dead := c.uid :: s.dead }",
"new": "{ s with info := upd s.info c.id .failed }",
"claim": "a failed connection is freed"
},
{
"file": "ConnPool/Model",
"def": "release",
"old": "{ s with info := upd s.info c.id .failed, dead := c.uid :: s.dead }",
"new": "{ s with info := upd s.info c.id .failed, dead := c.uid :: s.dead, conns := s.conns ++ [c] }",
"claim": "a freed connection is not idle"
},
{
"file": "ConnPool/Model",
"def": "release",
"old": "state := upd s.state c.uid .ok, conns",
"new": "conns",
"claim": "a connection after a rollback is clean"
},
{
"file": "ConnPool/Model",
"def": "release",
"old": "state := upd s.state c.uid .ok, conns := s.conns ++ [c]",
"new": "state := upd s.state c.uid .ok",
"claim": "an idle connection is in the pool"
},
{
"file": "ConnPool/Model",
"def": "release",
"old": "else if exp then { s with info := upd s.info c.id .new, dead",
"new": "else if exp then { s with dead",
"claim": "the number is free"
},
{
"file": "ConnPool/Model",
"def": "Signal",
"old": "l[j]? = some .sleep ∧ l' = l.set j .woken) ∨ ((∀ x ∈ l, x ≠ .sleep) ∧ l' = l)",
"new": "l[j]? = some .sleep ∧ l' = l.set j .woken) ∨ (l' = l)",
"claim": "a release wakes a waiting thread"
},
{
"file": "ConnPool/Model",
"def": "Step",
"old": "used := s.used ++ [c], newConns := s.newConns - 1 }",
"new": "newConns := s.newConns - 1 }",
"claim": "a new connection is in use"
},
{
"file": "ConnPool/Model",
"def": "Step",
"old": "used := s.used ++ [c], newConns := s.newConns - 1 }",
"new": "used := s.used ++ [c] }",
"claim": "a made connection is not being made"
},
{
"file": "ConnPool/Model",
"def": "Step",
"old": "s.used = [] → s.waiters = 0 → s.newConns = 0 →",
"new": "s.waiters = 0 → s.newConns = 0 →",
"claim": "a pool in use is not stopped"
},
{
"file": "ConnPool/Model",
"def": "Step",
"old": "s.used = [] → s.waiters = 0 → s.newConns = 0 →",
"new": "s.used = [] → s.waiters = 0 →",
"claim": "a pool that connects is not stopped"
},
{
"file": "ConnPool/Model",
"def": "Step",
"old": "s.used = [] → s.waiters = 0 → s.newConns = 0 →",
"new": "s.used = [] → s.newConns = 0 →",
"claim": "a pool with waiting threads is not stopped"
},
{
"file": "ConnPool/Model",
"def": "Step",
"old": "conns := [], dead := s.conns.map (·.uid) ++ s.dead, started",
"new": "dead := s.conns.map (·.uid) ++ s.dead, started",
"claim": "a stopped pool has no connections"
},
{
"file": "ConnPool/Model",
"def": "Step",
"old": "conns := [], dead := s.conns.map (·.uid) ++ s.dead, started",
"new": "conns := [], started",
"claim": "all connections are freed"
},
{
"file": "ConnPool/Model",
"def": "init",
"old": "info := fun i => if i < k then .up else .new",
"new": "info := fun _ => .new",
"claim": "the first numbers are taken"
}
]