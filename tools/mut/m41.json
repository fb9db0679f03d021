[
{
"file": "GroupInsert/Model",
"def": "prepareNew",
"old": "[⟨trim q, 1, 0, .new, false, [], e, false⟩]",
"new": "[⟨trim q, 0, 0, .new, false, [], e, false⟩]",
"claim": "C101: the maker of a statement counts as a user of it"
},
{
"file": "GroupInsert/Model",
"def": "prepareNew",
"old": "[⟨trim q, 1, 0, .new, false, [], e, false⟩]",
"new": "[⟨trim q, 1, 1, .new, false, [], e, false⟩]",
"claim": "C101: the first to execute runs the statement"
},
{
"file": "GroupInsert/Model",
"def": "prepareJoin",
"old": "{ x with cnt := x.cnt + 1 }",
"new": "x",
"claim": "C101: joining is counted"
},
{
"file": "GroupInsert/Model",
"def": "lock",
"old": "{ x with locked := true }",
"new": "x",
"claim": "C101: the lock is held while binding"
},
{
"file": "GroupInsert/Model",
"def": "bind",
"old": "x.rows ++ [i]",
"new": "x.rows",
"claim": "C100: rows are kept"
},
{
"file": "GroupInsert/Model",
"def": "bind",
"old": "x.rows ++ [i]",
"new": "x.rows ++ [i, i]",
"claim": "C100: rows are kept once"
},
{
"file": "GroupInsert/Model",
"def": "bind",
"old": "x.rows ++ [i]",
"new": "[i]",
"claim": "C100: the rows of the others are kept"
},
{
"file": "GroupInsert/Model",
"def": "execCall",
"old": "if x.cntExec + 1 ≠ 1 then",
"new": "if x.cntExec + 1 ≠ 2 then",
"claim": "C101: the first to execute runs the statement"
},
{
"file": "GroupInsert/Model",
"def": "execCall",
"old": "({ x with cntExec := x.cntExec + 1, locked := false }, .asleep)",
"new": "({ x with locked := false }, .asleep)",
"claim": "C101: executing is counted"
},
{
"file": "GroupInsert/Model",
"def": "execCall",
"old": "({ x with cntExec := x.cntExec + 1, locked := false }, .asleep)",
"new": "({ x with cntExec := x.cntExec + 1 }, .asleep)",
"claim": "C101: waiting releases the lock"
},
{
"file": "GroupInsert/Model",
"def": "execCall",
"old": "else ({ x with cntExec := x.cntExec + 1, locked := false }, .begin)",
"new": "else ({ x with cntExec := x.cntExec + 1 }, .begin)",
"claim": "C101: the runner releases the lock so that others may join"
},
{
"file": "GroupInsert/Model",
"def": "wake",
"old": "if x.state = .finished then .returned x.lastErr false else .asleep",
"new": ".returned x.lastErr false",
"claim": "C100: a spurious wake-up is no result"
},
{
"file": "GroupInsert/Model",
"def": "wake",
"old": "if x.state = .finished then .returned x.lastErr false else .asleep",
"new": "if x.state ≠ .new then .returned x.lastErr false else .asleep",
"claim": "C100: a spurious wake-up is no result"
},
{
"file": "GroupInsert/Model",
"def": "wake",
"old": ".returned x.lastErr false",
"new": ".returned .success false",
"claim": "C100: the others are told of errors"
},
{
"file": "GroupInsert/Model",
"def": "beginRes",
"old": "if isRollback e then .begin else .close (.finish e)",
"new": "if isRollback e then .begin else .close (.finish .success)",
"claim": "C100: a failed begin is reported"
},
{
"file": "GroupInsert/Model",
"def": "beginRes",
"old": "else .close .exec",
"new": "else .exec",
"claim": "C101: the group is closed before it is executed"
},
{
"file": "GroupInsert/Model",
"def": "after",
"old": ".exec => .exec",
"new": ".exec => .fin .success",
"claim": "C100: success means inserted"
},
{
"file": "GroupInsert/Model",
"def": "check",
"old": "x.cnt = x.cntExec",
"new": "True",
"claim": "C100: the group waits for those who joined"
},
{
"file": "GroupInsert/Model",
"def": "check",
"old": "x.cnt = x.cntExec",
"new": "x.cntExec ≤ x.cnt",
"claim": "C100: the group waits for those who joined"
},
{
"file": "GroupInsert/Model",
"def": "close",
"old": "if x.state ≠ .new then (t, x, after k)",
"new": "if x.state = .new then (t, x, after k)",
"claim": "C100: the group is closed before it is executed"
},
{
"file": "GroupInsert/Model",
"def": "close",
"old": "setKey t x.query none",
"new": "t",
"claim": "C101: nobody joins a closed group"
},
{
"file": "GroupInsert/Model",
"def": "close",
"old": "{ x with state := .pending }",
"new": "x",
"claim": "C101: a group is closed once"
},
{
"file": "GroupInsert/Model",
"def": "execRes",
"old": "({ x with lastErr := e },",
"new": "(x,",
"claim": "C100: the others are told of a failed execution"
},
{
"file": "GroupInsert/Model",
"def": "execRes",
"old": "if isRollback e then .begin else .close (.finish e)",
"new": "if isRollback e then .commit else .close (.finish e)",
"claim": "C100: a deadlock is not committed"
},
{
"file": "GroupInsert/Model",
"def": "execRes",
"old": "if isRollback e then .begin else .close (.finish e)",
"new": "if isRollback e then .begin else .close (.finish .success)",
"claim": "C100: a failed execution is reported"
},
{
"file": "GroupInsert/Model",
"def": "execRes",
"old": "else .commit)",
"new": "else .close (.finish e))",
"claim": "C100: success means committed"
},
{
"file": "GroupInsert/Model",
"def": "commitRes",
"old": "if isRollback e then .begin else .close (.finish e)",
"new": "if isRollback e then .begin else .close (.finish .success)",
"claim": "C100: a failed commit is reported"
},
{
"file": "GroupInsert/Model",
"def": "commitRes",
"old": "  else .close (.finish e)",
"new": "  else .begin",
"claim": "C100: a committed statement is not run again"
},
{
"file": "GroupInsert/Model",
"def": "record",
"old": "if isError e then c else c ++ [(s, x.rows)]",
"new": "c ++ [(s, x.rows)]",
"claim": "C100: meaning of inserted: a failed commit inserts nothing"
},
{
"file": "GroupInsert/Model",
"def": "record",
"old": "c ++ [(s, x.rows)]",
"new": "c ++ [(s, x.rows.take 1)]",
"claim": "C100: all rows are inserted"
},
{
"file": "GroupInsert/Model",
"def": "finish",
"old": "{ x with state := .finished }",
"new": "x",
"claim": "C101: waiters learn that the result is there"
},
{
"file": "GroupInsert/Model",
"def": "rouse",
"old": "if p.s = s ∧ p.pc = .asleep then",
"new": "if p.s ≠ s ∧ p.pc = .asleep then",
"claim": "C101: the broadcast wakes those who wait for this statement"
},
{
"file": "GroupInsert/Model",
"def": "rouse",
"old": "then { p with pc := .awake } else p",
"new": "then p else p",
"claim": "C101: nobody sleeps for ever"
},
{
"file": "GroupInsert/Model",
"def": "destroy",
"old": "{ x with cnt := x.cnt - 1 }",
"new": "x",
"claim": "C101: leaving is counted"
},
{
"file": "GroupInsert/Model",
"def": "destroy",
"old": "if x.cnt - 1 ≠ 0 then .gone e m else .freeing e m",
"new": "if x.cnt - 1 = 0 then .gone e m else .freeing e m",
"claim": "C101: only the last one frees"
},
{
"file": "GroupInsert/Model",
"def": "destroy",
"old": "if x.cnt - 1 ≠ 0 then .gone e m else .freeing e m",
"new": ".freeing e m",
"claim": "C101: only the last one frees"
},
{
"file": "GroupInsert/Model",
"def": "destroy",
"old": "if x.cnt - 1 ≠ 0 then .gone e m else .freeing e m",
"new": ".gone e m",
"claim": "C101: the last one frees"
},
{
"file": "GroupInsert/Model",
"def": "free",
"old": "{ x with freed := true }",
"new": "x",
"claim": "C101: the statement is freed"
}
]