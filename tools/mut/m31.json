[
{
"file": "AsyncWriter/Model",
"def": "inFlush",
"old": "s.mode == .flushStop || s.mode == .flushDestroy",
"new": "s.mode == .flushStop",
"claim": "C81 messages accepted while flushing / flush drops the queue"
},
{
"file": "AsyncWriter/Model",
"def": "wakeUp",
"old": "| .wait _ => { s with pc := .wait true }",
"new": "| .wait _ => s",
"claim": "C83 lost wake-up"
},
{
"file": "AsyncWriter/Model",
"def": "trim",
"old": "if stored > max then trim max q (stored - o.length) (dropped + 1)",
"new": "if stored > max then trim max q (stored - o.length) dropped",
"claim": "C81 dropped messages not counted"
},
{
"file": "AsyncWriter/Model",
"def": "trim",
"old": "if stored > max then trim max q (stored - o.length) (dropped + 1)",
"new": "if stored ≥ max then trim max q (stored - o.length) (dropped + 1)",
"claim": "C81 drops more than needed"
},
{
"file": "AsyncWriter/Model",
"def": "trim",
"old": "if stored > max then trim max q (stored - o.length) (dropped + 1)",
"new": "if stored > max then trim max q (stored - 1) (dropped + 1)",
"claim": "C81 limit of bytes"
},
{
"file": "AsyncWriter/Model",
"def": "write",
"old": "m.length > s.max then some (.tooBig, { s with dropped := s.dropped + 1 })",
"new": "m.length > s.max then some (.tooBig, s)",
"claim": "C81 too big message not counted"
},
{
"file": "AsyncWriter/Model",
"def": "write",
"old": "(trim s.max (s.q ++ [m])",
"new": "(trim s.max (m :: s.q)",
"claim": "C81 order of messages"
},
{
"file": "AsyncWriter/Model",
"def": "write",
"old": "(.added, wakeUp { s with q := q, stored := st, dropped := d })",
"new": "(.added, { s with q := q, stored := st, dropped := d })",
"claim": "C83 write does not wake the thread"
},
{
"file": "AsyncWriter/Model",
"def": "write",
"old": "else if inFlush s then some (.refused, s)",
"new": "else if false then some (.refused, s)",
"claim": "C81 messages accepted in flush"
},
{
"file": "AsyncWriter/Model",
"def": "write",
"old": "(s.stored + m.length) s.dropped).map",
"new": "(s.stored) s.dropped).map",
"claim": "C81 stored bytes"
},
{
"file": "AsyncWriter/Model",
"def": "pop",
"old": "stored := s.stored - o.length, dropped := 0",
"new": "stored := s.stored, dropped := 0",
"claim": "C81 space not given back"
},
{
"file": "AsyncWriter/Model",
"def": "pop",
"old": "stored := s.stored - o.length, dropped := 0",
"new": "stored := s.stored - o.length, dropped := s.dropped",
"claim": "C81 reported twice"
},
{
"file": "AsyncWriter/Model",
"def": "pop",
"old": "(if s.mode = .stopped then 0 else s.dropped + s.q.length)",
"new": "(if s.mode = .stopped then 0 else s.dropped)",
"claim": "C81 queue not counted at the end"
},
{
"file": "AsyncWriter/Model",
"def": "pop",
"old": "(inFlush s = true ∧ s.q.length = 0)",
"new": "inFlush s = true",
"claim": "C81 flush does not write the queue"
},
{
"file": "AsyncWriter/Model",
"def": "pop",
"old": "dropped := 0, cmd := 0, pc := afterPop (some o) s.cmd s.dropped",
"new": "dropped := 0, cmd := 0, pc := afterPop (some o) 0 s.dropped",
"claim": "C82 command lost with a message"
},
{
"file": "AsyncWriter/Model",
"def": "pop",
"old": "| [] => { s with cmd := 0, pc := afterPop none s.cmd 0 }",
"new": "| [] => { s with cmd := 0, pc := afterPop none 0 0 }",
"claim": "C82 forced command lost"
},
{
"file": "AsyncWriter/Model",
"def": "mustWait",
"old": "&& (!s.force || s.cmd == 0)",
"new": "",
"claim": "C82 forced command ignored while the queue is empty"
},
{
"file": "AsyncWriter/Model",
"def": "mustWait",
"old": "s.mode == .running && ",
"new": "",
"claim": "C83 sleeps while being stopped"
},
{
"file": "AsyncWriter/Model",
"def": "mustWait",
"old": "s.q.length == 0 && ",
"new": "",
"claim": "C83 sleeps with messages"
},
{
"file": "AsyncWriter/Model",
"def": "afterPop",
"old": "if n > 0 then .notice m c n else",
"new": "if n > 1 then .notice m c n else",
"claim": "C81 one dropped message not reported"
},
{
"file": "AsyncWriter/Model",
"def": "afterCb",
"old": "| some m, false => .putBack m n",
"new": "| some m, true => .putBack m n",
"claim": "C81 taken message put back, delivered twice"
},
{
"file": "AsyncWriter/Model",
"def": "replace",
"old": "m :: s.q, stored",
"new": "s.q ++ [m], stored",
"claim": "C81 order after putting back"
},
{
"file": "AsyncWriter/Model",
"def": "replace",
"old": "stored := s.stored + m.length }",
"new": "stored := s.stored }",
"claim": "C81 bytes of message put back"
},
{
"file": "AsyncWriter/Model",
"def": "replace",
"old": "s.dropped = 0 ∧ s.stored + m.length ≤ s.max",
"new": "s.stored + m.length ≤ s.max",
"claim": "C81 order: put back though newer ... were dropped before"
},
{
"file": "AsyncWriter/Model",
"def": "act",
"old": "cmd := s.cmd ||| c, force := s.force || f }; .to (if f then wakeUp s' else s')",
"new": "cmd := s.cmd ||| c, force := s.force || f }; .to s'",
"claim": "C82 forced command does not wake"
},
{
"file": "AsyncWriter/Model",
"def": "act",
"old": "{ s with cmd := s.cmd ||| c, force := s.force || f }",
"new": "{ s with cmd := c, force := s.force || f }",
"claim": "C82 earlier command overwritten"
},
{
"file": "AsyncWriter/Model",
"def": "act",
"old": "{ s with cmd := s.cmd ||| c, force := s.force || f }",
"new": "{ s with cmd := s.cmd ||| c, force := f }",
"claim": "C82 force flag forgotten"
},
{
"file": "AsyncWriter/Model",
"def": "act",
"old": ".to { wakeUp { s with cmd := s.cmd ||| c, force := true } with cmdDone := false, cmdWait := true }",
"new": ".to { wakeUp { s with cmd := s.cmd ||| c, force := true } with cmdWait := true }",
"claim": "C82 block returns at once"
},
{
"file": "AsyncWriter/Model",
"def": "act",
"old": ".to { wakeUp { s with cmd := s.cmd ||| c, force := true } with cmdDone := false",
"new": ".to { wakeUp { s with cmd := s.cmd ||| c } with cmdDone := false",
"claim": "C82 block does not force"
},
{
"file": "AsyncWriter/Model",
"def": "act",
"old": "if s.cmdWait ∧ s.cmdDone then",
"new": "if s.cmdWait then",
"claim": "C82 block does not wait"
},
{
"file": "AsyncWriter/Model",
"def": "act",
"old": ".to (wakeUp { s with mode := .stopped, stopWait := s.stopWait + 1 })",
"new": ".to { s with mode := .stopped, stopWait := s.stopWait + 1 }",
"claim": "C83 stop does not wake"
},
{
"file": "AsyncWriter/Model",
"def": "act",
"old": "if s.stopWait > 0 ∧ s.done then",
"new": "if s.stopWait > 0 then",
"claim": "C83 stop returns while the thread runs"
},
{
"file": "AsyncWriter/Model",
"def": "act",
"old": "if s.mode = .flushDestroy ∨ s.mode = .destroying then .to s\n    else if s.mode = .stopped then .to { s with freed := true }",
"new": "if s.mode = .flushDestroy ∨ s.mode = .destroying then .to s\n    else if s.mode = .running then .to { s with freed := true }",
"claim": "C83 memory given back while the thread runs"
},
{
"file": "AsyncWriter/Model",
"def": "act",
"old": "{ s with mode := if flush then .flushDestroy else .destroying }",
"new": "{ s with mode := if flush then .destroying else .flushDestroy }",
"claim": "C81 flush flag swapped"
},
{
"file": "AsyncWriter/Model",
"def": "act",
"old": ".to (wakeUp { s with mode := if flush then .flushStop else .stopped, killWait := true })",
"new": ".to (wakeUp { s with mode := if flush then .flushDestroy else .stopped, killWait := true })",
"claim": "C83 thread frees itself and the caller too"
},
{
"file": "AsyncWriter/Model",
"def": "act",
"old": "if d then .to { s with freed := true, killWait := false }\n    else .to (wakeUp { s with mode := .destroying, killWait := false })",
"new": "if d then .to { s with freed := true, killWait := false }\n    else .to { s with freed := true, killWait := false }",
"claim": "C83 after a timeout frees while the thread runs"
},
{
"file": "AsyncWriter/Model",
"def": "act",
"old": "mode := if s.mode = .flushDestroy then .destroying else if s.mode = .flushStop then .stopped else s.mode",
"new": "mode := if s.mode = .flushDestroy then .destroying else if s.mode = .flushStop then .destroying else s.mode",
"claim": "C83 freed twice"
},
{
"file": "AsyncWriter/Model",
"def": "act",
"old": "cmdDone := true, done := true, mode := mode",
"new": "cmdDone := true, mode := mode",
"claim": "C83 stop never comes back"
},
{
"file": "AsyncWriter/Model",
"def": "act",
"old": ".to { s with done := false, cmdDone := true, pc := .top, mode := .running }",
"new": ".to { s with cmdDone := true, pc := .top, mode := .running }",
"claim": "C83 done of an earlier run kept"
},
{
"file": "AsyncWriter/Model",
"def": "act",
"old": "pc := if m = none ∧ c = 0 then .stopCb else if ans then .call m c k else afterCb m k false",
"new": "pc := if m = none ∧ c = 0 then .stopCb else if ans then .top else afterCb m k false",
"claim": "C81 message lost after the report"
},
{
"file": "AsyncWriter/Model",
"def": "act",
"old": "pc := if c ≠ 0 then .signal m n ans else afterCb m n ans",
"new": "pc := .signal m n ans",
"claim": "C82 block ended by a message without command"
},
{
"file": "AsyncWriter/Model",
"def": "act",
"old": "pc := if mode = .destroying then .free else .gone }",
"new": "pc := .gone }",
"claim": "C83 memory never given back"
},
{
"file": "AsyncWriter/Model",
"def": "act",
"old": ".to (wakeUp { s with mode := if flush then .flushDestroy else .destroying })",
"new": ".to { s with mode := if flush then .flushDestroy else .destroying }",
"claim": "C83 destroy does not wake"
}
]