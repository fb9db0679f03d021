[
{
"file": "StateMachine/Model",
"def": "linearNext",
"old": "if s.id = id then t.id else linearNext (t :: ss) id",
"new": "if t.id = id then s.id else linearNext (t :: ss) id",
"claim": "C97: the default next state is the one added after the current one"
},
{
"file": "StateMachine/Model",
"def": "insertPrev",
"old": "if !m.flags.singlePrev || m.prevIds.isEmpty then { m with prevIds := id :: m.prevIds }",
"new": "if m.flags.singlePrev || m.prevIds.isEmpty then { m with prevIds := id :: m.prevIds }",
"claim": "C97: PREV goes back over all successes unless SINGLE_PREV"
},
{
"file": "StateMachine/Model",
"def": "insertPrev",
"old": "else { m with prevIds := id :: m.prevIds.tail }",
"new": "else m",
"claim": "C97: SINGLE_PREV goes back to the last success"
},
{
"file": "StateMachine/Model",
"def": "clearCleanup",
"old": "{ m with cleanupIds := [], curClean := 0, seen := [] }",
"new": "{ m with cleanupIds := [], curClean := 0 }",
"claim": "C97: a later session with ONE_CLEANUP cleans up again"
},
{
"file": "StateMachine/Model",
"def": "clearConts",
"old": "{ m with conts := [] }",
"new": "m",
"claim": "C97: continuations are counted per cycle"
},
{
"file": "StateMachine/Model",
"def": "unfinished",
"old": "  | .next | .prev | .cont | .pause | .wait => true",
"new": "  | .next | .prev | .cont | .wait => true",
"claim": "C97: a cleanup that pauses is taken up again"
},
{
"file": "StateMachine/Model",
"def": "cleanLoop",
"old": "some ({ m' with cleanupIds := id :: rest }, d', st, [.clean id st d d'])",
"new": "some (m', d', st, [.clean id st d d'])",
"claim": "C97: a cleanup that waits is taken up again"
},
{
"file": "StateMachine/Model",
"def": "cleanLoop",
"old": "else if m.flags.oneCleanup && m.seen.contains id then",
"new": "else if m.seen.contains id then",
"claim": "C97: equivalent, nothing is seen without ONE_CLEANUP",
"comment": "equivalent: seen is empty without ONE_CLEANUP"
},
{
"file": "StateMachine/Model",
"def": "cleanLoop",
"old": "| none => cleanLoop o n (markSeen { m with cleanupIds := rest } id) d\n        | some c",
"new": "| none => some (clearCleanup m, d, .done, [])\n        | some c",
"claim": "C97: a state without cleanup does not end cleaning up"
},
{
"file": "StateMachine/Model",
"def": "cleanLoop",
"old": "match o.run (o.setReason c m.reason) d with",
"new": "match o.run (o.setReason c .error) d with",
"claim": "C98: cleanups are told the reason"
},
{
"file": "StateMachine/Model",
"def": "runCleanup",
"old": "if m.reason = .none then some (m, d, .done, [])",
"new": "if m.reason = .reset then some (m, d, .done, [])",
"claim": "C98: reset runs the cleanups"
},
{
"file": "StateMachine/Model",
"def": "finishCleanup",
"old": "else some (.ret { clearCleanup m' with running := false } d' m'.ret (ev0 ++ ev))",
"new": "else some (.ret { clearCleanup m' with running := false } d' st (ev0 ++ ev))",
"claim": "C97: the status that finished the machine is returned"
},
{
"file": "StateMachine/Model",
"def": "finishCleanup",
"old": "{ clearCleanup m' with running := false }",
"new": "clearCleanup m'",
"claim": "C97: the machine can be run again once over"
},
{
"file": "StateMachine/Model",
"def": "stateStatus",
"old": "  | s => s",
"new": "  | .cont => .next\n  | s => s",
"claim": "C97: CONTINUE is not recorded as a success"
},
{
"file": "StateMachine/Model",
"def": "callPost",
"old": "(d', if st' = .wait then .next else st', next')",
"new": "(d', st', next')",
"claim": "C97: WAIT from a post function counts as NEXT"
},
{
"file": "StateMachine/Model",
"def": "callPost",
"old": "| none => (d, if st = .done then .next else st, next)",
"new": "| none => (d, st, next)",
"claim": "C97: DONE of a sub machine does not end the machine"
},
{
"file": "StateMachine/Model",
"def": "callPre",
"old": "| some f => if running then (d, true, .cont, next) else f d .cont next",
"new": "| some f => f d .cont next",
"claim": "C97: the pre function is called on entry only"
},
{
"file": "StateMachine/Model",
"def": "interRound",
"old": "if !noAbort && !(st' = .done || waits st') then some ((c', st') :: cs, d', st', true)",
"new": "if !(st' = .done || waits st') then some ((c', st') :: cs, d', st', true)",
"claim": "C99: errors are passed over with INTERNOABORT"
},
{
"file": "StateMachine/Model",
"def": "interRound",
"old": "let allDone' := if waits st' then false else allDone",
"new": "let allDone' := if waits st' then false else true",
"claim": "C99: the visit waits while any machine waits"
},
{
"file": "StateMachine/Model",
"def": "interRound",
"old": "else match interRound o noAbort cs d' st' allDone' with",
"new": "else match interRound o noAbort cs d st' allDone' with",
"claim": "C99: the machines run on the same data"
},
{
"file": "StateMachine/Model",
"def": "interRound",
"old": "    if liveSub s then\n",
"new": "    if true then\n",
"claim": "C99: machines that are over are not run again"
},
{
"file": "StateMachine/Model",
"def": "firstBad",
"old": "if s = .done then firstBad cs else s",
"new": "if s = .wait then firstBad cs else s",
"claim": "C99: the first error is the result"
},
{
"file": "StateMachine/Model",
"def": "runSub",
"old": "some ⟨.sub c' pre post, p.1, .ran st, p.2.1, p.2.2, !o.running c, false⟩",
"new": "some ⟨.sub c' pre post, p.1, .ran st, p.2.1, p.2.2, false, false⟩",
"claim": "C97: a sub machine that ran at once is cleaned up"
},
{
"file": "StateMachine/Model",
"def": "runSub",
"old": "some ⟨.sub c' pre post, d', .ran st, st, r.2.2.2, !o.running c, st = .pause⟩",
"new": "some ⟨.sub c' pre post, d', .ran st, st, r.2.2.2, true, st = .pause⟩",
"claim": "C97: a sub machine that waits is cleaned up once per entry"
},
{
"file": "StateMachine/Model",
"def": "runSub",
"old": "else some ⟨.sub c pre post, r.1, .skipped, r.2.2.1, r.2.2.2, false, r.2.2.1 = .pause⟩",
"new": "else some ⟨.sub c pre post, r.1, .skipped, r.2.2.1, r.2.2.2, true, r.2.2.1 = .pause⟩",
"claim": "C97: a sub machine that was not entered is not cleaned up"
},
{
"file": "StateMachine/Model",
"def": "runInter",
"old": "some ⟨.inter (cs'.map fun c => (c.1, .none)) pre post false, p.1",
"new": "some ⟨.inter cs' pre post false, p.1",
"claim": "C99: the machines are made ready for the next entry"
},
{
"file": "StateMachine/Model",
"def": "runInter",
"old": "else some ⟨.inter cs' pre post true, d', .ran .wait, .wait, r.2.2.2, !irun, false⟩",
"new": "else some ⟨.inter cs' pre post irun, d', .ran .wait, .wait, r.2.2.2, !irun, false⟩",
"claim": "C99: the next visit goes on without calling pre"
},
{
"file": "StateMachine/Model",
"def": "runState",
"old": "some ⟨s.kind, r.1, .notSub, stateStatus r.2.1, r.2.2, stateStatus r.2.1 ≠ .wait, false⟩\n  | .clean f",
"new": "some ⟨s.kind, r.1, .notSub, stateStatus r.2.1, r.2.2, true, false⟩\n  | .clean f",
"claim": "C97: a state that waits is not cleaned up for every call"
},
{
"file": "StateMachine/Model",
"def": "goNext",
"old": "if m.flags.explicitNext || !m.flags.linearEnd then",
"new": "if !m.flags.linearEnd then",
"claim": "C97: LINEAR_END is ignored with EXPLICIT_NEXT"
},
{
"file": "StateMachine/Model",
"def": "goNext",
"old": "else if m.flags.doneCleanup then .again { m with reason := .done, ret := .done } d ev\n",
"new": "",
"claim": "C97: DONE_CLEANUP cleans up at the linear end"
},
{
"file": "StateMachine/Model",
"def": "goNext",
"old": "else if s.nextIds.any (fun l => !l.contains next) then",
"new": "else if s.nextIds.any (fun l => l.contains next) then",
"claim": "C97: only the allowed transitions are taken"
},
{
"file": "StateMachine/Model",
"def": "goNext",
"old": "else if st = .cont && !m.flags.contLoop && m.conts.contains next then",
"new": "else if !m.flags.contLoop && m.conts.contains next then",
"claim": "C97: NEXT into a state continued to before is allowed"
},
{
"file": "StateMachine/Model",
"def": "goNext",
"old": "else clearConts (insertPrev m m.cur)",
"new": "else clearConts (insertPrev m next)",
"claim": "C97: PREV goes back to the state that succeeded"
},
{
"file": "StateMachine/Model",
"def": "goNext",
"old": "let m' := if st = .cont then { m with conts := next :: m.conts }",
"new": "let m' := if st = .cont then { insertPrev m m.cur with conts := next :: m.conts }",
"claim": "C97: PREV does not go back to a state that was skipped"
},
{
"file": "StateMachine/Model",
"def": "goNext",
"old": "if !m.flags.selfCall && m.cur = next then",
"new": "if m.flags.selfCall && m.cur = next then",
"claim": "C97: a state may call itself only with SELF_CALL"
},
{
"file": "StateMachine/Model",
"def": "goNext",
"old": "else if st = .pause then .ret { m' with cur := next } d .pause ev",
"new": "else if st = .pause then .ret m' d .pause ev",
"claim": "C97: PAUSE goes on with the next state"
},
{
"file": "StateMachine/Model",
"def": "goPrev",
"old": "else .again { m with cur := p, prevIds := ps } d ev",
"new": "else .again { m with cur := p } d ev",
"claim": "C97: PREV twice goes back two states"
},
{
"file": "StateMachine/Model",
"def": "advance",
"old": "if m.flags.doneCleanup then .again (clearConts { m with reason := .done, ret := .done }) d ev",
"new": "if m.flags.doneCleanup then .again (clearConts { m with reason := .error, ret := .errState }) d ev",
"claim": "C97: DONE with DONE_CLEANUP returns DONE"
},
{
"file": "StateMachine/Model",
"def": "advance",
"old": "| _ => .again (clearConts (fail m st)) d ev",
"new": "| _ => .ret (clearConts { clearCleanup m with running := false }) d st ev",
"claim": "C97: an error cleans up"
},
{
"file": "StateMachine/Model",
"def": "pass",
"old": "cleanupIds := if r.reg then m.cur :: m.cleanupIds else m.cleanupIds }",
"new": "cleanupIds := if r.reg then r.next :: m.cleanupIds else m.cleanupIds }",
"claim": "C97: the state that ran is cleaned up"
},
{
"file": "StateMachine/Model",
"def": "pass",
"old": "if m.reason ≠ .none then cleanPass o m (some s) d",
"new": "if m.reason = .error then cleanPass o m (some s) d",
"claim": "C98: reset visits no further state"
},
{
"file": "StateMachine/Model",
"def": "start",
"old": "      prevIds := []\n",
"new": "",
"claim": "C97: a new session does not go back into the last one"
},
{
"file": "StateMachine/Model",
"def": "start",
"old": "      reason := .none\n",
"new": "",
"claim": "C97: a new session visits the states again"
},
{
"file": "StateMachine/Model",
"def": "reset",
"old": "{ m'' with reason := r, ret := .done }",
"new": "{ m'' with reason := r }",
"claim": "C98: reset returns DONE"
},
{
"file": "StateMachine/Model",
"def": "reset",
"old": "cur := 0, running := false }\n      else m'",
"new": "cur := 0 }\n      else m'",
"claim": "C98: reset without a reason starts again"
},
{
"file": "StateMachine/Model",
"def": "reset",
"old": "if r = .none then\n        { clearCleanup m' with",
"new": "if r = .reset then\n        { clearCleanup m' with",
"claim": "C98: reset with a reason cleans up"
},
{
"file": "StateMachine/Model",
"def": "insertState",
"old": "if s.id = 0 || (findSt m.states s.id).isSome then (m, false)",
"new": "if (findSt m.states s.id).isSome then (m, false)",
"claim": "C97: no state has id 0"
},
{
"file": "StateMachine/Model",
"def": "insertState",
"old": "({ m with states := m.states ++ [s] }, true)",
"new": "({ m with states := s :: m.states }, true)",
"claim": "C97: states are visited in the order in which they were added"
},
{
"file": "StateMachine/Model",
"def": "treeOps",
"old": "| some (m', d', st, _) => some (m', d', st)",
"new": "| some (m', _, st, _) => some (m', d, st)",
"claim": "C97: the data passes through sub machines"
}
]