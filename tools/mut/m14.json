[
{"file":"Pool/Model","def":"fetchBody","old":"({ s with queue := rest, log := s.log ++ [q],","new":"({ s with log := s.log ++ [q],","claim":"a task taken from the queue is removed"},
{"file":"Pool/Model","def":"fetchBody","old":"ws := s.ws.set i (.run q) }, decide (s.waiters ≠ 0))","new":"ws := s.ws.set i (.run q) }, false)","claim":"taking a task signals a waiting dispatcher (an awake thread still exists, so nothing is lost until it sleeps, where it signals once)"},
{"file":"Pool/Model","def":"fetchBody","old":"else ({ s with numIdle := s.numIdle + 1, ws := s.ws.set i (.sleep false) }, decide (s.waiters ≠ 0))","new":"else ({ s with numIdle := s.numIdle + 1, ws := s.ws.set i (.sleep false) }, false)","claim":"a thread going to sleep signals users waiting for a free thread"},
{"file":"Pool/Model","def":"insBody","old":"c.maxQ > s.queue.length then","new":"c.maxQ ≥ s.queue.length then","claim":"the queue does not exceed its maximum"},
{"file":"Pool/Model","def":"insBody","old":"(if todo = [] then .idle else .ins todo true) }, true)","new":"(if todo = [] then .idle else .ins todo true) }, false)","claim":"an insertion wakes a pool thread"},
{"file":"Pool/Model","def":"insBody","old":"queue := s.queue ++ [t], insd","new":"queue := t :: s.queue, insd","claim":"tasks run in the order of insertion"},
{"file":"Pool/Model","def":"spawn","old":"s.numT < c.maxT then","new":"s.numT ≤ c.maxT then","claim":"the number of threads does not exceed the maximum"},
{"file":"Pool/Model","def":"spawn","old":"s.numIdle ≤ s.queue.length","new":"s.numIdle < s.queue.length","claim":"the first task of a pool without threads starts one"},
{"file":"Pool/Model","def":"notify","old":"if pr.isWaiting = true ∧ remaining = 0 then","new":"if pr.isWaiting = true ∧ remaining = 1 then","claim":"the last task wakes the waiting parent"},
{"file":"Pool/Model","def":"notify","old":"let remaining := pr.remaining - 1","new":"let remaining := pr.remaining","claim":"a finished task is counted down"},
{"file":"Pool/Model","def":"waitBody","old":"if pr.remaining = 0 then","new":"if pr.remaining = 0 ∨ pr.isWaiting = true then","claim":"a spurious wakeup does not end the wait of the parent"},
{"file":"Pool/Model","def":"waitBody","old":"else { s with ps := s.ps.set p { pr with isWaiting := true }","new":"else { s with ps := s.ps.set p { pr with isWaiting := pr.isWaiting }","claim":"a waiting parent is marked as waiting"},
{"file":"Pool/Model","def":"exit","old":"if s.up = false ∧ numT = 0 then s.cs.map wakeI else s.cs","new":"s.cs","claim":"the last thread wakes the destroyer"},
{"file":"Pool/Model","def":"availBody","old":"s.numIdle ≠ 0 ∨ s.numT < c.maxT then","new":"s.numIdle > 1 ∨ s.numT < c.maxT then","claim":"a user waiting for a free thread returns when one is idle"},
{"file":"Pool/Model","def":"Step.destroy","old":"up := false, ws := s.ws.map wakeO }","new":"up := false }","claim":"destroying wakes all sleeping threads"},
{"file":"Pool/Model","def":"Step.dispatch","old":"pr.remaining + ts.length","new":"pr.remaining + 1","claim":"all tasks of a dispatch are counted"}
]
