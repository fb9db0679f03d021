[
 {
  "file": "Pipe/Model",
  "def": "finishTask",
  "old": "cnt := s.cnt - 1",
  "new": "cnt := s.cnt",
  "claim": "the count equals accepted minus finished"
 },
 {
  "file": "Pipe/Model",
  "def": "finishTask",
  "old": "us := s.us.map wakeU }\n\n/-- `thread/m_thread_pipeline.c:172",
  "new": "us := s.us }\n\n/-- `thread/m_thread_pipeline.c:172",
  "claim": "waiters are woken when tasks finish"
 },
 {
  "file": "Pipe/Model",
  "def": "fetch",
  "old": "signalPrev k (s.steps.set k ⟨.run x, none⟩), runs",
  "new": "s.steps.set k ⟨.run x, none⟩, runs",
  "claim": "a step waiting to hand over is woken"
 },
 {
  "file": "Pipe/Model",
  "def": "fetch",
  "old": "s.steps.set k ⟨.run x, none⟩, queue := q,",
  "new": "s.steps.set k ⟨.run x, none⟩, queue := x :: q,",
  "claim": "a task is fetched once"
 },
 {
  "file": "Pipe/Model",
  "def": "fetch",
  "old": "signalPrev k (s.steps.set k ⟨.run x, none⟩)",
  "new": "signalPrev k (s.steps.set k ⟨.run x, some x⟩)",
  "claim": "a task is run once per step"
 },
 {
  "file": "Pipe/Model",
  "def": "exitStep",
  "old": "| some x => finishTask s x .abort\n    | none => s\n  let s2",
  "new": "| some x => s\n    | none => s\n  let s2",
  "claim": "a waiting task is finished at shutdown"
 },
 {
  "file": "Pipe/Model",
  "def": "exitStep",
  "old": "if k = 0 then abortAll s1 s1.queue else s1",
  "new": "s1",
  "claim": "queued tasks are finished at shutdown"
 },
 {
  "file": "Pipe/Model",
  "def": "exitStep",
  "old": "if k = 0 then abortAll s1 s1.queue else s1",
  "new": "if k = s1.steps.length - 1 then abortAll s1 s1.queue else s1",
  "claim": "queued tasks are finished when the first step has ended"
 },
 {
  "file": "Pipe/Model",
  "def": "sendNext",
  "old": "if b.slot ≠ none then",
  "new": "if false then",
  "claim": "a waiting task is not overwritten"
 },
 {
  "file": "Pipe/Model",
  "def": "sendNext",
  "old": "signal (k + 1) ((s.steps.set k { a with pc := .top }).set",
  "new": "((s.steps.set k { a with pc := .top }).set",
  "claim": "the next step is woken"
 },
 {
  "file": "Pipe/Model",
  "def": "sendNext",
  "old": "{ b with slot := some x }",
  "new": "{ a with slot := some x }",
  "claim": "tasks are not lost"
 },
 {
  "file": "Pipe/Model",
  "def": "result",
  "old": "if s.status = false ∧ k ≠ s.steps.length - 1 then .abort else if ok then .success else .fail",
  "new": "if ok then .success else .abort",
  "claim": "FAIL for failing callbacks"
 },
 {
  "file": "Pipe/Model",
  "def": "finishStep",
  "old": "if rv ≠ .success ∨ k = s.steps.length - 1 then",
  "new": "if rv ≠ .success then",
  "claim": "tasks finish after the last step"
 },
 {
  "file": "Pipe/Model",
  "def": "finishStep",
  "old": "if rv ≠ .success ∨ k = s.steps.length - 1 then",
  "new": "if rv ≠ .success ∨ k = 0 then",
  "claim": "SUCCESS only after all steps"
 },
 {
  "file": "Pipe/Model",
  "def": "finishStep",
  "old": "if rv ≠ .success ∨ k = s.steps.length - 1 then",
  "new": "if k = s.steps.length - 1 then",
  "claim": "a task reaches step k+1 only after succeeding in step k"
 },
 {
  "file": "Pipe/Model",
  "def": "insert",
  "old": "s.queue ++ [x]",
  "new": "x :: s.queue",
  "claim": "tasks are handled in insertion order"
 },
 {
  "file": "Pipe/Model",
  "def": "insert",
  "old": "steps := signal 0 s.steps, cnt",
  "new": "steps := s.steps, cnt",
  "claim": "the first step is woken by an insertion"
 },
 {
  "file": "Pipe/Model",
  "def": "insert",
  "old": "if s.status = false then s else {",
  "new": "{",
  "claim": "no task is accepted after shutdown"
 },
 {
  "file": "Pipe/Model",
  "def": "wait",
  "old": "if s.cnt ≤ limit",
  "new": "if s.cnt < limit",
  "claim": "wait returns when the limit is reached"
 },
 {
  "file": "Pipe/Model",
  "def": "destroy",
  "old": "steps := s.steps.map wake, us := (s.us.map wakeU).set j .dWoken",
  "new": "steps := s.steps, us := (s.us.map wakeU).set j .dWoken",
  "claim": "shutdown wakes the steps"
 },
 {
  "file": "Pipe/Model",
  "def": "destroyWait",
  "old": "if s.cnt ≤ 0 then join s j 0",
  "new": "if s.cnt ≤ 1 then join s j 0",
  "claim": "destroy returns only when all tasks are finished"
 },
 {
  "file": "Pipe/Model",
  "def": "join",
  "old": "if i < s.steps.length then",
  "new": "if i + 1 < s.steps.length then",
  "claim": "destroy returns only when all threads have ended"
 }
]