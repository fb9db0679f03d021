[
 {
  "file": "Timer/Model",
  "def": "cmp",
  "old": "if t1.started = false ∧ t2.started = true then 1",
  "new": "if t1.started = false ∧ t2.started = true then -1",
  "claim": "due timers fire though others are stopped"
 },
 {
  "file": "Timer/Model",
  "def": "cmp",
  "old": "else if diff t2.next t1.next < 0 then -1\n  else if diff t2.next t1.next > 0 then 1\n",
  "new": "",
  "claim": "timers fire in order of due time"
 },
 {
  "file": "Timer/Model",
  "def": "cmp",
  "old": "else if diff t2.next t1.next < 0 then -1",
  "new": "else if diff t1.next t2.next < 0 then -1",
  "claim": "timers fire in order of due time"
 },
 {
  "file": "Timer/Model",
  "def": "schedule",
  "old": "base + d * 1000",
  "new": "base + d",
  "claim": "timers with a start time do not fire early"
 },
 {
  "file": "Timer/Model",
  "def": "schedule",
  "old": "base + t.interval * 1000",
  "new": "base + t.interval * 100",
  "claim": "timers do not fire early"
 },
 {
  "file": "Timer/Model",
  "def": "schedule",
  "old": "base + d * 1000, startTv := 0 }, true)\n    else ({ t with next := base + t.interval * 1000 }, true)",
  "new": "base + d * 1000, startTv := 0, started := true }, true)\n    else ({ t with next := base + t.interval * 1000, started := true }, true)",
  "claim": "refused or stopped timers do not fire"
 },
 {
  "file": "Timer/Model",
  "def": "start",
  "old": "cnt := 0, next := 0 } now wall",
  "new": "next := 0 } now wall",
  "claim": "fire count counts from start"
 },
 {
  "file": "Timer/Model",
  "def": "start",
  "old": "if r.2 then ({ r.1 with started := true }, true) else r",
  "new": "({ r.1 with started := true }, r.2)",
  "claim": "only started timers fire"
 },
 {
  "file": "Timer/Model",
  "def": "stopIfDone",
  "old": "t.cnt ≥ t.fireCnt",
  "new": "t.cnt > t.fireCnt",
  "claim": "at most fire_count times"
 },
 {
  "file": "Timer/Model",
  "def": "stopIfDone",
  "old": "t.fireCnt ≠ 0 ∧ t.cnt ≥ t.fireCnt",
  "new": "t.fireCnt = 1 ∧ t.cnt ≥ t.fireCnt",
  "claim": "at most fire_count times"
 },
 {
  "file": "Timer/Model",
  "def": "dueFirst",
  "old": "∧ x.2.started = true",
  "new": "",
  "claim": "stopped timers do not fire"
 },
 {
  "file": "Timer/Model",
  "def": "dueFirst",
  "old": "diff x.2.next curr ≥ 0",
  "new": "diff x.2.next curr ≥ -1",
  "claim": "timers do not fire early"
 },
 {
  "file": "Timer/Model",
  "def": "dueFirst",
  "old": "diff x.2.next curr ≥ 0",
  "new": "diff x.2.next curr > 0",
  "claim": "a pass fires all due timers"
 },
 {
  "file": "Timer/Model",
  "def": "Step.fire",
  "old": "{ x.2 with cnt := x.2.cnt + 1 }",
  "new": "x.2",
  "claim": "fires are counted"
 },
 {
  "file": "Timer/Model",
  "def": "Step.stopExec",
  "old": "Step s { s with exec := some (i, { t with started := false }), log := .stop i :: s.log }",
  "new": "Step s { s with exec := some (i, t), log := .stop i :: s.log }",
  "claim": "a timer stopped in its callback does not fire"
 },
 {
  "file": "Timer/Model",
  "def": "Step.removeOther",
  "old": "Ins (i, { t with started := false }) (dequeue i s.q) q' →\n      Step s { s with q := q', pend",
  "new": "Ins (i, t) (dequeue i s.q) q' →\n      Step s { s with q := q', pend",
  "claim": "a removed timer does not fire"
 },
 {
  "file": "Timer/Model",
  "def": "Ins",
  "old": "(∀ y ∈ l1, cmp y.2 x.2 ≤ 0) ∧ ∀ y ∈ l2, cmp x.2 y.2 ≤ 0",
  "new": "(∀ y ∈ l1, cmp y.2 x.2 ≤ 0)",
  "claim": "timers fire in order"
 }
]