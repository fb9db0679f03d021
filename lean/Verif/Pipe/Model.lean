/-! Model of `thread/m_thread_pipeline.c`: the threads of the steps of a pipeline and any number of threads that use it.

The mutex and the condition variables are those of the system and trusted to behave as specified by POSIX: a section under the
mutex is one step, waiting on a condition releases the mutex and sleeps in the same step, signals and broadcasts wake sleeping
threads, and sleeping threads may wake without reason.  Only the thread of a step waits on the condition of the step.  The thread of
a step gives up the mutex between two iterations of its loop in the model, which allows more schedules than the code. -/
namespace Verif.Pipe

/-- A task, named so that all tasks inserted are different. -/
abbrev Task := Nat

/-- `M_thread_pipeline_result_t`. -/
inductive Res | success | fail | abort
deriving DecidableEq, Repr

/-- Where the thread of a step is. -/
inductive PC
  /-- at the top of the loop of `pipeline_thread_cb` -/
  | top
  /-- sleeping in `pipeline_fetch_task` -/
  | sleepF
  /-- in the callback of the step -/
  | run (x : Task)
  /-- the callback has returned -/
  | ret (x : Task) (ok : Bool)
  /-- sleeping in `pipeline_finish_step` because the next step has a task waiting -/
  | sleepS (x : Task)
  | wokenS (x : Task)
  /-- ended -/
  | dead
deriving DecidableEq, Repr

/-- `thread/m_thread_pipeline.c:61-68`, `M_thread_pipeline_step_t`, and its thread. -/
structure Stp where
  pc : PC
  slot : Option Task
deriving DecidableEq, Repr

/-- Where a thread that uses the pipeline is. -/
inductive U
  | idle
  /-- sleeping in `M_thread_pipeline_wait` -/
  | wSleep (limit : Nat)
  | wWoken (limit : Nat)
  /-- in `M_thread_pipeline_destroy`, waiting until no task is left -/
  | dSleep
  | dWoken
  /-- in `M_thread_pipeline_destroy`, waiting for the end of the thread of a step -/
  | dJoin (i : Nat)
  | dDone
deriving DecidableEq, Repr

/-- `thread/m_thread_pipeline.c:71-82`, `struct M_thread_pipeline`, and its users.  `acc`, `fin`, `runs` and `oks` only record what has
happened: the tasks accepted, the calls of the finish callback, and the calls of the step callbacks that have begun and that have
succeeded. -/
structure St where
  status : Bool
  noabort : Bool
  steps : List Stp
  queue : List Task
  cnt : Int
  us : List U
  acc : List Task
  fin : List (Task × Res)
  runs : List (Nat × Task)
  oks : List (Nat × Task)
deriving DecidableEq, Repr

/-- `thread/m_thread_pipeline.c:293-336`, `M_thread_pipeline_create` with `n` steps and `m` users. -/
def init (noabort : Bool) (n m : Nat) : St :=
  ⟨true, noabort, List.replicate n ⟨.top, none⟩, [], 0, List.replicate m .idle, [], [], [], []⟩

/-- The thread of a step after a signal to the condition of the step. -/
def wake (a : Stp) : Stp :=
  match a.pc with
  | .sleepF => { a with pc := .top }
  | .sleepS x => { a with pc := .wokenS x }
  | _ => a

/-- A user after a broadcast to the condition of the pipeline. -/
def wakeU : U → U
  | .wSleep n => .wWoken n | .dSleep => .dWoken | u => u

/-- `M_thread_cond_signal(pipeline->steps[k].cond)`. -/
def signal (k : Nat) (steps : List Stp) : List Stp := steps.modify k wake

/-- The signal to the step before step `k`, if there is one. -/
def signalPrev (k : Nat) (steps : List Stp) : List Stp := if k ≠ 0 then signal (k - 1) steps else steps

/-- `thread/m_thread_pipeline.c:198-204`, `pipeline_finish_task`. -/
def finishTask (s : St) (x : Task) (r : Res) : St := { s with fin := s.fin ++ [(x, r)], cnt := s.cnt - 1, us := s.us.map wakeU }

/-- `thread/m_thread_pipeline.c:172-196`, `pipeline_fetch_task` for step `k` with the record `a`. -/
def fetch (s : St) (k : Nat) (a : Stp) : St :=
  match a.slot with
  | some x => { s with steps := signalPrev k (s.steps.set k ⟨.run x, none⟩), runs := s.runs ++ [(k, x)] }
  | none =>
    if k = 0 then
      match s.queue with
      | x :: q => { s with steps := s.steps.set k ⟨.run x, none⟩, queue := q, runs := s.runs ++ [(k, x)] }
      | [] => { s with steps := s.steps.set k ⟨.sleepF, none⟩ }
    else { s with steps := signalPrev k (s.steps.set k ⟨.sleepF, none⟩) }

/-- `thread/m_thread_pipeline.c:281-286`, aborting the queued tasks. -/
def abortAll (s : St) : List Task → St
  | [] => { s with queue := [] }
  | x :: q => abortAll (finishTask s x .abort) q

/-- `thread/m_thread_pipeline.c:275-289`, the end of `pipeline_thread_cb` for step `k` with the record `a`. -/
def exitStep (s : St) (k : Nat) (a : Stp) : St :=
  let s1 := match a.slot with
    | some x => finishTask s x .abort
    | none => s
  let s2 := if k = 0 then abortAll s1 s1.queue else s1
  { s2 with steps := s2.steps.set k ⟨.dead, none⟩ }

/-- `thread/m_thread_pipeline.c:249-290`, `pipeline_thread_cb`, the top of the loop. -/
def top (s : St) (k : Nat) (a : Stp) : St := if s.status = false then exitStep s k a else fetch s k a

/-- `thread/m_thread_pipeline.c:232-247`, the end of `pipeline_finish_step`, from the loop that waits for the next step. -/
def sendNext (s : St) (k : Nat) (a : Stp) (x : Task) : St :=
  match s.steps[k + 1]? with
  | none => s
  | some b =>
    if b.slot ≠ none then { s with steps := s.steps.set k { a with pc := .sleepS x } }
    else if s.status = false then finishTask { s with steps := s.steps.set k { a with pc := .top } } x .fail
    else { s with steps := signal (k + 1) ((s.steps.set k { a with pc := .top }).set (k + 1) { b with slot := some x }) }

/-- `thread/m_thread_pipeline.c:211-221`, the shutdown after a failure in `pipeline_finish_step`. -/
def failure (s : St) (ok : Bool) : St :=
  if ok = false ∧ s.noabort = false then { s with status := false, steps := s.steps.map wake, us := s.us.map wakeU } else s

/-- `thread/m_thread_pipeline.c:223-225`, the result in `pipeline_finish_step`. -/
def result (s : St) (k : Nat) (ok : Bool) : Res :=
  if s.status = false ∧ k ≠ s.steps.length - 1 then .abort else if ok then .success else .fail

/-- `thread/m_thread_pipeline.c:206-247`, `pipeline_finish_step` for step `k`. -/
def finishStep (s : St) (k : Nat) (a : Stp) (x : Task) (ok : Bool) : St :=
  let s1 := failure s ok
  let rv := result s1 k ok
  if rv ≠ .success ∨ k = s.steps.length - 1 then finishTask { s1 with steps := s1.steps.set k { a with pc := .top } } x rv
  else sendNext s1 k a x

/-- `thread/m_thread_pipeline.c:339-358`, `M_thread_pipeline_task_insert`. -/
def insert (s : St) (x : Task) : St :=
  if s.status = false then s else { s with queue := s.queue ++ [x], steps := signal 0 s.steps, cnt := s.cnt + 1, acc := s.acc ++ [x] }

/-- `thread/m_thread_pipeline.c:85-99`, `M_thread_pipeline_wait` by user `j`, the top of the loop. -/
def wait (s : St) (j limit : Nat) : St :=
  if s.cnt ≤ limit then { s with us := s.us.set j .idle } else { s with us := s.us.set j (.wSleep limit) }

/-- `thread/m_thread_pipeline.c:127-170`, `M_thread_pipeline_destroy` by user `j`, the first section under the mutex. -/
def destroy (s : St) (j : Nat) : St :=
  { s with status := false, steps := s.steps.map wake, us := (s.us.map wakeU).set j .dWoken }

/-- `thread/m_thread_pipeline.c:127-170`, `M_thread_pipeline_destroy` by user `j`: before the thread of step `i` is joined. -/
def join (s : St) (j i : Nat) : St :=
  if i < s.steps.length then { s with steps := signal i s.steps, us := s.us.set j (.dJoin i) } else { s with us := s.us.set j .dDone }

/-- `thread/m_thread_pipeline.c:127-170`, `M_thread_pipeline_destroy` by user `j`: the wait for the tasks. -/
def destroyWait (s : St) (j : Nat) : St :=
  if s.cnt ≤ 0 then join s j 0 else { s with us := s.us.set j .dSleep }

/-- One step of a thread.  Callbacks return anything at any time. -/
inductive Step : St → St → Prop
  | top {s : St} {k : Nat} {a : Stp} : s.steps[k]? = some a → a.pc = .top → Step s (top s k a)
  | callback {s : St} {k : Nat} {a : Stp} {x : Task} (ok : Bool) : s.steps[k]? = some a → a.pc = .run x →
      Step s { s with steps := s.steps.set k { a with pc := .ret x ok }, oks := if ok then s.oks ++ [(k, x)] else s.oks }
  | finish {s : St} {k : Nat} {a : Stp} {x : Task} {ok : Bool} : s.steps[k]? = some a → a.pc = .ret x ok → Step s (finishStep s k a x ok)
  | resume {s : St} {k : Nat} {a : Stp} {x : Task} : s.steps[k]? = some a → a.pc = .wokenS x → Step s (sendNext s k a x)
  | spurious {s : St} {k : Nat} : Step s { s with steps := signal k s.steps }
  | spuriousU {s : St} {j : Nat} {u : U} : s.us[j]? = some u → Step s { s with us := s.us.set j (wakeU u) }
  | insert {s : St} {j : Nat} {x : Task} : s.us[j]? = some .idle → x ∉ s.acc → Step s (insert s x)
  | wait {s : St} {j limit : Nat} : s.us[j]? = some .idle → Step s (wait s j limit)
  | waitResume {s : St} {j limit : Nat} : s.us[j]? = some (.wWoken limit) → Step s (wait s j limit)
  | destroy {s : St} {j : Nat} : s.us[j]? = some .idle → Step s (destroy s j)
  | destroyResume {s : St} {j : Nat} : s.us[j]? = some .dWoken → Step s (destroyWait s j)
  | joined {s : St} {j i : Nat} {a : Stp} : s.us[j]? = some (.dJoin i) → s.steps[i]? = some a → a.pc = .dead → Step s (join s j (i + 1))

/-- The states that a pipeline of `n` steps with `m` users can reach. -/
inductive Reach (noabort : Bool) (n m : Nat) : St → Prop
  | init : Reach noabort n m (init noabort n m)
  | step {s s'} : Reach noabort n m s → Step s s' → Reach noabort n m s'

end Verif.Pipe
