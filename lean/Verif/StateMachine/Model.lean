/-!
# State machines (`base/data/m_state_machine.c`)

A machine is modelled over an arbitrary type `D` of user data and an arbitrary type `C` of
*child* machines (the cleanup machines, the sub machines and the interleaved sub machines of its
states).  What a child does when it is run is given by `Ops`; `Tree` and `treeOps` at the end tie
the knot, so a machine of nesting depth `n + 1` has machines of depth `n` as children.

Callbacks are arbitrary functions of the user data.  A run that never returns is `none`.
-/

namespace Verif.StateMachine

/-- `M_state_machine_status_t`, include/mstdlib/base/m_state_machine.h:565-628. -/
inductive Status where
  | none | next | prev | cont | errState | wait | pause | done | stopCleanup
  | errInvalid | errBadId | errNoNext | errBadNext | errSelfNext | errNoPrev | errInfCont
  deriving DecidableEq, Repr

/-- `M_state_machine_cleanup_reason_t`, include/mstdlib/base/m_state_machine.h:671-681. -/
inductive Reason where
  | none | done | error | reset | cancel
  deriving DecidableEq, Repr

/-- `M_state_machine_flags_t`, include/mstdlib/base/m_state_machine.h:632-667. -/
structure Flags where
  singlePrev : Bool := false
  contLoop : Bool := false
  selfCall : Bool := false
  doneCleanup : Bool := false
  oneCleanup : Bool := false
  explicitNext : Bool := false
  linearEnd : Bool := false
  interNoAbort : Bool := false
  deriving DecidableEq, Repr

/-- A state (or post) function: data and `*next` in; data, status and `*next` out. -/
abbrev Fn (D : Type) := D → Nat → D × Status × Nat

/-- A pre function: data, `*status` and `*next` in; data, result, `*status`, `*next` out. -/
abbrev PreFn (D : Type) := D → Status → Nat → D × Bool × Status × Nat

/-- The `d` union of `M_state_machine_state_t`, base/data/m_state_machine.c:54-73, by state type.
The `idx` member is only used for tracing and is left out. -/
inductive Kind (D C : Type) where
  /-- A state function. -/
  | func (f : Fn D)
  /-- A state of a cleanup machine; the function is also told the reason. -/
  | clean (f : Reason → Fn D)
  /-- A sub state machine with its pre and post functions. -/
  | sub (c : C) (pre : Option (PreFn D)) (post : Option (Status → Fn D))
  /-- Interleaved sub machines, each with the status it last returned, and `running`. -/
  | inter (cs : List (C × Status)) (pre : Option (PreFn D)) (post : Option (Status → Fn D))
      (irun : Bool)

/-- `M_state_machine_state_t`, base/data/m_state_machine.c:48-74, without the descriptions;
`id` is the key of the state in the hash table `states`. -/
structure St (D C : Type) where
  id : Nat
  nextIds : Option (List Nat)
  cleanup : Option C
  kind : Kind D C

/-- `struct M_state_machine`, base/data/m_state_machine.c:76-104.  The hash table `states` and the
list `state_ids` are kept in step by insertion and removal (lines 922-1002); they are one list in
insertion order here.  `cleanupIds` and `prevIds` are only used as stacks: the last element of
the C list is the head here.  Descriptions and tracing are left out. -/
structure Mach (D C : Type) where
  flags : Flags
  states : List (St D C)
  cleanupIds : List Nat := []
  seen : List Nat := []
  reason : Reason := .none
  preason : Reason := .none
  ret : Status := .none
  conts : List Nat := []
  prevIds : List Nat := []
  cur : Nat := 0
  curClean : Nat := 0
  running : Bool := false

/-- What can be done with a child machine: run it, look at `running`, set `pcleanup_reason`. -/
structure Ops (D C : Type) where
  run : C → D → Option (C × D × Status)
  running : C → Bool
  setReason : C → Reason → C
  reset : C → Reason → C

/-- What happened, as the trace callback reports it: what became of the sub machine, if any. -/
inductive Sub where
  /-- The state is a function. -/
  | notSub
  /-- The pre function decided against running the sub machine. -/
  | skipped
  /-- The sub machine (or the interleaved ones) was run and returned this. -/
  | ran (st : Status)
  deriving DecidableEq, Repr

/-- Observable events of one machine; those of its children are not recorded (they are the
children's own).  `visit` is one pass over a state (STATE_FINISH / PRE_FINISH / POST_FINISH):
`dflt` is what `*next` was set to beforehand, `next` what it was afterwards.  `clean` is one run of
a state's cleanup machine (CLEANUP).  `drain` is the running sub machine of the current state
being run once more because the machine is being cleaned up.  All carry the data before and after. -/
inductive Ev (D : Type) where
  | visit (id dflt : Nat) (sub : Sub) (st : Status) (next : Nat) (d d' : D)
  | clean (id : Nat) (st : Status) (d d' : D)
  | drain (id : Nat) (d d' : D)
  deriving DecidableEq, Repr

section
variable {D C : Type}

/-- `M_hash_u64vp_get (states, id)`. -/
def findSt (ss : List (St D C)) (id : Nat) : Option (St D C) := ss.find? (·.id == id)

/-- Store a changed state (the C code changes it in place). -/
def putSt (ss : List (St D C)) (id : Nat) (f : St D C → St D C) : List (St D C) :=
  ss.map fun s => if s.id = id then f s else s

/-- The state after `id` in insertion order, 0 if it is the last,
base/data/m_state_machine.c:525-540.  (The id is always in the list when its state was found.) -/
def linearNext : List (St D C) → Nat → Nat
  | [], _ => 0
  | [_], _ => 0
  | s :: t :: ss, id => if s.id = id then t.id else linearNext (t :: ss) id

/-- `M_state_machine_insert_prev_id`, base/data/m_state_machine.c:263-273. -/
def insertPrev (m : Mach D C) (id : Nat) : Mach D C :=
  if !m.flags.singlePrev || m.prevIds.isEmpty then { m with prevIds := id :: m.prevIds }
  else { m with prevIds := id :: m.prevIds.tail }

/-- `M_state_machine_clear_cleanup_ids`, base/data/m_state_machine.c:299-308. -/
def clearCleanup (m : Mach D C) : Mach D C :=
  { m with cleanupIds := [], curClean := 0, seen := [] }

/-- `M_state_machine_clear_continuations`, base/data/m_state_machine.c:311-316. -/
def clearConts (m : Mach D C) : Mach D C := { m with conts := [] }

/-- Statuses that mean "call me again" for `M_state_machine_run_cleanup`,
base/data/m_state_machine.c:362-366. -/
def unfinished : Status → Bool
  | .next | .prev | .cont | .pause | .wait => true
  | _ => false

/-- WAIT or PAUSE. -/
def waits : Status → Bool
  | .wait | .pause => true
  | _ => false

/-- The machine once the cleanup machine `c` of state `id` has been run,
base/data/m_state_machine.c:355-359. -/
def afterClean (o : Ops D C) (m : Mach D C) (id : Nat) (c : C) : Mach D C :=
  { m with
    curClean := id
    states := putSt m.states id fun s =>
      { s with cleanup := s.cleanup.map fun _ => o.setReason c .none } }

/-- Mark a state as having been cleaned up, base/data/m_state_machine.c:339-345. -/
def markSeen (m : Mach D C) (id : Nat) : Mach D C :=
  if m.flags.oneCleanup then { m with seen := id :: m.seen } else m

/-- Forget that a state has been cleaned up, base/data/m_state_machine.c:388-391. -/
def unmarkSeen (m : Mach D C) (id : Nat) : Mach D C :=
  if m.flags.oneCleanup then { m with seen := m.seen.filter (· ≠ id) } else m

/-- The loop of `M_state_machine_run_cleanup`, base/data/m_state_machine.c:330-396, for the `len`
entries that were on the list.  Every way round the loop leaves `status` at DONE, so the loop
itself ends with DONE. -/
def cleanLoop (o : Ops D C) : Nat → Mach D C → D → Option (Mach D C × D × Status × List (Ev D))
  | 0, m, d => some (clearCleanup m, d, .done, [])
  | n + 1, m, d =>
    match m.cleanupIds with
    | [] => some (clearCleanup m, d, .done, [])
    | id :: rest =>
      if id = 0 then some (clearCleanup m, d, .done, [])
      else if m.flags.oneCleanup && m.seen.contains id then
        cleanLoop o n { m with cleanupIds := rest } d
      else
        match (findSt m.states id).bind (·.cleanup) with
        | none => cleanLoop o n (markSeen { m with cleanupIds := rest } id) d
        | some c =>
          match o.run (o.setReason c m.reason) d with
          | none => none
          | some (c', d', st) =>
            let m' := afterClean o (markSeen { m with cleanupIds := rest } id) id c'
            if unfinished st then
              some ({ m' with cleanupIds := id :: rest }, d', st, [.clean id st d d'])
            else
              match cleanLoop o n (if st = .done then m' else unmarkSeen m' id) d' with
              | none => none
              | some (m2, d2, st2, ev) => some (m2, d2, st2, .clean id st d d' :: ev)

/-- `M_state_machine_run_cleanup`, base/data/m_state_machine.c:319-397. -/
def runCleanup (o : Ops D C) (m : Mach D C) (d : D) :
    Option (Mach D C × D × Status × List (Ev D)) :=
  if m.reason = .none then some (m, d, .done, [])
  else cleanLoop o m.cleanupIds.length m d

/-- The loop that runs the interleaved sub machines that are still running when the machine is
cleaned up, base/data/m_state_machine.c:500-511.  `true`: it stopped at one that waits. -/
def cleanSubs (o : Ops D C) : List (C × Status) → D →
    Option (List (C × Status) × D × Option Status)
  | [], d => some ([], d, none)
  | (c, s) :: cs, d =>
    if o.running c then
      match o.run c d with
      | none => none
      | some (c', d', st) =>
        if waits st then some ((c', st) :: cs, d', some st)
        else match cleanSubs o cs d' with
          | none => none
          | some (cs', d2, r) => some ((c', st) :: cs', d2, r)
    else match cleanSubs o cs d with
      | none => none
      | some (cs', d2, r) => some ((c, s) :: cs', d2, r)

/-- Cleaning up the running sub machines of the current state before the machine itself,
base/data/m_state_machine.c:493-514.  The result carries the state's new contents, and the
status to return if a sub machine waits. -/
def cleanCurrent (o : Ops D C) (id : Nat) (k : Kind D C) (d : D) :
    Option (Kind D C × D × Option Status × List (Ev D)) :=
  match k with
  | .sub c pre post =>
    if o.running c then
      match o.run c d with
      | none => none
      | some (c', d', st) =>
        some (.sub c' pre post, d', if waits st then some st else none, [.drain id d d'])
    else some (k, d, none, [])
  | .inter cs pre post irun =>
    if irun then
      match cleanSubs o cs d with
      | none => none
      | some (cs', d', some st) => some (.inter cs' pre post true, d', some st, [.drain id d d'])
      | some (cs', d', none) => some (.inter cs' pre post false, d', none, [.drain id d d'])
    else some (k, d, none, [])
  | _ => some (k, d, none, [])

/-- What one pass of the main loop does: go round again, or return. -/
inductive Pass (D C : Type) where
  | again (m : Mach D C) (d : D) (ev : List (Ev D))
  | ret (m : Mach D C) (d : D) (st : Status) (ev : List (Ev D))

/-- The end of the cleanup branch, base/data/m_state_machine.c:516-522. -/
def finishCleanup (o : Ops D C) (m : Mach D C) (d : D) (ev0 : List (Ev D)) : Option (Pass D C) :=
  match runCleanup o m d with
  | none => none
  | some (m', d', st, ev) =>
    if waits st then some (.ret m' d' st (ev0 ++ ev))
    else some (.ret { clearCleanup m' with running := false } d' m'.ret (ev0 ++ ev))

/-- The cleanup branch of the main loop, base/data/m_state_machine.c:490-523. -/
def cleanPass (o : Ops D C) (m : Mach D C) (s : Option (St D C)) (d : D) : Option (Pass D C) :=
  match s with
  | none => finishCleanup o m d []
  | some s =>
    match cleanCurrent o s.id s.kind d with
    | none => none
    | some (k, d', r, ev) =>
      let m' := { m with states := putSt m.states s.id fun s => { s with kind := k } }
      match r with
      | some st => some (.ret m' d' st ev)
      | none => finishCleanup o m' d' ev

/-- Errors that only the machine itself should produce are turned into ERROR_STATE when a state
function returns them, base/data/m_state_machine.c:711-732. -/
def stateStatus : Status → Status
  | .none | .errInvalid | .errBadId | .errNoNext | .errBadNext | .errSelfNext | .errNoPrev
  | .errInfCont | .stopCleanup | .errState => .errState
  | s => s

/-- The sub machine or machines have finished: call the post function, or turn DONE into NEXT,
base/data/m_state_machine.c:569-588 and 673-692. -/
def callPost (post : Option (Status → Fn D)) (d : D) (st : Status) (next : Nat) :
    D × Status × Nat :=
  match post with
  | some f =>
    let (d', st', next') := f st d next
    (d', if st' = .wait then .next else st', next')
  | none => (d, if st = .done then .next else st, next)

/-- Call the pre function unless there is none or the sub machine is already running,
base/data/m_state_machine.c:545-553 and 596-604.  The result says whether to run the sub machine;
if not, `status` is the status of the state. -/
def callPre (pre : Option (PreFn D)) (running : Bool) (d : D) (next : Nat) :
    D × Bool × Status × Nat :=
  match pre with
  | some f => if running then (d, true, .cont, next) else f d .cont next
  | none => (d, true, .cont, next)

/-- An interleaved sub machine that has not finished, base/data/m_state_machine.c:625. -/
def liveSub : Status → Bool
  | .none | .wait | .pause => true
  | _ => false

/-- One round over the interleaved sub machines, base/data/m_state_machine.c:619-647.  The result
carries `status` and `all_done`. -/
def interRound (o : Ops D C) (noAbort : Bool) : List (C × Status) → D → Status → Bool →
    Option (List (C × Status) × D × Status × Bool)
  | [], d, st, allDone => some ([], d, st, allDone)
  | (c, s) :: cs, d, st, allDone =>
    if liveSub s then
      match o.run c d with
      | none => none
      | some (c', d', st') =>
        let allDone' := if waits st' then false else allDone
        if !noAbort && !(st' = .done || waits st') then some ((c', st') :: cs, d', st', true)
        else match interRound o noAbort cs d' st' allDone' with
          | none => none
          | some (cs', r) => some ((c', st') :: cs', r)
    else match interRound o noAbort cs d st allDone with
      | none => none
      | some (cs', r) => some ((c, s) :: cs', r)

/-- The first status of the sub machines that is not DONE, DONE if there is none,
base/data/m_state_machine.c:653-672 (with `M_STATE_MACHINE_INTERNOABORT`). -/
def firstBad : List (C × Status) → Status
  | [] => .done
  | (_, s) :: cs => if s = .done then firstBad cs else s

/-- The outcome of running a state: its new contents, data, what happened to the sub machine,
status, next id, whether the id goes on the cleanup list and whether a sub machine paused. -/
structure Outcome (D C : Type) where
  kind : Kind D C
  d : D
  sub : Sub
  st : Status
  next : Nat
  reg : Bool
  subPause : Bool

/-- Run a sub state machine state, base/data/m_state_machine.c:543-594. -/
def runSub (o : Ops D C) (c : C) (pre : Option (PreFn D)) (post : Option (Status → Fn D)) (d : D)
    (next : Nat) : Option (Outcome D C) :=
  let r := callPre pre (o.running c) d next
  if r.2.1 then
    match o.run c r.1 with
    | none => none
    | some (c', d', st) =>
      if waits st then
        some ⟨.sub c' pre post, d', .ran st, st, r.2.2.2, !o.running c, st = .pause⟩
      else
        let p := callPost post d' st r.2.2.2
        some ⟨.sub c' pre post, p.1, .ran st, p.2.1, p.2.2, !o.running c, false⟩
  else some ⟨.sub c pre post, r.1, .skipped, r.2.2.1, r.2.2.2, false, r.2.2.1 = .pause⟩

/-- Run an interleaved state, base/data/m_state_machine.c:595-699. -/
def runInter (o : Ops D C) (noAbort : Bool) (cs : List (C × Status)) (pre : Option (PreFn D))
    (post : Option (Status → Fn D)) (irun : Bool) (d : D) (next : Nat) :
    Option (Outcome D C) :=
  let r := callPre pre irun d next
  if r.2.1 then
    match interRound o noAbort cs r.1 .next true with
    | none => none
    | some (cs', d', st, allDone) =>
      if allDone then
        let st' := if noAbort then firstBad cs' else st
        let p := callPost post d' st' r.2.2.2
        some ⟨.inter (cs'.map fun c => (c.1, .none)) pre post false, p.1, .ran st', p.2.1, p.2.2,
          !irun, false⟩
      else some ⟨.inter cs' pre post true, d', .ran .wait, .wait, r.2.2.2, !irun, false⟩
  else some ⟨.inter cs pre post irun, r.1, .skipped, r.2.2.1, r.2.2.2, false, false⟩

/-- Run the current state, base/data/m_state_machine.c:542-738. -/
def runState (o : Ops D C) (m : Mach D C) (s : St D C) (d : D) (next : Nat) :
    Option (Outcome D C) :=
  match s.kind with
  | .func f =>
    let r := f d next
    some ⟨s.kind, r.1, .notSub, stateStatus r.2.1, r.2.2, stateStatus r.2.1 ≠ .wait, false⟩
  | .clean f =>
    let r := f m.preason d next
    some ⟨s.kind, r.1, .notSub, stateStatus r.2.1, r.2.2, stateStatus r.2.1 ≠ .wait, false⟩
  | .sub c pre post => runSub o c pre post d next
  | .inter cs pre post irun => runInter o m.flags.interNoAbort cs pre post irun d next

/-- Start cleaning up: set the reason and the status to return. -/
def fail (m : Mach D C) (st : Status) : Mach D C := { m with reason := .error, ret := st }

/-- The transition to `next`, base/data/m_state_machine.c:741-801; `st` is NEXT, CONTINUE or
PAUSE. -/
def goNext (m : Mach D C) (s : St D C) (st : Status) (next : Nat) (d : D) (ev : List (Ev D)) :
    Pass D C :=
  if next = 0 then
    if m.flags.explicitNext || !m.flags.linearEnd then .again (fail m .errNoNext) d ev
    else if m.flags.doneCleanup then .again { m with reason := .done, ret := .done } d ev
    else .ret (clearConts { clearCleanup m with running := false }) d .done ev
  else if s.nextIds.any (fun l => !l.contains next) then .again (fail m .errBadNext) d ev
  else if st = .cont && !m.flags.contLoop && m.conts.contains next then
    .again (fail m .errInfCont) d ev
  else
    let m' := if st = .cont then { m with conts := next :: m.conts }
      else clearConts (insertPrev m m.cur)
    if !m.flags.selfCall && m.cur = next then .again (fail m' .errSelfNext) d ev
    else if st = .pause then .ret { m' with cur := next } d .pause ev
    else .again { m' with cur := next } d ev

/-- The transition to the previous state, base/data/m_state_machine.c:803-811. -/
def goPrev (m : Mach D C) (d : D) (ev : List (Ev D)) : Pass D C :=
  match m.prevIds with
  | [] => .again (fail { m with cur := 0 } .errNoPrev) d ev
  | p :: ps =>
    if p = 0 then .again (fail { m with cur := 0, prevIds := ps } .errNoPrev) d ev
    else .again { m with cur := p, prevIds := ps } d ev

/-- Act on the status of the state that was run, base/data/m_state_machine.c:740-837. -/
def advance (m : Mach D C) (s : St D C) (st : Status) (next : Nat) (subPause : Bool) (d : D)
    (ev : List (Ev D)) : Pass D C :=
  match st with
  | .next | .cont => goNext m s st next d ev
  | .pause => if subPause then .ret (clearConts m) d .pause ev else goNext m s st next d ev
  | .prev => goPrev m d ev
  | .wait => .ret (clearConts m) d .wait ev
  | .done =>
    if m.flags.doneCleanup then .again (clearConts { m with reason := .done, ret := .done }) d ev
    else .ret (clearConts { clearCleanup m with running := false }) d .done ev
  | _ => .again (clearConts (fail m st)) d ev

/-- One pass of the main loop, base/data/m_state_machine.c:473-838. -/
def pass (o : Ops D C) (m : Mach D C) (d : D) : Option (Pass D C) :=
  match findSt m.states m.cur with
  | none => cleanPass o (fail m .errBadId) none d
  | some s =>
    if m.reason ≠ .none then cleanPass o m (some s) d
    else
      let dflt := if m.flags.explicitNext then 0 else linearNext m.states m.cur
      match runState o m s d dflt with
      | none => none
      | some r =>
        let m' := { m with
          states := putSt m.states m.cur fun s => { s with kind := r.kind }
          cleanupIds := if r.reg then m.cur :: m.cleanupIds else m.cleanupIds }
        some (advance m' s r.st r.next r.subPause r.d
          [.visit m.cur dflt r.sub r.st r.next d r.d])

/-- The main loop, base/data/m_state_machine.c:470-838.  It need not end; the first argument
bounds the number of passes and `none` is a run that has not returned by then. -/
def loop (o : Ops D C) : Nat → Mach D C → D → Option (Mach D C × D × Status × List (Ev D))
  | 0, _, _ => none
  | n + 1, m, d =>
    match pass o m d with
    | none => none
    | some (.ret m' d' st ev) => some (m', d', st, ev)
    | some (.again m' d' ev) =>
      match loop o n m' d' with
      | none => none
      | some (m2, d2, st, ev2) => some (m2, d2, st, ev ++ ev2)

/-- Starting a machine that is not running, base/data/m_state_machine.c:456-468. -/
def start (m : Mach D C) : Mach D C :=
  if m.running then m
  else
    { clearCleanup m with
      conts := []
      prevIds := []
      cur := (m.states.head?.map (·.id)).getD 0
      reason := .none
      ret := .none
      running := true }

/-- `M_state_machine_run`, base/data/m_state_machine.c:435-468, 841-848 and 1078-1081. -/
def run (o : Ops D C) (fuel : Nat) (m : Mach D C) (d : D) :
    Option (Mach D C × D × Status × List (Ev D)) :=
  if m.states.isEmpty then some ({ m with running := false, cur := 0 }, d, .done, [])
  else loop o fuel (start m) d

/-- Resetting the interleaved sub machines, base/data/m_state_machine.c:1100-1106. -/
def resetSubs (o : Ops D C) (r : Reason) (cs : List (C × Status)) : List (C × Status) :=
  cs.map fun c => (o.reset c.1 r, .none)

/-- Resetting what the current state is doing, base/data/m_state_machine.c:1096-1127. -/
def resetCurrent (o : Ops D C) (r : Reason) (m : Mach D C) (s : St D C) : Mach D C :=
  let last : Mach D C := match m.cleanupIds with
    | [] => m
    | id :: _ => { m with states := putSt m.states id fun t => { t with
                     cleanup := t.cleanup.map (o.reset · r) } }
  match s.kind with
  | .sub c pre post =>
    if o.running c then
      { m with states := putSt m.states s.id fun t => { t with kind := .sub (o.reset c r) pre post } }
    else last
  | .inter cs pre post _ =>
    { m with states := putSt m.states s.id fun t => { t with
        kind := .inter (resetSubs o r cs) pre post false
        cleanup := t.cleanup.map (o.reset · r) } }
  | _ => last

/-- `M_state_machine_reset`, base/data/m_state_machine.c:1085-1139. -/
def reset (o : Ops D C) (m : Mach D C) (r : Reason) : Mach D C :=
  if !m.running then m
  else match findSt m.states m.cur with
  | none => m
  | some s =>
    let m' := resetCurrent o r m s
    let m'' := if r = .none then
        { clearCleanup m' with conts := [], prevIds := [], cur := 0, running := false }
      else m'
    { m'' with reason := r, ret := .done }

/-- `M_state_machine_insert_state` and its variants, base/data/m_state_machine.c:922-993
and 1020-1046: the id must not be 0 and not be taken. -/
def insertState (m : Mach D C) (s : St D C) : Mach D C × Bool :=
  if s.id = 0 || (findSt m.states s.id).isSome then (m, false)
  else ({ m with states := m.states ++ [s] }, true)

end

/-- Machines of nesting depth at most `n`: the children of a machine of depth `n + 1` are
machines of depth `n`.  (A state owns duplicates of the machines it was given,
base/data/m_state_machine.c:124 and 161, so nothing is shared.) -/
def Tree (D : Type) : Nat → Type
  | 0 => Empty
  | n + 1 => Mach D (Tree D n)

/-- Running machines of depth `n`; at most `fuel` passes per run of each machine. -/
def treeOps (D : Type) (fuel : Nat) : (n : Nat) → Ops D (Tree D n)
  | 0 =>
    { run := fun c _ => Empty.elim c
      running := fun c => Empty.elim c
      setReason := fun c _ => Empty.elim c
      reset := fun c _ => Empty.elim c }
  | n + 1 =>
    { run := fun (m : Mach D (Tree D n)) d =>
        match run (treeOps D fuel n) fuel m d with
        | none => none
        | some (m', d', st, _) => some (m', d', st)
      running := fun (m : Mach D (Tree D n)) => m.running
      setReason := fun (m : Mach D (Tree D n)) r => { m with preason := r }
      reset := fun (m : Mach D (Tree D n)) r => StateMachine.reset (treeOps D fuel n) m r }

end Verif.StateMachine
