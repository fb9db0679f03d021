import Verif.StateMachine.Model

/-!
# What a user of a state machine may rely on

The specification speaks about the machine as the user built it (`Skel`: ids, allowed
transitions, callbacks, whether there is a cleanup machine) and about the trace of events, not
about the bookkeeping of the machine.  Histories are lists of events with the newest first.
-/

namespace Verif.StateMachine

/-- The callbacks of a state. -/
inductive KSkel (D : Type) where
  | func (f : Fn D)
  | clean (f : Reason → Fn D)
  | sub (pre : Option (PreFn D)) (post : Option (Status → Fn D))

/-- A state as the user added it. -/
structure Skel (D : Type) where
  id : Nat
  nextIds : Option (List Nat)
  hasCleanup : Bool
  kind : KSkel D

/-- The callbacks of a state, forgetting what its children are doing. -/
def kskel {D C : Type} : Kind D C → KSkel D
  | .func f => .func f
  | .clean f => .clean f
  | .sub _ pre post => .sub pre post
  | .inter _ pre post _ => .sub pre post

/-- The state as the user added it. -/
def skel {D C : Type} (s : St D C) : Skel D := ⟨s.id, s.nextIds, s.cleanup.isSome, kskel s.kind⟩

namespace Spec
variable {D : Type}

/-- Statuses with which a run is not over. -/
def Waits (st : Status) : Prop := st = .wait ∨ st = .pause

/-- Statuses with which a run is over. -/
def Final (st : Status) : Prop := st ≠ .wait ∧ st ≠ .pause ∧ st ≠ .next ∧ st ≠ .prev ∧ st ≠ .cont

/-- What a state function's status counts as: the statuses meant for states stand, all others
are errors of the state. -/
def Counts (st st' : Status) : Prop :=
  (st ∈ [Status.next, .prev, .cont, .wait, .pause, .done] ∧ st' = st) ∨
  (st ∉ [Status.next, .prev, .cont, .wait, .pause, .done] ∧ st' = .errState)

/-- The last event left a sub machine in the middle of its work. -/
def busy : List (Ev D) → Bool
  | .visit _ _ (.ran .wait) _ _ _ _ :: _ => true
  | .visit _ _ (.ran .pause) _ _ _ _ :: _ => true
  | _ => false

/-- What entering a sub machine does before the sub machine is run: the pre function, unless there
is none or the sub machine is in the middle of its work. -/
def Enters (pre : Option (PreFn D)) (inside : Bool) (d : D) (dflt : Nat) (d1 : D) (n1 : Nat) :
    Prop :=
  ((inside = true ∨ pre = none) ∧ d1 = d ∧ n1 = dflt) ∨
  (inside = false ∧ ∃ f st1, pre = some f ∧ f d .cont dflt = (d1, true, st1, n1))

/-- What leaving a sub machine that returned `cst` does: the post function; without one, DONE only
means that the sub machine is done. -/
def Leaves (post : Option (Status → Fn D)) (cst : Status) (d2 : D) (n1 : Nat) (d' : D)
    (st : Status) (next : Nat) : Prop :=
  match post with
  | none => d' = d2 ∧ next = n1 ∧ st = if cst = .done then .next else cst
  | some g => ∃ st1, g cst d2 n1 = (d', st1, next) ∧ st = if st1 = .wait then .next else st1

/-- A visit that the callbacks of the state can have produced.  `reason` is what cleanup functions
are told, `inside` says that the sub machine was in the middle of its work. -/
def Emits (reason : Reason) (inside : Bool) (k : KSkel D) (dflt : Nat) (sub : Sub) (st : Status)
    (next : Nat) (d d' : D) : Prop :=
  match k with
  | .func f => sub = .notSub ∧ ∃ st0, f d dflt = (d', st0, next) ∧ Counts st0 st
  | .clean f => sub = .notSub ∧ ∃ st0, f reason d dflt = (d', st0, next) ∧ Counts st0 st
  | .sub pre post =>
    (sub = .skipped ∧ inside = false ∧ ∃ f, pre = some f ∧ f d .cont dflt = (d', false, st, next)) ∨
    (∃ cst d1 n1 d2, sub = .ran cst ∧ Enters pre inside d dflt d1 n1 ∧
      ((Waits cst ∧ d' = d2 ∧ st = cst ∧ next = n1) ∨
       (¬ Waits cst ∧ Leaves post cst d2 n1 d' st next)))

/-- `n` follows `id` in the order in which the states were added; 0 follows the last. -/
def Follows (ids : List Nat) (id n : Nat) : Prop :=
  (∃ a b, ids = a ++ id :: n :: b) ∨ (n = 0 ∧ ∃ a, ids = a ++ [id])

/-- The states that succeeded and have not been gone back over, the last one first. -/
def goodStack (single : Bool) : List (Ev D) → List Nat
  | [] => []
  | .visit id _ sub st _ _ _ :: past =>
    if st = .next ∨ (st = .pause ∧ sub ≠ .ran .pause) then
      if single then [id] else id :: goodStack single past
    else if st = .prev then (goodStack single past).tail
    else goodStack single past
  | _ :: past => goodStack single past

/-- The states continued to since the last success or return to the caller. -/
def contsSince : List (Ev D) → List Nat
  | .visit _ _ _ .cont next _ _ :: past => next :: contsSince past
  | .visit _ _ _ .prev _ _ _ :: past => contsSince past
  | _ => []

/-- A visit after which the cleanup of the state is due: a function that completed and was not
skipped, a sub machine that was entered. -/
def completes (sub : Sub) (st : Status) (inside : Bool) : Bool :=
  match sub with
  | .notSub => st ≠ .wait && st ≠ .cont
  | .skipped => false
  | .ran _ => !inside

/-- The states whose cleanup is due, the last one first. -/
def due : List (Ev D) → List Nat
  | [] => []
  | .visit id _ sub st _ _ _ :: past =>
    if completes sub st (busy past) then id :: due past else due past
  | _ :: past => due past

/-- What follows a visit. -/
inductive Then where
  /-- The same state is visited again, after returning the status to the caller. -/
  | stay
  /-- This state is visited next. -/
  | goto (id : Nat)
  /-- The machine is finished. -/
  | finish (st : Status)
  deriving DecidableEq, Repr

/-- The transition to `next` from state `s`. -/
def move (fl : Flags) (ss : List (Skel D)) (past : List (Ev D)) (s : Skel D) (st : Status)
    (next : Nat) : Then :=
  if next = 0 then
    if fl.explicitNext = false ∧ fl.linearEnd = true then .finish .done else .finish .errNoNext
  else if ∃ l, s.nextIds = some l ∧ next ∉ l then .finish .errBadNext
  else if st = .cont ∧ fl.contLoop = false ∧ next ∈ contsSince past then .finish .errInfCont
  else if fl.selfCall = false ∧ next = s.id then .finish .errSelfNext
  else if ∃ t ∈ ss, t.id = next then .goto next
  else .finish .errBadId

/-- What the documentation says follows a visit of `s` with the given outcome. -/
def after (fl : Flags) (ss : List (Skel D)) (past : List (Ev D)) (s : Skel D) (sub : Sub)
    (st : Status) (next : Nat) : Then :=
  match st with
  | .wait => .stay
  | .pause => if sub = .ran .pause then .stay else move fl ss past s st next
  | .next => move fl ss past s st next
  | .cont => move fl ss past s st next
  | .prev =>
    match goodStack fl.singlePrev past with
    | [] => .finish .errNoPrev
    | p :: _ => .goto p
  | _ => .finish st

/-- A legal visit of state `id` after the history `past`. -/
structure Visit (fl : Flags) (reason : Reason) (ss : List (Skel D)) (past : List (Ev D)) (s : Skel D)
    (e : Ev D) : Prop where
  mem : s ∈ ss
  ev : ∃ dflt sub st next d d', e = .visit s.id dflt sub st next d d' ∧
    (if fl.explicitNext then dflt = 0 else Follows (ss.map (·.id)) s.id dflt) ∧
    Emits reason (busy past) s.kind dflt sub st next d d'

/-- What follows the event `e` (a visit of `s`) after the history `past`. -/
def afterEv (fl : Flags) (ss : List (Skel D)) (past : List (Ev D)) (s : Skel D) : Ev D → Then
  | .visit _ _ sub st next _ _ => after fl ss past s sub st next
  | _ => .stay

/-- Legal histories, ending with a visit of the given state. -/
inductive Works (fl : Flags) (reason : Reason) (ss : List (Skel D)) : Skel D → List (Ev D) → Prop where
  | first {s : Skel D} {e : Ev D} (h : ss.head? = some s) (hv : Visit fl reason ss [] s e) :
      Works fl reason ss s [e]
  | stay {s s' : Skel D} {e e' : Ev D} {past : List (Ev D)} (h : Works fl reason ss s (e :: past))
      (ht : afterEv fl ss past s e = .stay) (hs : s'.id = s.id)
      (hv : Visit fl reason ss (e :: past) s' e') :
      Works fl reason ss s' (e' :: e :: past)
  | goto {s s' : Skel D} {e e' : Ev D} {past : List (Ev D)} (h : Works fl reason ss s (e :: past))
      (ht : afterEv fl ss past s e = .goto s'.id) (hv : Visit fl reason ss (e :: past) s' e') :
      Works fl reason ss s' (e' :: e :: past)

/-- Each id once, where it comes first. -/
def firsts : List Nat → List Nat
  | [] => []
  | x :: xs => x :: (firsts xs).filter (· ≠ x)

/-- The state has a cleanup machine. -/
def hasCleanup (ss : List (Skel D)) (id : Nat) : Bool := ss.any fun s => s.id = id && s.hasCleanup

/-- The cleanups that are due after the history, in order. -/
def cleanups (fl : Flags) (ss : List (Skel D)) (past : List (Ev D)) : List Nat :=
  if fl.oneCleanup then (firsts (due past)).filter (hasCleanup ss)
  else (due past).filter (hasCleanup ss)

/-- The cleanups to run for a machine that finishes with `st` after the history. -/
def toClean (fl : Flags) (ss : List (Skel D)) (st : Status) (past : List (Ev D)) : List Nat :=
  if st = .done ∧ fl.doneCleanup = false then [] else cleanups fl ss past

/-- `Cleans ids evs rest`: the events `evs` (oldest first) are the cleanups of `ids`, one after the
other, each run until it is over; those of `rest` remain. -/
inductive Cleans : List Nat → List (Ev D) → List Nat → Prop where
  | nil (ids : List Nat) : Cleans ids [] ids
  | wait {id : Nat} {ids rest : List Nat} {st : Status} {d d' : D} {evs : List (Ev D)} (h : Waits st)
      (hr : Cleans (id :: ids) evs rest) : Cleans (id :: ids) (.clean id st d d' :: evs) rest
  | over {id : Nat} {ids rest : List Nat} {st : Status} {d d' : D} {evs : List (Ev D)} (h : Final st)
      (hr : Cleans ids evs rest) : Cleans (id :: ids) (.clean id st d d' :: evs) rest

/-- The data goes from event to event. -/
inductive Threads : D → List (Ev D) → D → Prop where
  | nil (d : D) : Threads d [] d
  | visit {id dflt : Nat} {sub : Sub} {st : Status} {next : Nat} {d d1 d2 : D} {evs : List (Ev D)}
      (h : Threads d1 evs d2) : Threads d (.visit id dflt sub st next d d1 :: evs) d2
  | clean {id : Nat} {st : Status} {d d1 d2 : D} {evs : List (Ev D)}
      (h : Threads d1 evs d2) : Threads d (.clean id st d d1 :: evs) d2
  | drain {id : Nat} {d d1 d2 : D} {evs : List (Ev D)}
      (h : Threads d1 evs d2) : Threads d (.drain id d d1 :: evs) d2

/-- The last event of the list is a visit with this status. -/
def LastStatus (evs : List (Ev D)) (st : Status) : Prop :=
  (∃ a id dflt sub next d d', evs = a ++ [.visit id dflt sub st next d d']) ∨
  (∃ a id d d', evs = a ++ [.clean id st d d'])

/-- A machine that is finished: it did its work until a visit finished it, then ran the cleanups
that were due, and returns what finished it. -/
def Complete (fl : Flags) (reason : Reason) (ss : List (Skel D)) (tr : List (Ev D)) (st : Status) :
    Prop :=
  ∃ work clean s e past, tr = work ++ clean ∧ work.reverse = e :: past ∧
    Works fl reason ss s (e :: past) ∧ afterEv fl ss past s e = .finish st ∧
    Cleans (toClean fl ss st (e :: past)) clean []

/-- A machine that has returned WAIT or PAUSE while at work: it will go on with a state. -/
def Paused (fl : Flags) (reason : Reason) (ss : List (Skel D)) (tr : List (Ev D)) (st : Status) :
    Prop :=
  ∃ s e past, tr.reverse = e :: past ∧ Works fl reason ss s (e :: past) ∧
    (afterEv fl ss past s e = .stay ∨ (st = .pause ∧ ∃ id, afterEv fl ss past s e = .goto id)) ∧
    LastStatus tr st

/-- A machine that has returned WAIT or PAUSE while cleaning up: `st0` is what finished it, and
the cleanup machine that returned `st` and the rest remain to be run. -/
def Tidying (fl : Flags) (reason : Reason) (ss : List (Skel D)) (tr : List (Ev D)) (st0 st : Status) :
    Prop :=
  ∃ work clean s e past rest, tr = work ++ clean ∧ work.reverse = e :: past ∧
    Works fl reason ss s (e :: past) ∧ afterEv fl ss past s e = .finish st0 ∧
    Cleans (toClean fl ss st0 (e :: past)) clean rest ∧ rest ≠ [] ∧ LastStatus clean st

/-- The status that is reported for a machine finished by `st0`: the same, except that having no
previous state to go back to is reported as a bad id. -/
def Reported (st0 st : Status) : Prop := st = st0 ∨ (st0 = .errNoPrev ∧ st = .errBadId)

/-- Events that stay clear of the places where the machine departs from its documentation: a state
that returns CONTINUE has no cleanup machine, a pre function does not decline with PAUSE, and PAUSE
does not name a state that does not exist. -/
def Plain (ss : List (Skel D)) : Ev D → Prop
  | .visit id _ sub st next _ _ =>
    (sub = .notSub ∧ st = .cont → hasCleanup ss id = false) ∧
    (sub = .skipped → st ≠ .pause) ∧
    (st = .pause → sub = .ran .pause ∨ next = 0 ∨ ∃ t ∈ ss, t.id = next)
  | _ => True

/-- With ONE_CLEANUP: every cleanup machine is over at once and without an error. -/
def Smooth (fl : Flags) (ev : List (Ev D)) : Prop :=
  fl.oneCleanup = true → ∀ e ∈ ev, ∀ id st d d', e = .clean id st d d' → st = .done

/-- What running the interleaved machines of a state once is: those that are not over are run in
order, each with the data the one before left; unless errors are to be passed over, the first error
stops the round. -/
inductive Round {C : Type} (run : C → D → Option (C × D × Status)) (noAbort : Bool) :
    List (C × Status) → D → List (C × Status) → D → Option Status → Prop where
  | nil (d : D) : Round run noAbort [] d [] d .none
  | idle {c : C} {s : Status} {cs cs' : List (C × Status)} {d d' : D} {r : Option Status}
      (h : s ≠ .none) (hw : ¬ Waits s) (hr : Round run noAbort cs d cs' d' r) :
      Round run noAbort ((c, s) :: cs) d ((c, s) :: cs') d' r
  | run {c c' : C} {s st : Status} {cs cs' : List (C × Status)} {d d1 d' : D} {r : Option Status}
      (h : s = .none ∨ Waits s) (hrun : run c d = some (c', d1, st))
      (hs : noAbort = true ∨ st = .done ∨ Waits st) (hr : Round run noAbort cs d1 cs' d' r) :
      Round run noAbort ((c, s) :: cs) d ((c', st) :: cs') d' r
  | stop {c c' : C} {s st : Status} {cs : List (C × Status)} {d d1 : D}
      (h : s = .none ∨ Waits s) (hrun : run c d = some (c', d1, st)) (hn : noAbort = false)
      (hd : st ≠ .done) (hw : ¬ Waits st) :
      Round run noAbort ((c, s) :: cs) d ((c', st) :: cs) d1 (some st)

/-- What the interleaved machines together come to once the round has ended: the error that stopped
it; otherwise WAIT while one is not over; otherwise the first status other than DONE, and DONE if
there is none. -/
def Verdict (statuses : List Status) (stop : Option Status) (st : Status) : Prop :=
  match stop with
  | some e => st = e
  | none =>
    ((∃ s ∈ statuses, Waits s) ∧ st = .wait) ∨
    ((∀ s ∈ statuses, ¬ Waits s) ∧
      ((∀ s ∈ statuses, s = .done) ∧ st = .done ∨
       ∃ a b, statuses = a ++ st :: b ∧ (∀ s ∈ a, s = .done) ∧ st ≠ .done))

end Spec

/-- A machine run again and again while it returns WAIT or PAUSE; the caller may change the data
between runs.  The trace is that of all the runs. -/
inductive Session {D C : Type} (o : Ops D C) : Mach D C → Mach D C → Status → List (Ev D) → Prop where
  | one {m m' : Mach D C} {fuel : Nat} {d d' : D} {st : Status} {ev : List (Ev D)}
      (h : run o fuel m d = some (m', d', st, ev)) : Session o m m' st ev
  | more {m m1 m' : Mach D C} {fuel : Nat} {d d1 : D} {st1 st : Status} {ev tr : List (Ev D)}
      (h : run o fuel m d = some (m1, d1, st1, ev)) (hw : Spec.Waits st1)
      (hs : Session o m1 m' st tr) : Session o m m' st (ev ++ tr)

/-- Children keep to the rules: a run either waits and is then running, or is over and is then not
running.  `ok` is an invariant of the children. -/
structure Lawful {D C : Type} (o : Ops D C) (ok : C → Prop) : Prop where
  run : ∀ {c d c' d' st}, ok c → o.run c d = some (c', d', st) →
    ok c' ∧ ((Spec.Waits st ∧ o.running c' = true) ∨ (Spec.Final st ∧ o.running c' = false))
  setReason : ∀ {c} (r), ok c → ok (o.setReason c r) ∧ o.running (o.setReason c r) = o.running c
  reset : ∀ {c} (r), ok c → ok (o.reset c r) ∧
    (r ≠ .none → o.running (o.reset c r) = o.running c)

/-- The children of a state satisfy the invariant. -/
def OkSt {D C : Type} (ok : C → Prop) (s : St D C) : Prop :=
  (∀ c, s.cleanup = some c → ok c) ∧
  match s.kind with
  | .sub c _ _ => ok c
  | .inter cs _ _ _ => ∀ c ∈ cs, ok c.1
  | _ => True

/-- The invariant of machines: a running machine that is being cleaned up knows what to return. -/
def OkM {D C : Type} (ok : C → Prop) (m : Mach D C) : Prop :=
  (m.running = true → m.reason ≠ .none → Spec.Final m.ret) ∧ ∀ s ∈ m.states, OkSt ok s

/-- The invariant at every depth. -/
def OkTree (D : Type) : (n : Nat) → Tree D n → Prop
  | 0 => fun c => Empty.elim c
  | n + 1 => fun (m : Mach D (Tree D n)) => OkM (OkTree D n) m

/-- The sub machine (or the interleaved ones) of the state is in the middle of its work. -/
def active {D C : Type} (o : Ops D C) : Kind D C → Bool
  | .sub c _ _ => o.running c
  | .inter _ _ _ irun => irun
  | _ => false

/-- A machine the user has built: ids are distinct and not 0 (insertion sees to that), and no sub
machine is in the middle of its work.  (For interleaved states this includes that `running`, which
is never initialised, is false.) -/
structure Ready {D C : Type} (o : Ops D C) (m : Mach D C) : Prop where
  nodup : (m.states.map (·.id)).Nodup
  nonzero : ∀ s ∈ m.states, s.id ≠ 0
  nonempty : m.states ≠ []
  idle : ∀ s ∈ m.states, active o s.kind = false
  stopped : m.running = false

end Verif.StateMachine
