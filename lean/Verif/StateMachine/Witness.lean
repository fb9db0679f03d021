import Verif.StateMachine.Props

/-!
# State machines: concrete machines

The data is a log: every callback adds its number.
-/

namespace Verif.StateMachine
open Spec

/-- A callback that adds `k` to the log and returns `st`. -/
def say (k : Nat) (st : Status) : Fn (List Nat) := fun d n => (k :: d, st, n)

/-- A callback that adds `k` to the log, and returns WAIT the first time and `st` from then on. -/
def sayTwice (k : Nat) (st : Status) : Fn (List Nat) :=
  fun d n => (k :: d, if d.contains k then st else .wait, n)

/-- A machine with the given states and no children. -/
def leaf (fl : Flags) (ss : List (Nat × Fn (List Nat))) : Mach (List Nat) (Tree (List Nat) 0) :=
  { flags := fl, states := ss.map fun s => ⟨s.1, none, none, .func s.2⟩ }

/-- A cleanup machine with one state; the log also gets the reason. -/
def cleaner (f : Fn (List Nat)) : Mach (List Nat) (Tree (List Nat) 0) :=
  { flags := { linearEnd := true }
    states := [⟨1, none, none, .clean fun r d n =>
      f ((match r with | .none => 100 | .done => 101 | .error => 102 | .reset => 103 | .cancel => 104) :: d) n⟩] }

/-- A state function with or without a cleanup machine. -/
def fstate (id : Nat) (f : Fn (List Nat)) (c : Option (Mach (List Nat) (Tree (List Nat) 0)) := none) :
    St (List Nat) (Tree (List Nat) 1) := ⟨id, none, c, .func f⟩

/-- A machine of depth 2. -/
abbrev M2 := Mach (List Nat) (Tree (List Nat) 1)

/-- Running machines of depth 2. -/
abbrev ops : Ops (List Nat) (Tree (List Nat) 1) := treeOps (List Nat) 20 1

/-- What can be compared of a run. -/
def seenOf (r : Option (M2 × List Nat × Status × List (Ev (List Nat)))) :
    Option (List Nat × Status × List (Ev (List Nat))) := r.map fun r => r.2

/-- Two runs in a row. -/
def runTwice (m : M2) (d : List Nat) : Option (M2 × List Nat × Status × List (Ev (List Nat))) :=
  (run ops 20 m d).bind fun r => run ops 20 r.1 r.2.1

theorem leaf_ok (fl : Flags) (ss : List (Nat × Fn (List Nat))) : OkTree (List Nat) 1 (leaf fl ss) := by
  refine ⟨fun h => (by cases h), fun s hs => ?_⟩
  obtain ⟨t, _, rfl⟩ := List.mem_map.mp hs
  exact ⟨fun c hc => (by cases hc), trivial⟩

theorem cleaner_ok (f : Fn (List Nat)) : OkTree (List Nat) 1 (cleaner f) := by
  refine ⟨fun h => (by cases h), fun s hs => ?_⟩
  cases List.mem_singleton.mp hs
  exact ⟨fun c hc => (by cases hc), trivial⟩

/-! ## The hypotheses can be met -/

/-- Three states with cleanups and a sub machine; the last state fails. -/
def demo : M2 :=
  { flags := { linearEnd := true }
    states := [fstate 1 (say 1 .next) (some (cleaner (say 11 .done))),
      ⟨2, some [3], none, .sub (leaf { linearEnd := true } [(1, say 21 .next), (2, sayTwice 22 .next)])
        (some fun d _ n => (20 :: d, true, .next, n)) (some fun st d n => (29 :: d, if st = .done then .next else st, n))⟩,
      fstate 3 (say 3 .errState) (some (cleaner (sayTwice 13 .done)))] }

theorem demo_ready : Ready ops demo where
  nodup := by decide
  nonzero := by decide
  nonempty := by decide
  idle := by
    intro s hs
    simp only [demo, List.mem_cons, List.not_mem_nil, or_false] at hs
    rcases hs with rfl | rfl | rfl <;> rfl
  stopped := rfl

theorem demo_ok : OkTree (List Nat) 2 demo := by
  refine ⟨fun h => (by cases h), fun s hs => ?_⟩
  simp only [demo, List.mem_cons, List.not_mem_nil, or_false] at hs
  rcases hs with rfl | rfl | rfl
  · exact ⟨fun c hc => (by cases hc; exact cleaner_ok _), trivial⟩
  · exact ⟨fun c hc => (by cases hc), leaf_ok _ _⟩
  · exact ⟨fun c hc => (by cases hc; exact cleaner_ok _), trivial⟩

/-- The first run stops inside the sub machine, the second in the cleanup of the state that failed,
the third finishes: the log reads as documented. -/
example : seenOf (run ops 20 demo []) =
    some ([22, 21, 20, 1], .wait,
      [.visit 1 2 .notSub .next 2 [] [1], .visit 2 3 (.ran .wait) .wait 3 [1] [22, 21, 20, 1]]) := by
  decide +kernel

example : seenOf (runTwice demo []) =
    some ([13, 102, 3, 29, 22, 22, 21, 20, 1], .wait,
      [.visit 2 3 (.ran .done) .next 3 [22, 21, 20, 1] [29, 22, 22, 21, 20, 1],
       .visit 3 0 .notSub .errState 0 [29, 22, 22, 21, 20, 1] [3, 29, 22, 22, 21, 20, 1],
       .clean 3 .wait [3, 29, 22, 22, 21, 20, 1] [13, 102, 3, 29, 22, 22, 21, 20, 1]]) := by
  decide +kernel

example : seenOf ((runTwice demo []).bind fun r => run ops 20 r.1 r.2.1) =
    some ([11, 102, 13, 102, 13, 102, 3, 29, 22, 22, 21, 20, 1], .errState,
      [.clean 3 .done [13, 102, 3, 29, 22, 22, 21, 20, 1] [13, 102, 13, 102, 3, 29, 22, 22, 21, 20, 1],
       .clean 1 .done [13, 102, 13, 102, 3, 29, 22, 22, 21, 20, 1]
         [11, 102, 13, 102, 13, 102, 3, 29, 22, 22, 21, 20, 1]]) := by
  decide +kernel

/-- The hypotheses of `session_partial`, `tree_session_partial`, `continue_ends_partial` and
`run_threads` hold for a session of this machine. -/
example : ∃ m' d' st tr, run ops 20 demo [] = some (m', d', st, tr) ∧ Session ops demo m' st tr ∧
    Waits st ∧ (∀ e ∈ tr, Plain (demo.states.map skel) e) ∧ Smooth demo.flags tr ∧ demo.flags.contLoop = false := by
  have h : seenOf (run ops 20 demo []) = some ([22, 21, 20, 1], .wait,
      [.visit 1 2 .notSub .next 2 [] [1], .visit 2 3 (.ran .wait) .wait 3 [1] [22, 21, 20, 1]]) := by
    decide +kernel
  obtain ⟨⟨m', r⟩, h1, h2⟩ := Option.map_eq_some_iff.mp h
  cases h2
  refine ⟨m', _, _, _, h1, .one h1, .inl rfl, ?_, fun h => (by cases h), rfl⟩
  intro e he
  simp only [List.mem_cons, List.not_mem_nil, or_false] at he
  rcases he with rfl | rfl
  · exact ⟨fun h => (by cases h.2), fun h => (by cases h), fun h => (by cases h)⟩
  · exact ⟨fun h => (by cases h.1), fun h => (by cases h), fun h => (by cases h)⟩

/-- A machine that waits in a state of its own, for the reset theorems. -/
def idler : M2 :=
  { flags := {}
    states := [fstate 1 (say 1 .next) (some (cleaner (say 11 .done))), fstate 2 (say 2 .next)
      (some (cleaner (say 12 .done))), fstate 3 (say 3 .wait) (some (cleaner (say 13 .done)))] }

/-- The cleanups of the states that completed run in reverse order, with the reason given. -/
example : seenOf (run ops 20 idler []) = some ([3, 2, 1], .wait,
      [.visit 1 2 .notSub .next 2 [] [1], .visit 2 3 .notSub .next 3 [1] [2, 1],
       .visit 3 0 .notSub .wait 0 [2, 1] [3, 2, 1]]) ∧
    seenOf ((run ops 20 idler []).bind fun r => run ops 20 (reset ops r.1 .cancel) r.2.1) =
      some ([11, 104, 12, 104, 3, 2, 1], .done,
        [.clean 2 .done [3, 2, 1] [12, 104, 3, 2, 1], .clean 1 .done [12, 104, 3, 2, 1] [11, 104, 12, 104, 3, 2, 1]]) ∧
    busy ([.visit 3 0 .notSub .wait 0 [2, 1] [3, 2, 1], .visit 2 3 .notSub .next 3 [1] [2, 1],
      .visit 1 2 .notSub .next 2 [] [1]] : List (Ev (List Nat))) = false := by
  decide +kernel

/-- Reset without a reason: the next run starts at the first state. -/
example : (seenOf ((run ops 20 idler []).bind fun r => run ops 20 (reset ops r.1 .none) r.2.1)).map (·.2) =
    some (.wait,
      [.visit 1 2 .notSub .next 2 [3, 2, 1] [1, 3, 2, 1], .visit 2 3 .notSub .next 3 [1, 3, 2, 1] [2, 1, 3, 2, 1],
       .visit 3 0 .notSub .wait 0 [2, 1, 3, 2, 1] [3, 2, 1, 3, 2, 1]]) := by
  decide +kernel

/-- Two interleaved machines, each with its state; the first waits once. -/
def pair (a b : Fn (List Nat)) (irun : Bool := false) (c : Option (Mach (List Nat) (Tree (List Nat) 0)) := none) :
    St (List Nat) (Tree (List Nat) 1) :=
  ⟨1, none, c, .inter [(leaf { linearEnd := true } [(1, a)], .none), (leaf { linearEnd := true } [(1, b)], .none)]
    (some fun d _ n => (50 :: d, true, .next, n)) (some fun st d n => (59 :: d, st, n)) irun⟩

example : Spec.Steady (C := Tree (List Nat) 1) false [(leaf {} [], .none), (leaf {} [], .done)] :=
  ⟨⟨_, List.mem_cons_self .., .inl rfl⟩, fun _ c hc => by
    simp only [List.mem_cons, List.not_mem_nil, or_false] at hc
    rcases hc with rfl | rfl
    · exact .inl rfl
    · exact .inr (.inr rfl)⟩

example : seenOf (runTwice { flags := {}, states := [pair (sayTwice 51 .next) (say 52 .next)] } []) =
    some ([59, 51, 52, 51, 50], .done, [.visit 1 0 (.ran .done) .done 0 [52, 51, 50] [59, 51, 52, 51, 50]]) := by
  decide +kernel

/-! ## Where the code departs from its documentation -/

/-- A state that returns CONTINUE is cleaned up although "the cleanup for this state will not be
added to the cleanup list" (m_state_machine.h:584-592; base/data/m_state_machine.c:736-738). -/
theorem continue_cleanup_fails : ∃ m : M2,
    seenOf (run ops 20 m []) = some ([11, 102, 2, 1], .errState,
      [.visit 1 2 .notSub .cont 2 [] [1], .visit 2 0 .notSub .errState 0 [1] [2, 1],
       .clean 1 .done [2, 1] [11, 102, 2, 1]]) ∧
    cleanups m.flags (m.states.map skel)
      ([.visit 2 0 .notSub .errState 0 [1] [2, 1], .visit 1 2 .notSub .cont 2 [] [1]] : List (Ev (List Nat))) = [] :=
  ⟨{ flags := {}, states := [fstate 1 (say 1 .cont) (some (cleaner (say 11 .done))), fstate 2 (say 2 .errState)] },
    by decide +kernel⟩

/-- ERROR_NO_PREV is never reported: going back from the first state is reported as a bad id
(base/data/m_state_machine.c:803-811 and 481-485). -/
theorem no_prev_fails : ∃ m : M2,
    seenOf (run ops 20 m []) = some ([1], .errBadId, [.visit 1 0 .notSub .prev 0 [] [1]]) ∧
    after m.flags (m.states.map skel) [] (skel (fstate 1 (say 1 .prev))) .notSub .prev 0 = .finish .errNoPrev :=
  ⟨{ flags := {}, states := [fstate 1 (say 1 .prev)] }, by decide +kernel⟩

/-- With ONE_CLEANUP a cleanup that waits is never taken up again: the next run returns the final
status without running it (base/data/m_state_machine.c:334-345 and 362-370). -/
theorem one_cleanup_wait_fails : ∃ m : M2,
    seenOf (run ops 20 m []) = some ([11, 102, 1], .wait,
      [.visit 1 0 .notSub .errState 0 [] [1], .clean 1 .wait [1] [11, 102, 1]]) ∧
    seenOf (runTwice m []) = some ([11, 102, 1], .errState, []) :=
  ⟨{ flags := { oneCleanup := true }, states := [fstate 1 (say 1 .errState) (some (cleaner (sayTwice 11 .done)))] },
    by decide +kernel⟩

/-- With ONE_CLEANUP a cleanup that fails is run once for every visit all the same
(base/data/m_state_machine.c:388-391). -/
theorem one_cleanup_error_fails : ∃ m : M2, m.flags.oneCleanup = true ∧
    (seenOf (run ops 20 m [])).map (·.2.2.filter fun e => match e with | .clean .. => true | _ => false) =
      some [.clean 1 .errState [1, 2, 1] [11, 102, 1, 2, 1],
        .clean 1 .errState [11, 102, 1, 2, 1] [11, 102, 11, 102, 1, 2, 1]] :=
  ⟨{ flags := { oneCleanup := true }
     states := [fstate 1 (fun d n => (1 :: d, if d.contains 1 then .errState else .next, n))
         (some (cleaner (say 11 .errState))), fstate 2 (fun d _ => (2 :: d, .next, 1))] },
    by decide +kernel⟩

/-- STOP_CLEANUP does not stop the cleanups of the other states (m_state_machine.h:611-612;
base/data/m_state_machine.c:373-386 and 721). -/
theorem stop_cleanup_fails : ∃ m : M2,
    (seenOf (run ops 20 m [])).map (·.1) = some [11, 102, 12, 102, 2, 1] ∧
    ∃ c, (findSt m.states 2).bind (·.cleanup) = some c ∧ c = cleaner (say 12 .stopCleanup) :=
  ⟨{ flags := {}, states := [fstate 1 (say 1 .next) (some (cleaner (say 11 .done))),
      fstate 2 (say 2 .errState) (some (cleaner (say 12 .stopCleanup)))] }, by decide +kernel, _, rfl, rfl⟩

/-- PAUSE that names a state that does not exist returns PAUSE; the error only comes with the next
run ("an error will be returned by run instead of pause", m_state_machine.h:601-608). -/
theorem pause_bad_id_fails : ∃ m : M2,
    (seenOf (run ops 20 m [])).map (·.2.1) = some .pause ∧
    (seenOf (runTwice m [])).map (·.2.1) = some .errBadId ∧
    after m.flags (m.states.map skel) [] (skel (fstate 1 fun d _ => (1 :: d, .pause, 99))) .notSub .pause 99 =
      .finish .errBadId :=
  ⟨{ flags := {}, states := [fstate 1 fun d _ => (1 :: d, .pause, 99)] }, by decide +kernel⟩

/-- A pre function that declines with PAUSE: the next run does not go on with the next state but
visits the same one again (base/data/m_state_machine.c:589-594 and 813-818). -/
theorem skip_pause_fails : ∃ m : M2,
    seenOf (run ops 20 m []) = some ([1], .pause, [.visit 1 2 .skipped .pause 2 [] [1]]) ∧
    seenOf (runTwice m []) = some ([1, 1], .pause, [.visit 1 2 .skipped .pause 2 [1] [1, 1]]) ∧
    m.states.map (·.id) = [1, 2] :=
  ⟨{ flags := {}, states := [⟨1, none, none, .sub (leaf {} []) (some fun d _ n => (1 :: d, false, .pause, n)) none⟩,
      fstate 2 (say 2 .done)] }, by decide +kernel⟩

/-- `running` of an interleaved state is never initialised (base/data/m_state_machine.c:120 and
176-195).  If the memory happens to hold something else than 0 the pre function is not called and
the cleanup of the state is never run. -/
theorem interleaved_garbage_fails : ∃ m : Bool → M2, (∀ g, (m g).states.map skel = (m false).states.map skel) ∧
    (seenOf (run ops 20 (m false) [])).map (·.1) = some [13, 102, 59, 52, 51, 50] ∧
    (seenOf (run ops 20 (m true) [])).map (·.1) = some [59, 52, 51] :=
  ⟨fun g => { flags := {}, states := [pair (say 51 .next) (say 52 .errState) g (some (cleaner (say 13 .done)))] },
    fun g => by cases g <;> rfl, by decide +kernel⟩

/-- A machine with a sub machine whose first state has a cleanup and whose second waits. -/
abbrev M3 := Mach (List Nat) (Tree (List Nat) 2)

/-- Running machines of depth 3. -/
abbrev ops3 : Ops (List Nat) (Tree (List Nat) 2) := treeOps (List Nat) 20 2

/-- A sub machine that has something to clean up and waits. -/
def dirty : M2 :=
  { flags := { linearEnd := true }
    states := [fstate 1 (say 1 .next) (some (cleaner (say 11 .done))), fstate 2 (sayTwice 2 .next)] }

/-- Reset with a reason while interleaved machines are waiting: their cleanups are not run, although
those of a plain sub machine are (base/data/m_state_machine.c:500-512 and 1100-1106); the next run
of the machine finds them still waiting to be cleaned up and does not visit their states. -/
theorem reset_interleaved_fails : ∃ m s : M3,
    ((run ops3 20 s []).bind fun r => run ops3 20 (reset ops3 r.1 .cancel) r.2.1).map (fun r => (r.2.1, r.2.2.1)) =
      some ([11, 104, 2, 1], .done) ∧
    ((run ops3 20 m []).bind fun r => run ops3 20 (reset ops3 r.1 .cancel) r.2.1).map (fun r => (r.2.1, r.2.2.1)) =
      some ([2, 1], .done) ∧
    (((run ops3 20 m []).bind fun r => run ops3 20 (reset ops3 r.1 .cancel) r.2.1).bind fun r =>
      run ops3 20 r.1 []).map (fun r => (r.2.1, r.2.2.1)) = some ([11, 104], .done) :=
  ⟨{ flags := { linearEnd := true }, states := [⟨1, none, none, .inter [(dirty, .none)] none none false⟩] },
   { flags := { linearEnd := true }, states := [⟨1, none, none, .sub dirty none none⟩] },
   by decide +kernel⟩

/-- An error of one interleaved machine stops the others where they are: they are not cleaned up, and
the next time the machine is run they go on in the middle (base/data/m_state_machine.c:632-640). -/
theorem interleaved_abort_fails : ∃ m : M3,
    (run ops3 20 m []).map (fun r => (r.2.1, r.2.2.1)) = some ([3, 2, 1], .errState) ∧
    ((run ops3 20 m []).bind fun r => run ops3 20 r.1 [2]).map (fun r => (r.2.1, r.2.2.1)) =
      some ([3, 2, 2], .errState) :=
  ⟨{ flags := { linearEnd := true }
     states := [⟨1, none, none, .inter [(dirty, .none),
       ({ flags := { linearEnd := true }, states := [fstate 1 (say 3 .errState)] }, .none)] none none false⟩] },
   by decide +kernel⟩

end Verif.StateMachine
