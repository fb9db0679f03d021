import Verif.AsyncWriter.Command
/-! C81-C83: runs that show where the asynchronous writer does not keep its promises, and runs that meet the hypotheses of the theorems. -/
namespace Verif.AsyncWriter

def m1 : Msg := [1, 2, 3]
def m2 : Msg := [4, 5]
def ends (max : Nat) (es : List Ev) : Option (List Msg × Nat × Nat × Pc) := (run (create max) es).map fun s => (s.q, s.stored, s.dropped, s.pc)

instance : DecidablePred Takes := fun e => by cases e <;> dsimp only [Takes] <;> infer_instance
instance : DecidablePred Hears := fun e => by cases e <;> dsimp only [Hears] <;> infer_instance
instance : DecidablePred Polite := fun es => inferInstanceAs (Decidable ((polite calm es).isSome = true))

/-! ### Examples -/

/-- A run in which a message is dropped, the rest is written, and the writer is destroyed. -/
def runA : List Ev := [.write m1 .added, .write m2 .added, .start true true, .pop, .notice 1 false true, .cb (some m2) 0 true, .write m1 .added, .destroy true, .pop, .cb (some m1) 0 true, .pop]

example : Polite (runA ++ [.stopCb, .fin, .free]) := by decide
example : (run (create 4) (runA ++ [.stopCb, .fin, .free])).map (·.freed) = some true := by decide
example : ∀ e ∈ runA, Takes e := by decide
example : flushing runA ∧ ¬ rude runA ∧ destroyed runA := ⟨⟨by decide, by decide⟩, by unfold rude; decide, Or.inl ⟨true, by decide⟩⟩
example : accepted runA = [m1, m2, m1] ∧ consumed runA = [m2, m1] ∧ reported runA = 1 ∧ tooBig runA = 0 := by decide

/-- A run in which the writer is destroyed at once, so that what is left is reported at the end. -/
def runB : List Ev := [.write m1 .added, .start true true, .pop, .write m2 .added, .write m1 .added, .destroy false, .cb (some m1) 0 true, .pop, .notice 2 true true]
example : Polite (runB ++ [.stopCb]) ∧ (run (create 9) (runB ++ [.stopCb])).isSome ∧ (∀ e ∈ runB, Takes e) ∧ ¬ rude runB ∧ destroyed runB :=
  ⟨by decide, by decide, by decide, by unfold rude; decide, Or.inl ⟨false, by decide⟩⟩

/-- A run with commands: one waits for a message, one is waited for. -/
def runC : List Ev := [.setCmd 1 false true, .start true true, .pop]
def runD : List Ev := [.wake, .cb none 3 true, .signal, .pop]
example : (run (create 9) (runC ++ .block 2 true :: runD ++ [.blockRet])).isSome ∧ (run (create 9) runC).map (fun s => idle s.pc) = some true ∧ (∀ e ∈ runD, Hears e) := by decide
example : asked (runC ++ .block 2 true :: runD) = 3 ∧ given runD = 3 ∧ urgent (runC ++ .block 2 true :: runD) = 2 := by decide
/-- The second call after a command was accepted. -/
example : (run (create 9) [.start true true, .write m1 .added, .write m2 .added, .pop, .setCmd 5 false true, .cb (some m1) 0 true, .pop, .cb (some m2) 5 true]).isSome ∧
    calls [.cb (some m1) 0 true, .pop, .cb (some m2) 5 true] = 2 := by decide

/-! ### Where it fails -/

/-- The callback refuses a message while the queue is empty, which asks for the message to be tried again (`m_async_writer.h`): it is lost, and not counted.
The space it took is never given back. -/
def lost : List Ev := [.start true true, .write m1 .added, .pop, .cb (some m1) 0 false, .putBack, .pop]

theorem retry_fails : ends 4 lost = some ([], 3, 0, .wait false) ∧ accepted lost = [m1] ∧ consumed lost = [] ∧ reported lost = 0 := by decide

/-- From then on a message that has room is dropped at once although it was accepted. -/
theorem leak_fails : ends 4 (lost ++ [.write m2 .added]) = some ([], 3 - 0, 1, .wait true) := by decide

/-- After the space was lost, making the queue smaller makes the next write never come back, with the lock held. -/
theorem write_hangs_fails : (run (create 4) (lost ++ [.setMax 2, .writeHang m2])).map (·.locked) = some true := by decide

/-- The callback was told that a message was dropped, and then refuses the next: the same message is reported a second time. -/
def twice : List Ev := [.write m1 .added, .write m2 .added, .start true true, .pop, .notice 1 false true, .cb (some m2) 0 false, .write m2 .added, .putBack, .pop, .notice 1 false true,
  .cb (some m2) 0 true, .pop, .cb (some m2) 0 true]

theorem counted_twice_fails : (run (create 4) twice).isSome ∧ (accepted twice).length = 3 ∧ (consumed twice).length = 2 ∧ reported twice = 2 ∧ tooBig twice = 0 := by decide

/-- The callback refuses to hear that messages were dropped: the command that came with them is lost, and who waits for it does not come back as long as there is no other. -/
theorem command_lost_fails :
    (run (create 4) [.start true true, .pop, .write m1 .added, .write m2 .added, .write [7] .added, .block 1 true, .wake, .notice 1 false false, .putBack, .pop, .notice 1 false true, .cb (some m2) 0 true, .pop,
      .cb (some [7]) 0 true, .pop]).map (fun s => (s.pc, s.cmd, s.cmdWait, s.cmdDone)) = some (.wait false, 0, true, false) := by decide

/-- A caller that waits for a command comes back though it was not given, because another one was reported as done. -/
def early : List Ev := [.start true true, .pop, .setCmd 1 true true, .wake, .cb none 1 true, .block 2 true, .signal, .blockRet]

theorem block_fails : (run (create 4) early).map (fun s => s.cmd) = some 2 ∧ given early = 1 := by decide

/-- Or because the writer was stopped. -/
theorem block_stopped_fails : (run (create 4) [.start true true, .pop, .block 2 true, .stop true, .wake, .stopCb, .fin, .blockRet]).map (fun s => s.cmd) = some 2 := by decide

/-- If no thread can be made, the lock is kept: no call comes back from then on. -/
theorem start_fails : (run (create 4) [.start false false]).map (fun s => (s.locked, step s (.write m1 .added), step s (.destroy false))) = some (true, .no, .no) := by decide

/-- Starting while another thread waits for the writer to stop makes two internal threads. -/
theorem restart_fails : (run (create 4) [.start true true, .pop, .stop true]).map (fun s => step s (.start true true)) = some .two := by decide

/-- Destroying with waiting and without writing what is in the queue: the callback is not told that messages were dropped (`include/mstdlib/log/m_async_writer.h:146-148` says it is). -/
def quiet : List Ev := [.start true true, .pop, .write m1 .added, .write m2 .added, .kill false true, .wake, .stopCb, .fin, .killRet true]

theorem kill_silent_fails : Polite quiet ∧ (run (create 9) quiet).map (·.freed) = some true ∧ (∀ e ∈ quiet, Takes e) ∧ accepted quiet = [m1, m2] ∧ consumed quiet = [] ∧ reported quiet = 0 := by decide

/-- Destroying a writer that is stopped forgets its messages, even if they should be written first. -/
theorem destroy_stopped_fails : (run (create 9) [.write m1 .added, .destroy true]).map (·.freed) = some true := by decide

end Verif.AsyncWriter
