/-! Model of `thread/m_thread_rwlock_emu.c`: any number of threads calling the lock and unlock functions.

The mutex and the condition variables are those of the system and trusted to behave as specified by POSIX: a section between
`M_thread_mutex_lock` and `M_thread_mutex_unlock` is one step, `M_thread_cond_wait` releases the mutex and sleeps in the same
step, a signal wakes one sleeping thread if there is one, a broadcast wakes all of them, and sleeping threads may wake without
reason.  Signals are sent after the mutex is released, as separate steps. -/
namespace Verif.RwLock

/-- Where a thread is. -/
inductive PC
  /-- not using the lock -/
  | idle
  /-- sleeping in `M_thread_cond_wait` on `rd_cond` or `wr_cond` -/
  | sleepR | sleepW
  /-- woken, but not yet owner of the mutex again -/
  | wokenR | wokenW
  /-- `M_thread_rwlock_emu_lock` has returned -/
  | holdR | holdW
  /-- in `M_thread_rwlock_emu_unlock` before `M_thread_cond_signal(wr_cond)` or `M_thread_cond_broadcast(rd_cond)` -/
  | sigW | bcR
deriving DecidableEq, Repr

/-- `thread/m_thread_rwlock_emu.c:31-38`, `struct M_thread_rwlock`, and the threads.  The counters are integers here; the
theorems show that they never become negative. -/
structure St where
  pcs : List PC
  lockcnt : Int
  numRd : Int
  numWr : Int
deriving DecidableEq, Repr

/-- `thread/m_thread_rwlock_emu.c:90-100`, `M_thread_rwlock_emu_create`, with `n` threads. -/
def init (n : Nat) : St := ⟨List.replicate n .idle, 0, 0, 0⟩

/-- `thread/m_thread_rwlock_emu.c:42-68`, `M_thread_rwlock_emu_lock_read`, by thread `t`: from the evaluation of the loop condition to
sleeping or returning. -/
def tryRead (s : St) (t : Nat) : St :=
  if s.lockcnt < 0 ∨ s.numWr > 0 then { s with numRd := s.numRd + 1, pcs := s.pcs.set t .sleepR }
  else { s with lockcnt := s.lockcnt + 1, pcs := s.pcs.set t .holdR }

/-- `thread/m_thread_rwlock_emu.c:42-68`, after waking from `M_thread_cond_wait`. -/
def resumeRead (s : St) (t : Nat) : St := tryRead { s with numRd := s.numRd - 1 } t

/-- `thread/m_thread_rwlock_emu.c:70-86`, `M_thread_rwlock_emu_lock_write`. -/
def tryWrite (s : St) (t : Nat) : St :=
  if s.lockcnt ≠ 0 then { s with numWr := s.numWr + 1, pcs := s.pcs.set t .sleepW }
  else { s with lockcnt := -1, pcs := s.pcs.set t .holdW }

/-- `thread/m_thread_rwlock_emu.c:70-86`, after waking from `M_thread_cond_wait`. -/
def resumeWrite (s : St) (t : Nat) : St := tryWrite { s with numWr := s.numWr - 1 } t

/-- `thread/m_thread_rwlock_emu.c:128-171`, `M_thread_rwlock_emu_unlock`, up to the release of the mutex. -/
def unlock (s : St) (t : Nat) : St :=
  if s.lockcnt > 0 then
    let lockcnt := s.lockcnt - 1
    let numWr := if lockcnt = 0 then s.numWr else 0
    { s with lockcnt := lockcnt, pcs := s.pcs.set t (if numWr > 0 then .sigW else .idle) }
  else if s.lockcnt < 0 then
    { s with lockcnt := 0, pcs := s.pcs.set t (if s.numWr > 0 then .sigW else if s.numRd > 0 then .bcR else .idle) }
  else { s with pcs := s.pcs.set t .idle }

/-- `M_thread_cond_broadcast(rwlock->rd_cond)`: every sleeping reader wakes. -/
def wakeReaders (pcs : List PC) : List PC := pcs.map fun pc => if pc = .sleepR then .wokenR else pc

/-- One step of a thread.  Only threads that hold the lock call the unlock function. -/
inductive Step : St → St → Prop
  | callRead {s : St} {t : Nat} : s.pcs[t]? = some .idle → Step s (tryRead s t)
  | callWrite {s : St} {t : Nat} : s.pcs[t]? = some .idle → Step s (tryWrite s t)
  | resumeRead {s : St} {t : Nat} : s.pcs[t]? = some .wokenR → Step s (resumeRead s t)
  | resumeWrite {s : St} {t : Nat} : s.pcs[t]? = some .wokenW → Step s (resumeWrite s t)
  | unlockRead {s : St} {t : Nat} : s.pcs[t]? = some .holdR → Step s (unlock s t)
  | unlockWrite {s : St} {t : Nat} : s.pcs[t]? = some .holdW → Step s (unlock s t)
  | signal {s : St} {t j : Nat} : s.pcs[t]? = some .sigW → s.pcs[j]? = some .sleepW → Step s { s with pcs := (s.pcs.set t .idle).set j .wokenW }
  | signalNobody {s : St} {t : Nat} : s.pcs[t]? = some .sigW → (∀ j : Nat, s.pcs[j]? ≠ some .sleepW) → Step s { s with pcs := s.pcs.set t .idle }
  | broadcast {s : St} {t : Nat} : s.pcs[t]? = some .bcR → Step s { s with pcs := (wakeReaders s.pcs).set t .idle }
  | spuriousRead {s : St} {t : Nat} : s.pcs[t]? = some .sleepR → Step s { s with pcs := s.pcs.set t .wokenR }
  | spuriousWrite {s : St} {t : Nat} : s.pcs[t]? = some .sleepW → Step s { s with pcs := s.pcs.set t .wokenW }

/-- The states that `n` threads can reach. -/
inductive Reach (n : Nat) : St → Prop
  | init : Reach n (init n)
  | step {s s'} : Reach n s → Step s s' → Reach n s'

end Verif.RwLock
