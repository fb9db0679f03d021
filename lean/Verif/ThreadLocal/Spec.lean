import Verif.ThreadLocal.Model
/- What a thread expects, said of what it can see alone. -/
namespace Verif.ThreadLocal

/-- The value a thread has under a key: the one it set last, since it last ended; nothing before. -/
def live (t k : Nat) (log : List Ev) : Option Nat :=
  log.foldl (fun cur e =>
    match e with
    | .wasSet u key v true => if u = t ∧ key = k then some v else cur
    | .purged u => if u = t then none else cur
    | _ => cur) none

/-- All the values a thread put under a key, in order. -/
def given (t k : Nat) (log : List Ev) : List Nat :=
  log.filterMap fun
    | .wasSet u key v true => if u = t ∧ key = k then some v else none
    | _ => none

/-- The values of a thread under a key that went to the destructor, in order. -/
def gone (t k : Nat) (log : List Ev) : List Nat :=
  log.filterMap fun
    | .destroyed u key _ v _ => if u = t ∧ key = k then some v else none
    | _ => none

/-- A key that was handed out, with its destructor. -/
def Known (k : Nat) (d : Option Nat) (log : List Ev) : Prop := ∃ t, Ev.created t k d ∈ log

/-- What an event is to be, by what happened before. -/
def Good (past : List Ev) : Ev → Prop
  -- Keys are new and not zero.
  | .created _ id _ => id ≠ 0 ∧ ∀ d, ¬ Known id d past
  -- A value is taken if the key was handed out.
  | .wasSet _ k _ ok => ok = true ↔ ∃ d, Known k d past
  -- A thread gets its own value, and all the values before it were destroyed, in order, once each, but not this one.
  | .got t k v => v = (live t k past).getD 0 ∧ ∀ d, Known k (some d) past → given t k past = gone t k past ++ (live t k past).toList
  -- When a thread ended, all its values were destroyed, in order, once each.
  | .purged t => ∀ k d, Known k (some d) past → given t k past = gone t k past
  -- The destructor is the one of the key, and it runs without the lock.
  | .destroyed _ k d _ locked => Known k (some d) past ∧ locked = false

end Verif.ThreadLocal
