import Verif.Timer.Model
/-! What users of timers can see: functions of the history, latest event first. -/
namespace Verif.Timer

/-- The timer an event is about. -/
def Ev.id : Ev → Nat
  | .start i _ _ _ _ => i | .stop i => i | .remove i => i | .setCnt i _ => i | .fire i _ _ => i

/-- The timer has been started and neither stopped nor removed since. -/
def running : List Ev → Nat → Bool
  | [], _ => false
  | .start j ok _ _ _ :: l, i => if j = i ∧ ok = true then true else running l i
  | .stop j :: l, i => if j = i then false else running l i
  | .remove j :: l, i => if j = i then false else running l i
  | _ :: l, i => running l i

/-- How often the timer has fired since the last call that starts it or sets its count. -/
def since : List Ev → Nat → Nat
  | [], _ => 0
  | .start j _ _ _ _ :: l, i => if j = i then 0 else since l i
  | .setCnt j _ :: l, i => if j = i then 0 else since l i
  | .fire j _ _ :: l, i => if j = i then since l i + 1 else since l i
  | _ :: l, i => since l i

/-- The count last set. -/
def cntOf : List Ev → Nat → Nat
  | [], _ => 0
  | .setCnt j n :: l, i => if j = i then n else cntOf l i
  | _ :: l, i => cntOf l i

/-- When the timer is due, if it has been started outside its own callback and has not fired since. -/
def armed : List Ev → Nat → Option Nat
  | [], _ => none
  | .start j ok time delay own :: l, i => if j = i then (if ok = true ∧ own = false then some (time + delay * 1000) else none) else armed l i
  | .fire j _ _ :: l, i => if j = i then none else armed l i
  | _ :: l, i => armed l i

end Verif.Timer
