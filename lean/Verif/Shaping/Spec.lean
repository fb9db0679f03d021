import Verif.Shaping.Model

/-! What is said about the limits of a rate, in terms of what can be seen from outside: the bytes that were moved and when. -/
namespace Verif.Shaping

/-- A clock does not run backwards. -/
def Mono (c : Nat → Nat) : Prop := ∀ i j, i ≤ j → c i ≤ c j

/-- Calls follow each other in time; the first is not before `now`, the last ends at `fin` at the latest. -/
def Ordered : Nat → List Call → Nat → Prop
  | now, [], fin => now ≤ fin
  | now, x :: xs, fin => ∃ e, now ≤ x.c 0 ∧ Mono x.c ∧ (∀ j, x.c j ≤ e) ∧ Ordered e xs fin

/-- The bytes moved in a direction at times from `a` up to, but not at, `b`. -/
def movedIn (rd : Bool) (a b : Nat) : List Ev → Nat
  | [] => 0
  | .moved x t n :: es => (if x = rd ∧ a ≤ t ∧ t < b then n else 0) + movedIn rd a b es
  | _ :: es => movedIn rd a b es

/-- All bytes moved in a direction. -/
def movedAll (rd : Bool) : List Ev → Nat
  | [] => 0
  | .moved x _ n :: es => (if x = rd then n else 0) + movedAll rd es
  | _ :: es => movedAll rd es

/-- The call does not change how the rate of a direction is limited. -/
def Keeps (rd : Bool) : Op → Prop
  | .throttle x _ => x ≠ rd
  | .mode x _ => x ≠ rd
  | .period x _ _ => x ≠ rd
  | _ => True

/-- The call does not change the latency of a direction. -/
def KeepsLat (rd : Bool) : Op → Prop
  | .latency x _ => x ≠ rd
  | _ => True

/-- Settings and requests that are not absurd: the product of rate and period and the times fit into 64 bits, and nothing asks for zero
bytes or moves zero bytes successfully. -/
def Sane : Op → Prop
  | .throttle _ bps => bps < 2 ^ 40
  | .period _ p _ => p < 2 ^ 24
  | .latency _ ms => ms < 2 ^ 63
  | .io _ len (.ok n) => 1 ≤ len ∧ 1 ≤ n
  | .io _ len _ => 1 ≤ len
  | _ => True

/-- How long the layer below may take, in milliseconds, so that the slots suffice: one more slot than fit into the period, each longer
than the frequency, less the period. -/
def slack (f : Conf) : Nat := (f.period * 1000 / f.freq + 1) * (f.freq + 1) - f.period * 1000

/-- During a read or a write not more than `slack` passes between one reading of the clock and the third after it. -/
def CalmCall (h : H) (x : Call) : Prop :=
  match x.op with
  | .io rd _ _ => ∀ j, x.c (j + 3) ≤ x.c j + slack (get h rd).conf
  | _ => True

/-- Every call of a run is calm. -/
def Calm : H → List Call → Prop
  | _, [] => True
  | h, x :: xs => CalmCall h x ∧ ∀ r, step x.c h x.op = some r → Calm r.1 xs

/-- The settings of a direction after one more call: the last value that was set and not refused. -/
def conf1 (rd : Bool) (f : Conf) : Op → Conf
  | .throttle x bps => if x = rd then { f with bps } else f
  | .mode x burst => if x = rd then { f with burst } else f
  | .period x period freq =>
    if x = rd ∧ period ≠ 0 ∧ 15 ≤ freq ∧ freq < period * 1000 % 2 ^ 64 then { f with period, freq } else f
  | .latency x lat => if x = rd then { f with lat } else f
  | _ => f

/-- The settings of a direction after some calls; at first there is no limit. -/
def confAfter (rd : Bool) (calls : List Call) : Conf :=
  calls.foldl (fun f x => conf1 rd f x.op) { bps := 0, burst := true, period := 10, freq := 100, lat := 0 }

/-- No two writes are closer together than `lat`. -/
def Apart (lat : Nat) (evs : List Ev) : Prop :=
  evs.Pairwise fun a b => ∀ t1 n1 t2 n2, a = .moved false t1 n1 → b = .moved false t2 n2 → t1 + lat ≤ t2

/-- A direction that is held back and has a limit or a latency. -/
def Waits (rd disc : Bool) (d : Dir) : Prop := (rd = true ∨ disc = false) ∧ (d.conf.bps ≠ 0 ∨ d.conf.lat ≠ 0) ∧ d.waiting = true

instance (rd disc : Bool) (d : Dir) : Decidable (Waits rd disc d) := inferInstanceAs (Decidable (_ ∧ _ ∧ _))

/-- A clock that stands still. -/
def still (t : Nat) : Nat → Nat := fun _ => t

end Verif.Shaping
