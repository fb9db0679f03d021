import Verif.Tz.Model
import Verif.Time.Props
/-! Specification of local time. -/
namespace Verif.Tz.Spec
open Verif.Time.Spec (ValidDate monthLen dayNum seconds)
open Verif.Tz

/-- One rule per year, the latest year first. -/
def Sorted (rules : List Rule) : Prop := rules.Pairwise (fun a b => b.year < a.year)

/-- The rule of a year: the last one that began by then; before all rules, the first one. -/
def InForce (rules : List Rule) (year : Int) (r : Rule) : Prop :=
  r ∈ rules ∧ ((r.year ≤ year ∧ ∀ r' ∈ rules, r'.year ≤ year → r'.year ≤ r.year) ∨
    ((∀ r' ∈ rules, year < r'.year) ∧ ∀ r' ∈ rules, r.year ≤ r'.year))

/-- Day `d` is the `k`-th weekday `w` of the month (0 is Sunday; day 0 of the epoch was a Thursday). -/
def NthDay (y m w k d : Int) : Prop :=
  ValidDate y m d ∧ (dayNum y m d + 4) % 7 = w ∧ 7 * (k - 1) < d ∧ d ≤ 7 * k

/-- Day `d` is the `k`-th weekday `w` of the month counted from its end. -/
def NthLastDay (y m w k d : Int) : Prop :=
  ValidDate y m d ∧ (dayNum y m d + 4) % 7 = w ∧ 7 * (k - 1) ≤ monthLen y m - d ∧ monthLen y m - d < 7 * k

/-- In year `y` the clock is changed when it shows `x`. -/
def ChangeAt (c : Change) (y x : Int) : Prop :=
  ∃ d, ((0 < c.occur ∧ NthDay y c.month c.wday c.occur d) ∨ (c.occur < 0 ∧ NthLastDay y c.month c.wday (-c.occur) d)) ∧
    x = seconds y c.month d c.hour c.min c.sec

/-- A clock showing `x` is in year `y`. -/
def InYear (y x : Int) : Prop := seconds y 1 1 0 0 0 ≤ x ∧ x < seconds (y + 1) 1 1 0 0 0

/-- At the instant `t` daylight saving time is observed, with offset `o`: the clock showing standard time has reached the
start of DST and the clock showing DST has not reached its end, where the end may be in the next year. -/
def Dst (rules : List Rule) (t o : Int) : Prop :=
  ∃ y r s e, InForce rules y r ∧ InYear y (t + r.offset) ∧ ChangeAt r.start y s ∧ ChangeAt r.fin y e ∧ o = r.offsetDst ∧
    ((s < e ∧ s ≤ t + r.offset ∧ t + r.offsetDst < e) ∨ (e < s ∧ (s ≤ t + r.offset ∨ t + r.offsetDst < e)))

/-- What is expected of a local time `l` for the instant `t`. -/
def Shows (z : Zone) (t : Int) (l : LocalTm) : Prop :=
  Verif.Time.Valid l.tm ∧ l.tm.seconds = t + l.gmtoff ∧ l.tm.wday = ((t + l.gmtoff) / 86400 + 4) % 7 ∧
  (∀ o, Dst z.adjusts t o → l.gmtoff = o ∧ l.isdst = 1 ∧ l.abbr = some z.abbrDst) ∧
  ((¬ ∃ o, Dst z.adjusts t o) → l.isdst = 0 ∧ l.abbr = some z.abbr ∧
    ((∃ y r, InForce z.adjusts y r ∧ InYear y (t + r.offset) ∧ l.gmtoff = r.offset) ∨ (z.adjusts = [] ∧ l.gmtoff = z.offset)))

/-- A change given by a weekday counted from the start of the month, at a time of day. -/
structure Counted (c : Change) : Prop where
  occur : 0 < c.occur
  month : 1 ≤ c.month ∧ c.month ≤ 12
  wday : 0 ≤ c.wday ∧ c.wday ≤ 6
  hour : 0 ≤ c.hour ∧ c.hour < 24
  min : 0 ≤ c.min ∧ c.min < 60
  sec : 0 ≤ c.sec ∧ c.sec < 60

/-- The zones for which the code works: west of Greenwich, north of the equator, changes counted from the start of the
month (or no DST at all in some years), standard time never changing. -/
structure West (z : Zone) (off : Int) : Prop where
  some : z.adjusts ≠ []
  sorted : Sorted z.adjusts
  offset : ∀ r ∈ z.adjusts, r.offset = off
  dst : ∀ r ∈ z.adjusts, off ≤ r.offsetDst ∧ r.offsetDst ≤ 0
  changes : ∀ r ∈ z.adjusts, r.start.month = 0 ∨ (Counted r.start ∧ Counted r.fin ∧ r.start.month < r.fin.month)

end Verif.Tz.Spec
