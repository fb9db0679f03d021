import Verif.Time.Model
import Verif.Sort.Model
/-! Model of local time: `base/time/m_time_tz_rule.c` (zones given by rules), `base/time/m_time_tz_dst_rules.c`,
`base/time/m_time_tz_olson.c` and `base/time/m_time_tz_olson_transitions.c` (zones given by a table of transitions), and the
two conversions of `base/time/m_time_local.c` for an explicit zone.

As in `Verif.Time.Model` the numbers are unbounded integers.  Reading the files and strings zones come from is not modelled;
nor are the fields `year2` and `abbr` beyond what is said below. -/
namespace Verif.Tz
open Verif.Time (Tm togm fromgm daysInMonth isValidDay mabs)

/-- `base/time/m_time_int.h:106-114`, `M_time_tz_dst_change_t`: when the clock changes. -/
structure Change where
  month : Int
  occur : Int
  wday : Int
  hour : Int
  min : Int
  sec : Int
deriving DecidableEq, Repr

/-- `base/time/m_time_int.h:118-127`, `M_time_tz_dst_rule_t`. -/
structure Rule where
  year : Int
  start : Change
  fin : Change
  offset : Int
  offsetDst : Int
deriving DecidableEq, Repr

/-- `base/time/m_time_int.h:91-100`, `M_time_tz_rule_t`; the list of rules is sorted, the latest year first. -/
structure Zone where
  abbr : String
  abbrDst : String
  offset : Int
  adjusts : List Rule
deriving DecidableEq, Repr

/-- `include/mstdlib/base/m_time.h:165-182`, `struct M_time_tm`, with the local time fields; the buffer `abbr` is a string,
`none` if it was cleared. -/
structure LocalTm where
  tm : Tm
  isdst : Int
  gmtoff : Int
  abbr : Option String
deriving DecidableEq, Repr

/-- `base/time/m_time_tz_dst_rules.c:34-49`, `M_time_tz_dst_rules_compar`. -/
def ruleCmp (a b : Rule) : Int := if a.year = b.year then 0 else if a.year > b.year then -1 else 1

/-- `M_mem_set(&srule, 0, sizeof(srule)); srule.year = year;` -/
def yearKey (year : Int) : Rule :=
  { year := year, start := ⟨0, 0, 0, 0, 0, 0⟩, fin := ⟨0, 0, 0, 0, 0, 0⟩, offset := 0, offsetDst := 0 }

/-- `base/time/m_time_tz_rule.c:327-340`, `M_time_tz_rule_add_dst_adjust` of a rule, with
`base/time/m_time_tz_dst_rules.c:79-92`: the new list and the result.  The outer `none` is an access out of bounds. -/
def addAdjust (rules : List Rule) (r : Rule) : Option (List Rule × Bool) :=
  match Sort.search ruleCmp rules (yearKey r.year) false with
  | none => none
  | some (true, _) => some (rules, false)
  | some (false, _) =>
    match Sort.insertIdx ruleCmp rules r false with
    | none => none
    | some idx => some (rules.take idx ++ r :: rules.drop idx, true)

/-- `base/time/m_time_tz_dst_rules.c:94-121`, `M_time_tz_dst_rules_get_rule`.  The outer `none` is an access out of bounds,
the inner one `NULL`.  With an empty list `idx--` wraps around to `SIZE_MAX`, for which `M_list_at` gives `NULL`. -/
def getRule (rules : List Rule) (year : Int) : Option (Option Rule) :=
  match Sort.insertIdx ruleCmp rules (yearKey year) false with
  | none => none
  | some idx =>
    if idx = rules.length then (if rules.length = 0 then some none else some rules[idx - 1]?)
    else some rules[idx]?

/-- `base/time/m_time_tz_rule.c:31-97`, `M_time_tz_rule_change_to_time`.  The outer `none` is undefined behaviour in
`M_time_togm`, the inner one is `M_FALSE`. -/
def changeToTime (c : Change) (year : Int) : Option (Option Int) :=
  let atime : Tm := { year := year, month := c.month, day := 0, hour := c.hour, min := c.min, sec := c.sec,
                      wday := 0, yday := 0, year2 := 0 }
  if c.occur = 0 then some none
  else if c.occur < 0 ∧ atime.day = 0 then some none
  else
    let startDay := if c.occur > 0 then 1 else daysInMonth atime.year atime.month
    match (fromgm { atime with day := startDay }).2 with
    | none => none
    | some a =>
      let day :=
        if c.occur > 0 then
          let d := 1 - a.wday + c.wday
          (if d < 1 then d + 7 else d) + 7 * (c.occur - 1)
        else
          let d := startDay - (a.wday - c.wday)
          (if d > startDay then d - 7 else d) - 7 * (c.occur - 1)
      if isValidDay year a.month day = false then some none
      else some (some (fromgm { a with day := day }).1)

/-- `base/time/m_time_tz_rule.c:99-116`, `M_time_tz_rule_isdst_mid`. -/
def isdstMid (cur dststart dstend diff : Int) (isdst : Bool) : Bool :=
  if isdst = false ∧ cur ≤ dstend ∧ cur ≥ dstend - diff then false
  else if cur < dststart ∨ cur > dstend then false
  else true

/-- `base/time/m_time_tz_rule.c:118-126`, `M_time_tz_rule_isdst_ends`. -/
def isdstEnds (cur dststart dstend diff : Int) (isdst : Bool) : Bool :=
  if isdst = false ∧ cur ≤ dststart ∧ cur ≥ dststart - diff then false
  else if cur > dststart ∨ cur < dstend then false
  else true

/-- `base/time/m_time_tz_rule.c:128-162`, `M_time_tz_rule_isdst`; `none` is undefined behaviour in `M_time_togm`. -/
def ruleIsdst (r : Rule) (l : LocalTm) : Option Bool :=
  match changeToTime r.start l.tm.year with
  | none => none
  | some none => some false
  | some (some dststart) =>
    match changeToTime r.fin l.tm.year with
    | none => none
    | some none => some false
    | some (some dstend) =>
      let cur := (fromgm l.tm).1
      let diff := mabs r.offset - mabs r.offsetDst
      let isdst := l.isdst = 1
      if dststart < dstend then some (isdstMid cur dststart dstend diff isdst)
      else if dststart > dstend then some (isdstEnds cur dststart dstend diff isdst)
      else some (decide (cur = dststart))

/-- `base/time/m_time_tz_rule.c:170-205`, `M_time_tz_rule_get_offset`: `*offset` and `*isdst`. -/
def getOffset (z : Zone) (l : LocalTm) : Option (Int × Bool) :=
  match getRule z.adjusts l.tm.year with
  | none => none
  | some none => some (z.offset, false)
  | some (some r) =>
    if r.start.month = 0 then some (r.offset, false)
    else
      match ruleIsdst r l with
      | none => none
      | some true => some (r.offsetDst, true)
      | some false => some (r.offset, false)

/-- `M_time_togm` into a local time: it clears the structure first (`base/time/m_time_gm.c:181`). -/
def togmLocal (t : Int) : Option LocalTm :=
  match togm t with
  | none => none
  | some tm => some { tm := tm, isdst := 0, gmtoff := 0, abbr := none }

/-- What `adjust_tolocal` of a zone gives: offset, `*isdst` and `*abbr` (`none` is `NULL`). -/
structure Adjust where
  offset : Int
  isdst : Bool
  abbr : Option String
deriving DecidableEq, Repr

/-- `base/time/m_time_tz_rule.c:214-264`, `M_time_tz_rule_adjust_tolocal`; `none` is undefined behaviour, among it
dereferencing a `NULL` rule on line 248. -/
def ruleToLocal (z : Zone) (gmt : Int) : Option Adjust :=
  if z.adjusts.length = 0 then some { offset := z.offset, isdst := false, abbr := none }
  else
    match togmLocal gmt with
    | none => none
    | some l =>
      match getRule z.adjusts l.tm.year with
      | some (some r) =>
        match togmLocal (gmt + r.offset) with
        | none => none
        | some l =>
          match getOffset z l with
          | none => none
          | some (o, isdst) => some { offset := o, isdst := isdst, abbr := some (if isdst then z.abbrDst else z.abbr) }
      | _ => none

/-- `base/time/m_time_tz_rule.c:266-278`, `M_time_tz_rule_adjust_fromlocal`. -/
def ruleFromLocal (z : Zone) (l : LocalTm) : Option Int :=
  match getOffset z l with
  | none => none
  | some (o, _) => some (o * -1)

/-! ### Zones given by transitions -/

/-- `base/time/m_time_int.h:131-136`, `M_time_tz_olson_transition_t`. -/
structure Transition where
  start : Int
  offset : Int
  isdst : Bool
  abbr : String
deriving DecidableEq, Repr

/-- `base/time/m_time_tz_olson_transitions.c:34-49`, `M_time_tz_olson_tranition_compar`. -/
def transCmp (a b : Transition) : Int := if a.start = b.start then 0 else if a.start > b.start then -1 else 1

/-- `base/time/m_time_tz_olson_transitions.c:95-96`: the key searched for. -/
def startKey (gmt : Int) : Transition := { start := gmt, offset := 0, isdst := false, abbr := "" }

/-- The loop of lines 112-117: from the oldest, the first that is not DST, else the last one looked at; `i` are left. -/
def firstStd (ts : List Transition) : Nat → Option Transition → Option Transition
  | 0, last => last
  | i + 1, _ =>
    match ts[i]? with
    | some t => if t.isdst = false then some t else firstStd ts i (some t)
    | none => firstStd ts i none

/-- `base/time/m_time_tz_olson_transitions.c:84-129`, `M_time_tz_olson_transitions_get_transition`.  The outer `none` is an
access out of bounds, the inner one `NULL`. -/
def getTransition (ts : List Transition) (gmt : Int) : Option (Option Transition) :=
  match Sort.insertIdx transCmp ts (startKey gmt) false with
  | none => none
  | some idx =>
    match ts[idx]? with
    | some t => some (some t)
    | none =>
      if idx = ts.length then
        match firstStd ts ts.length none with
        | some t => if t.isdst = true then some ts[ts.length - 1]? else some (some t)
        | none => some ts[ts.length - 1]?
      else some none

/-- `base/time/m_time_tz_olson.c:32`, `M_TIME_TZ_OLSON_1_DAY`. -/
def oneDay : Int := 86400

/-- `base/time/m_time_tz_olson.c:395-468`, `M_time_tz_olson_adjust_fromlocal`.  Transitions are compared by address in the
code and as values here: in a table no two have the same start. -/
def olsonFromLocal (ts : List Transition) (l : LocalTm) : Option Int :=
  let tstamp := (fromgm l.tm).1
  match getTransition ts (tstamp - oneDay), getTransition ts (tstamp + oneDay) with
  | some none, some none => some 0
  | some (some prev), some (some next) =>
    if prev = next then some (prev.offset * -1)
    else
      let prevValid := tstamp - prev.offset ≥ prev.start
      let nextValid := tstamp - next.offset ≥ next.start
      if ¬ prevValid ∧ ¬ nextValid then some 0
      else if prevValid ∧ ¬ nextValid then some (prev.offset * -1)
      else if ¬ prevValid ∧ nextValid then some (next.offset * -1)
      else if prev.isdst = true ∧ next.isdst = false then
        (if l.isdst = 1 then some (prev.offset * -1) else some (next.offset * -1))
      else if prev.isdst = false ∧ next.isdst = true then
        (if l.isdst = 1 then some (next.offset * -1) else some (prev.offset * -1))
      else some (next.offset * -1)
  | some (some prev), some none => if tstamp - prev.offset ≥ prev.start then some (prev.offset * -1) else some 0
  | some none, some (some next) => if tstamp - next.offset ≥ next.start then some (next.offset * -1) else some 0
  | _, _ => none

/-- `base/time/m_time_tz_olson.c:477-500`, `M_time_tz_olson_adjust_tolocal`. -/
def olsonToLocal (ts : List Transition) (gmt : Int) : Option Adjust :=
  match getTransition ts gmt with
  | none => none
  | some none => some { offset := 0, isdst := false, abbr := none }
  | some (some t) => some { offset := t.offset, isdst := t.isdst, abbr := some t.abbr }

/-! ### The conversions -/

/-- `base/time/m_time_int.h:70-77`, `struct M_time_tz`: the two callbacks. -/
inductive AnyZone where
  | rules (z : Zone)
  | olson (ts : List Transition)

/-- `adjust_tolocal`. -/
def AnyZone.adjustTo : AnyZone → Int → Option Adjust
  | .rules z, t => ruleToLocal z t
  | .olson ts, t => olsonToLocal ts t

/-- `adjust_fromlocal`. -/
def AnyZone.adjustFrom : AnyZone → LocalTm → Option Int
  | .rules z, l => ruleFromLocal z l
  | .olson ts, l => olsonFromLocal ts l

/-- `base/time/m_time_local.c:170-189`, `M_time_tolocal_tz`.  The abbreviation is copied whole; the code cuts it to 31 bytes. -/
def tolocal (z : AnyZone) (t : Int) : Option LocalTm :=
  match z.adjustTo t with
  | none => none
  | some a =>
    match togmLocal (t + a.offset) with
    | none => none
    | some l => some { l with isdst := if a.isdst then 1 else 0, gmtoff := a.offset, abbr := a.abbr }

/-- `base/time/m_time_local.c:137-148`, `M_time_fromlocal_tz`: the structure is normalised first, keeping `isdst`. -/
def fromlocalTz (z : AnyZone) (l : LocalTm) : Option Int :=
  match (fromgm l.tm).2 with
  | none => none
  | some tm =>
    match z.adjustFrom { tm := tm, isdst := l.isdst, gmtoff := 0, abbr := none } with
    | none => none
    | some o => some ((fromgm l.tm).1 + o)

/-- `base/time/m_time_local.c:150-166`, `M_time_fromlocal` with a zone: the time and the structure left behind. -/
def fromlocal (z : AnyZone) (l : LocalTm) : Option (Int × LocalTm) :=
  match fromlocalTz z l with
  | none => none
  | some t =>
    match tolocal z t with
    | none => none
    | some l' => some (t, l')

end Verif.Tz
