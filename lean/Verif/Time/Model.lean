/-! Model of `base/time/m_time_gm.c`: calendar conversion.

The fields are unbounded integers: signed overflow of `M_int64` is not modelled (for `M_time_togm` it only concerns times
within one minute of `INT64_MIN`, whose absolute value plus 59 does not fit).  `/` and `%` of C are `Int.tdiv` and `Int.tmod`. -/
namespace Verif.Time

/-- `include/mstdlib/base/m_time.h:165-182`, `struct M_time_tm`, without the local time zone fields. -/
structure Tm where
  month : Int
  day : Int
  hour : Int
  min : Int
  sec : Int
  year : Int
  wday : Int
  yday : Int
  year2 : Int
deriving DecidableEq, Repr

/-- `base/time/m_time_gm.c:30`, `IS_LEAPYEAR`. -/
def isLeap (year : Int) : Bool := year.tmod 400 = 0 || (year.tmod 100 ≠ 0 && year.tmod 4 = 0)

/-- `base/time/m_time_gm.c:32-35`, `mdays`; the indices used are shown to be in `0..11` (`normRange_range`). -/
def mdays (leap : Bool) (i : Int) : Int :=
  if i = 1 then (if leap then 29 else 28)
  else if i = 3 ∨ i = 5 ∨ i = 8 ∨ i = 10 then 30
  else 31

/-- `365` or `366` as in `M_time_normalize_tm` and `M_time_fromgm`. -/
def yearDays (leap : Bool) : Int := if leap then 366 else 365

theorem yearDays_cases (leap : Bool) : yearDays leap = 365 ∨ yearDays leap = 366 := by cases leap <;> simp [yearDays]

theorem mdays_range (leap : Bool) (i : Int) : 28 ≤ mdays leap i ∧ mdays leap i ≤ 31 := by
  unfold mdays
  repeat' split
  all_goals omega

/-- The loop of `calc_yday`, from month `i`, `n` more months. -/
def sumMonths (leap : Bool) : Nat → Int → Int
  | 0, _ => 0
  | n + 1, i => mdays leap i + sumMonths leap n (i + 1)

/-- `base/time/m_time_gm.c:37-52`, `calc_yday`. -/
def calcYday (tm : Tm) : Int := sumMonths (isLeap tm.year) (tm.month - 1).toNat 0 + tm.day - 1

/-- `base/time/m_time_gm.c:54-68`, `normalize_range` with `min = 0`: the new `*overflow` and `*num`. -/
def normRange (overflow num max : Int) : Int × Int :=
  let r : Int × Int :=
    if num < 0 then (overflow - (-num + max).tdiv (max + 1), max - (-num + max).tmod (max + 1)) else (overflow, num)
  if r.2 > max then (r.1 + r.2.tdiv (max + 1), r.2.tmod (max + 1)) else r

/-- `include/mstdlib/base/m_math.h:46`, `M_ABS`. -/
def mabs (a : Int) : Int := if a < 0 then a * -1 else a

/-- `base/time/m_time_gm.c:93-98`, `num_year_days` in the first loop of `M_time_normalize_tm`. -/
def stepDays (year day : Int) : Int := yearDays (if day > 0 then isLeap year else isLeap (year - 1))

theorem stepDays_cases (year day : Int) : stepDays year day = 365 ∨ stepDays year day = 366 := yearDays_cases _

theorem mabs_cases (a : Int) : (a < 0 ∧ mabs a = -a) ∨ (0 ≤ a ∧ mabs a = a) := by
  unfold mabs; split <;> omega

/-- The first loop of `base/time/m_time_gm.c:75-147`, `M_time_normalize_tm` (lines 92-111): whole years; `year` and `day`. -/
def yearLoop (year day : Int) : Int × Int :=
  if mabs day < stepDays year day then (year, day)
  else if day < 0 then yearLoop (year - 1) (day + stepDays year day)
  else yearLoop (year + 1) (day - stepDays year day)
termination_by day.toNat + (-day).toNat
decreasing_by
  all_goals
    have h1 := stepDays_cases year day
    have h2 := mabs_cases day
    omega

/-- `base/time/m_time_gm.c:132`: the days of the prior month. -/
def priorDays (leap : Bool) (month : Int) : Int := mdays leap (if month - 1 < 0 then 11 else month - 1)

theorem priorDays_range (leap : Bool) (i : Int) : 28 ≤ priorDays leap i ∧ priorDays leap i ≤ 31 := mdays_range _ _

/-- The second loop of `M_time_normalize_tm` (lines 114-138): `year`, `month` and `day`, 0-based. -/
def monthLoop (year month day : Int) : Int × Int × Int :=
  let y := (normRange year month 11).1
  let m := (normRange year month 11).2
  if day < mdays (isLeap y) m ∧ day ≥ 0 then (y, m, day)
  else if day < 0 then monthLoop y (m - 1) (day + priorDays (isLeap y) m)
  else monthLoop y (m + 1) (day - mdays (isLeap y) m)
termination_by day.toNat + (-day).toNat + (if day < 0 then 31 else 0)
decreasing_by
  · have h1 := priorDays_range (isLeap y) m
    simp only [y, m] at *
    rw [if_pos ‹day < 0›]
    split <;> omega
  · have h1 := mdays_range (isLeap y) m
    simp only [y, m] at *
    rw [if_neg ‹¬ day < 0›, if_neg (by omega)]
    omega

/-- `base/time/m_time_gm.c:75-147`, `M_time_normalize_tm`. -/
def normalizeTm (tm : Tm) : Tm :=
  let (min, sec) := normRange tm.min tm.sec 59
  let (hour, min) := normRange tm.hour min 59
  let (day, hour) := normRange (tm.day - 1) hour 23
  let (year, day) := yearLoop tm.year day
  let (year, month, day) := monthLoop year (tm.month - 1) day
  { tm with sec := sec, min := min, hour := hour, day := day + 1, month := month + 1, year := year, year2 := year.tmod 100 }

/-- `base/time/m_time_gm.c:149-158`, `M_time_days_in_month`. -/
def daysInMonth (year month : Int) : Int := if month < 1 ∨ month > 12 then 0 else mdays (isLeap year) (month - 1)

/-- `base/time/m_time_gm.c:160-174`, `M_time_is_valid_day`. -/
def isValidDay (year month day : Int) : Bool :=
  let days := daysInMonth year month
  if days = 0 ∨ day < 1 then false
  else if day > days then false
  else true

/-- `base/time/m_time_gm.c:176`, `wdaymap`. -/
def wdaymap : List Int := [4, 5, 6, 0, 1, 2, 3]

/-- `base/time/m_time_gm.c:177`, `rwdaymap`. -/
def rwdaymap : List Int := [4, 3, 2, 1, 0, 6, 5]

/-- `base/time/m_time_gm.c:179-210`, `M_time_togm`: `none` is an index outside the weekday tables. -/
def togm (t : Int) : Option Tm :=
  let yday := t.tdiv 86400
  let yday := if t < 0 ∧ t.tmod 86400 ≠ 0 then yday - 1 else yday
  let wday := if yday < 0 then rwdaymap[(-yday).toNat % 7]? else wdaymap[yday.toNat % 7]?
  wday.map fun wday =>
    let tm := normalizeTm { month := 1, day := 1, hour := 0, min := 0, sec := t, year := 1970, wday := wday, yday := yday, year2 := 0 }
    { tm with yday := calcYday tm }

/-- The last loop of `base/time/m_time_gm.c:212-263`, `M_time_fromgm` (lines 243-253): bring the year to 1970. -/
def epochLoop (year sec : Int) : Int :=
  if year = 1970 then sec
  else if year > 1970 then epochLoop (year - 1) (sec + 86400 * yearDays (isLeap (year - 1)))
  else epochLoop (year + 1) (sec - 86400 * yearDays (isLeap year))
termination_by (year - 1970).natAbs
decreasing_by all_goals omega

/-- `base/time/m_time_gm.c:212-263`, `M_time_fromgm`: the time returned and the structure left behind. -/
def fromgm (tm : Tm) : Int × Option Tm :=
  let tm := normalizeTm tm
  let month := tm.month - 1
  let day := tm.day - 1
  let day := day + sumMonths (isLeap tm.year) month.toNat 0
  let hour := tm.hour + day * 24
  let min := tm.min + hour * 60
  let sec := tm.sec + min * 60
  let t := epochLoop tm.year sec
  (t, togm t)

end Verif.Time
