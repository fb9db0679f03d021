import Verif.Time.Lemmas
/-! C26 and C27: calendar conversion. -/
set_option linter.unusedSimpArgs false
namespace Verif.Time
open Spec

/-- A date of the calendar and a time of day. -/
def Valid (tm : Tm) : Prop :=
  ValidDate tm.year tm.month tm.day ∧ 0 ≤ tm.hour ∧ tm.hour < 24 ∧ 0 ≤ tm.min ∧ tm.min < 60 ∧ 0 ≤ tm.sec ∧ tm.sec < 60

instance (tm : Tm) : Decidable (Valid tm) := inferInstanceAs (Decidable ((_ ∧ _) ∧ _))

/-- The time a structure denotes. -/
def Tm.seconds (tm : Tm) : Int := Spec.seconds tm.year tm.month tm.day tm.hour tm.min tm.sec

/-- The 0-based day after carrying seconds, minutes and hours. -/
def carriedDay (tm : Tm) : Int := tm.day - 1 + (3600 * tm.hour + 60 * tm.min + tm.sec) / 86400

/-- The time denoted by a structure with arbitrary fields: months carried into the year, everything else added. -/
def carried (tm : Tm) : Int :=
  86400 * (dayNum (tm.year + (tm.month - 1) / 12) ((tm.month - 1) % 12 + 1) 1 + (tm.day - 1)) + 3600 * tm.hour + 60 * tm.min + tm.sec

theorem normalizeTm_spec (tm : Tm) (h : tm.month = 1 ∨ (-365 < carriedDay tm ∧ carriedDay tm < 365)) :
    Valid (normalizeTm tm) ∧ (normalizeTm tm).seconds = carried tm ∧ (normalizeTm tm).wday = tm.wday := by
  unfold normalizeTm
  simp only [normRange_eq _ _ (show (0 : Int) < 59 by omega), normRange_eq _ _ (show (0 : Int) < 23 by omega)]
  simp only [show (59 + 1 : Int) = 60 from rfl, show (23 + 1 : Int) = 24 from rfl]
  have hcd : carriedDay tm = tm.day - 1 + (tm.hour + (tm.min + tm.sec / 60) / 60) / 24 := by
    unfold carriedDay; omega
  rw [← hcd]
  generalize hY : yearLoop tm.year (carriedDay tm) = Y
  obtain ⟨y1, d1⟩ := Y
  simp only
  generalize hM : monthLoop y1 (tm.month - 1) d1 = M
  obtain ⟨y2, m2, d2⟩ := M
  simp only
  obtain ⟨e, b1, b2, b3, b4⟩ := monthLoop_spec _ _ _ _ _ _ hM
  have hpre : absDay y1 (tm.month - 1) d1 = absDay tm.year (tm.month - 1) (carriedDay tm) := by
    rcases h with h | h
    · have := yearLoop_spec tm.year (carriedDay tm)
      rw [hY] at this
      unfold absDay
      rw [h]
      simp only [Int.sub_self, Int.zero_ediv, Int.zero_emod, Int.add_zero, Int.toNat_zero, monthsBefore]
      exact this
    · rw [yearLoop_small _ h.1 h.2] at hY
      simp only [Prod.mk.injEq] at hY
      rw [hY.1, hY.2]
  rw [hpre] at e
  refine ⟨⟨⟨by simp only; omega, by simp only; omega, by simp only; omega, by simp only; omega⟩, ?_, ?_, ?_, ?_, ?_, ?_⟩, ?_, trivial⟩
  all_goals try (simp only; omega)
  have hv : absDay y2 m2 d2 = dayNum y2 (m2 + 1) (d2 + 1) := by
    unfold absDay dayNum
    rw [show m2 / 12 = 0 by omega, show m2 % 12 = m2 by omega, Int.add_zero, Int.add_sub_cancel, Int.add_sub_cancel]
  unfold Tm.seconds Spec.seconds carried
  simp only
  rw [← hv, ← e]
  unfold absDay dayNum
  rw [Int.add_sub_cancel]
  rw [hcd]
  omega

/-! ### C26 -/

/-- Any time is broken down to a date of the calendar that denotes it, with its weekday (Thursday on day 0) and its day of
the year. -/
theorem togm_correct (t : Int) : ∃ tm, togm t = some tm ∧ Valid tm ∧ tm.seconds = t ∧ tm.wday = (t / 86400 + 4) % 7 ∧
    tm.yday = dayNum tm.year tm.month tm.day - dayNum tm.year 1 1 := by
  have hday : (if t < 0 ∧ t.tmod 86400 ≠ 0 then t.tdiv 86400 - 1 else t.tdiv 86400) = t / 86400 := by
    by_cases h : t < 0
    · have hn : (-t).tdiv 86400 = -(t.tdiv 86400) := Int.neg_tdiv ..
      have hm : (-t).tmod 86400 = -(t.tmod 86400) := Int.neg_tmod ..
      rw [Int.tdiv_eq_ediv_of_nonneg (by omega)] at hn
      rw [Int.tmod_eq_emod_of_nonneg (by omega)] at hm
      split <;> omega
    · rw [if_neg (by omega), Int.tdiv_eq_ediv_of_nonneg (by omega)]
  have hw : (if t / 86400 < 0 then rwdaymap[(-(t / 86400)).toNat % 7]? else wdaymap[(t / 86400).toNat % 7]?) =
      some ((t / 86400 + 4) % 7) := by
    generalize t / 86400 = d
    have tab : ∀ r : Fin 7, rwdaymap[r.val]? = some ((4 - (r.val : Int)) % 7) ∧ wdaymap[r.val]? = some ((4 + (r.val : Int)) % 7) := by
      decide
    split
    · rw [(tab ⟨(-d).toNat % 7, by omega⟩).1]
      congr 1
      simp only
      omega
    · rw [(tab ⟨d.toNat % 7, by omega⟩).2]
      congr 1
      simp only
      omega
  unfold togm
  simp only [hday, hw, Option.map_some]
  obtain ⟨h1, h2, h3⟩ := normalizeTm_spec { month := 1, day := 1, hour := 0, min := 0, sec := t, year := 1970, wday := (t / 86400 + 4) % 7, yday := t / 86400, year2 := 0 } (Or.inl rfl)
  generalize normalizeTm _ = tm at *
  refine ⟨_, rfl, h1, ?_, h3, ?_⟩
  · have : Tm.seconds { tm with yday := calcYday tm } = tm.seconds := rfl
    rw [this, h2]
    unfold carried dayNum yearStart
    simp [monthsBefore]
  · simp only [calcYday, sumMonths_eq, dayNum]
    simp only [Int.sub_self, Int.toNat_zero, monthsBefore]
    omega

/-- Friday, December 13th 1901, 20:45:52. -/
example : togm (-2147483648) =
    some { month := 12, day := 13, hour := 20, min := 45, sec := 52, year := 1901, wday := 5, yday := 346, year2 := 1 } := by
  simp [togm, fromgm, normalizeTm, normRange, yearLoop, monthLoop, mabs, stepDays, yearDays, isLeap, mdays, priorDays, calcYday, sumMonths,
    wdaymap, rwdaymap, epochLoop_spec, yearStart]

theorem fromgm_value (tm : Tm) (h : tm.month = 1 ∨ (-365 < carriedDay tm ∧ carriedDay tm < 365)) :
    (fromgm tm).1 = carried tm ∧ (fromgm tm).2 = togm (carried tm) := by
  obtain ⟨⟨⟨h1, h2, _⟩, _⟩, h3, _⟩ := normalizeTm_spec tm h
  have : (fromgm tm).1 = carried tm := by
    rw [← h3]
    unfold fromgm Tm.seconds Spec.seconds dayNum
    simp only [epochLoop_spec, sumMonths_eq]
    omega
  exact ⟨this, by rw [← this]; rfl⟩

theorem valid_small {tm : Tm} (v : Valid tm) : -365 < carriedDay tm ∧ carriedDay tm < 365 := by
  obtain ⟨⟨v1, v2, v3, v4⟩, v5, v6, v7, v8, v9, v10⟩ := v
  have := mdays_range (isLeap tm.year) (tm.month - 1)
  rw [mdays_eq, Int.sub_add_cancel] at this
  unfold carriedDay
  omega

theorem valid_carried {tm : Tm} (v : Valid tm) : carried tm = tm.seconds := by
  obtain ⟨⟨v1, v2, v3, v4⟩, _⟩ := v
  unfold carried Tm.seconds Spec.seconds dayNum
  rw [show (tm.month - 1) / 12 = 0 by omega, show (tm.month - 1) % 12 = tm.month - 1 by omega, Int.add_zero, Int.sub_add_cancel]
  omega

/-- Converting back gives the same time and leaves the structure as it was. -/
theorem fromgm_togm (t : Int) (tm : Tm) (h : togm t = some tm) : fromgm tm = (t, some tm) := by
  obtain ⟨tm', h', v, s, _⟩ := togm_correct t
  rw [h] at h'
  cases h'
  obtain ⟨e1, e2⟩ := fromgm_value tm (Or.inr (valid_small v))
  rw [valid_carried v, s] at e1 e2
  exact Prod.ext e1 (by rw [e2, h])

/-- Two dates of the calendar denoting the same time are the same. -/
theorem seconds_inj {a b : Tm} (ha : Valid a) (hb : Valid b) (h : a.seconds = b.seconds) :
    a.year = b.year ∧ a.month = b.month ∧ a.day = b.day ∧ a.hour = b.hour ∧ a.min = b.min ∧ a.sec = b.sec := by
  obtain ⟨a1, a2, a3, a4, a5, a6, a7⟩ := ha
  obtain ⟨b1, b2, b3, b4, b5, b6, b7⟩ := hb
  unfold Tm.seconds Spec.seconds at h
  obtain ⟨e1, e2, e3⟩ := dayNum_inj a1 b1 (by omega)
  rw [e1, e2, e3] at h
  exact ⟨e1, e2, e3, by omega, by omega, by omega⟩

/-- Every date of the calendar is converted to the time it denotes and left unchanged. -/
theorem togm_fromgm (tm : Tm) (v : Valid tm) : (fromgm tm).1 = tm.seconds ∧ ∃ tm', (fromgm tm).2 = some tm' ∧
    tm'.year = tm.year ∧ tm'.month = tm.month ∧ tm'.day = tm.day ∧ tm'.hour = tm.hour ∧ tm'.min = tm.min ∧ tm'.sec = tm.sec := by
  obtain ⟨e1, e2⟩ := fromgm_value tm (Or.inr (valid_small v))
  rw [valid_carried v] at e1 e2
  obtain ⟨tm', h, v', s, _⟩ := togm_correct tm.seconds
  exact ⟨e1, tm', by rw [e2, h], seconds_inj v' v s⟩

example : Valid { month := 2, day := 29, hour := 23, min := 59, sec := 59, year := 2000, wday := 0, yday := 0, year2 := 0 } ∧
    (fromgm { month := 2, day := 29, hour := 23, min := 59, sec := 59, year := 2000, wday := 0, yday := 0, year2 := 0 }).1 = 951868799 := by
  refine ⟨by decide, ?_⟩
  simp [togm, fromgm, normalizeTm, normRange, yearLoop, monthLoop, mabs, stepDays, yearDays, isLeap, mdays, priorDays, calcYday, sumMonths,
    wdaymap, rwdaymap, epochLoop_spec, yearStart]

/-- Day after day, the dates are those of the calendar, starting at January 1st 1970; the time of day does not change. -/
theorem togm_next (t : Int) : ∃ a b, togm t = some a ∧ togm (t + 86400) = some b ∧
    (b.year, b.month, b.day) = next a.year a.month a.day ∧ b.hour = a.hour ∧ b.min = a.min ∧ b.sec = a.sec := by
  obtain ⟨a, ha, va, sa, _⟩ := togm_correct t
  obtain ⟨b, hb, vb, sb, _⟩ := togm_correct (t + 86400)
  refine ⟨a, b, ha, hb, ?_⟩
  obtain ⟨n1, n2⟩ := dayNum_next va.1
  have := seconds_inj (a := { a with year := (next a.year a.month a.day).1, month := (next a.year a.month a.day).2.1, day := (next a.year a.month a.day).2.2 })
    (b := b) ⟨n1, va.2⟩ vb (by
      rw [sb, ← sa]
      unfold Tm.seconds Spec.seconds
      simp only [n2]
      omega)
  obtain ⟨q1, q2, q3, q4, q5, q6⟩ := this
  simp only at *
  refine ⟨?_, q4.symm, q5.symm, q6.symm⟩
  rw [← q1, ← q2, ← q3]

theorem togm_epoch : togm 0 = some { month := 1, day := 1, hour := 0, min := 0, sec := 0, year := 1970, wday := 4, yday := 0, year2 := 70 } := by
  simp [togm, fromgm, normalizeTm, normRange, yearLoop, monthLoop, mabs, stepDays, yearDays, isLeap, mdays, priorDays, calcYday, sumMonths,
    wdaymap, rwdaymap, epochLoop_spec, yearStart]

/-- The validity check accepts exactly the dates of the calendar. -/
theorem isValidDay_iff (y m d : Int) : isValidDay y m d = true ↔ ValidDate y m d := by
  unfold isValidDay daysInMonth ValidDate
  simp only
  have := mdays_range (isLeap y) (m - 1)
  rw [mdays_eq, Int.sub_add_cancel] at *
  by_cases h : m < 1 ∨ m > 12
  · simp only [h, if_true, true_or, Bool.false_eq_true, false_iff]
    omega
  · simp only [h, if_false]
    split
    · simp; omega
    · split
      · simp; omega
      · simp; omega

/-! ### C27 -/

/-- Fields out of range are carried, when the month is January or less than a year of days has to be carried.  Missing:
other months with more days (`fromgm_year_of_days_fails`). -/
theorem fromgm_carries_partial (tm : Tm) (h : tm.month = 1 ∨ (-365 < carriedDay tm ∧ carriedDay tm < 365)) :
    (fromgm tm).1 = carried tm ∧ ∃ tm', (fromgm tm).2 = some tm' ∧ Valid tm' ∧ tm'.seconds = carried tm := by
  obtain ⟨e1, e2⟩ := fromgm_value tm h
  obtain ⟨tm', h', v', s, _⟩ := togm_correct (carried tm)
  exact ⟨e1, tm', by rw [e2, h'], v', s⟩

/-- The 14th month of 2019, day -40, 30 hours before: December 20th 2019, 18:00. -/
example : fromgm { month := 14, day := -40, hour := -30, min := 0, sec := 0, year := 2019, wday := 0, yday := 0, year2 := 0 } =
    (1576864800, some { month := 12, day := 20, hour := 18, min := 0, sec := 0, year := 2019, wday := 5, yday := 353, year2 := 19 }) := by
  simp [togm, fromgm, normalizeTm, normRange, yearLoop, monthLoop, mabs, stepDays, yearDays, isLeap, mdays, priorDays, calcYday, sumMonths,
    wdaymap, rwdaymap, epochLoop_spec, yearStart]

/-- March 367th 2020 is 366 days after March 1st 2020, i.e. March 2nd 2021, but March 1st is returned: the length of the
leap year is used although its leap day has passed. -/
theorem fromgm_year_of_days_fails :
    (fromgm { month := 3, day := 367, hour := 0, min := 0, sec := 0, year := 2020, wday := 0, yday := 0, year2 := 0 }).1 = 1614556800 ∧
    carried { month := 3, day := 367, hour := 0, min := 0, sec := 0, year := 2020, wday := 0, yday := 0, year2 := 0 } = 1614643200 := by
  refine ⟨?_, by decide⟩
  simp [togm, fromgm, normalizeTm, normRange, yearLoop, monthLoop, mabs, stepDays, yearDays, isLeap, mdays, priorDays, calcYday, sumMonths,
    wdaymap, rwdaymap, epochLoop_spec, yearStart]

end Verif.Time
