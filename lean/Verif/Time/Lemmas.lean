import Verif.Time.Model
namespace Verif.Time

/-! ### Specification: the proleptic Gregorian calendar -/
namespace Spec

/-- Divisible by 4, and by 400 if by 100. -/
def Leap (y : Int) : Prop := y % 4 = 0 ∧ (y % 100 = 0 → y % 400 = 0)

instance (y : Int) : Decidable (Leap y) := inferInstanceAs (Decidable (_ ∧ _))

/-- Length of month `m` (1 is January). -/
def monthLen (y m : Int) : Int :=
  if m = 2 then (if Leap y then 29 else 28) else if m = 4 ∨ m = 6 ∨ m = 9 ∨ m = 11 then 30 else 31

/-- A date of the calendar. -/
def ValidDate (y m d : Int) : Prop := 1 ≤ m ∧ m ≤ 12 ∧ 1 ≤ d ∧ d ≤ monthLen y m

/-- The following date. -/
def next (y m d : Int) : Int × Int × Int :=
  if d < monthLen y m then (y, m, d + 1) else if m < 12 then (y, m + 1, 1) else (y + 1, 1, 1)

/-- Days from the epoch to the 1st of January, closed formula. -/
def yearStart (y : Int) : Int := 365 * (y - 1970) + (y - 1) / 4 - (y - 1) / 100 + (y - 1) / 400 - 477

/-- Days of the first `n` months. -/
def monthsBefore (y : Int) : Nat → Int
  | 0 => 0
  | n + 1 => monthsBefore y n + monthLen y (n + 1)

/-- Day number of a date, the epoch being 0. -/
def dayNum (y m d : Int) : Int := yearStart y + monthsBefore y (m - 1).toNat + (d - 1)

/-- Seconds since the epoch. -/
def seconds (y m d h mi s : Int) : Int := 86400 * dayNum y m d + 3600 * h + 60 * mi + s

end Spec
open Spec

/-! ### Basics -/

theorem tmod_zero (a b : Int) : a.tmod b = 0 ↔ a % b = 0 := by
  rw [← Int.dvd_iff_tmod_eq_zero, Int.dvd_iff_emod_eq_zero]

theorem isLeap_iff (y : Int) : isLeap y = true ↔ Leap y := by
  unfold isLeap Leap
  simp only [Bool.or_eq_true, Bool.and_eq_true, decide_eq_true_eq, ne_eq, tmod_zero]
  omega

theorem mdays_eq (y : Int) (i : Int) : mdays (isLeap y) i = monthLen y (i + 1) := by
  unfold mdays monthLen
  by_cases h : Leap y
  · rw [(isLeap_iff y).2 h]
    simp only [h, if_true]
    repeat' split
    all_goals omega
  · have : isLeap y = false := by
      cases hh : isLeap y with
      | false => rfl
      | true => exact absurd ((isLeap_iff y).1 hh) h
    rw [this]
    simp only [h, if_false, Bool.false_eq_true]
    repeat' split
    all_goals omega

theorem yearDays_eq (y : Int) : yearDays (isLeap y) = if Leap y then 366 else 365 := by
  unfold yearDays
  by_cases h : Leap y
  · rw [(isLeap_iff y).2 h, if_pos h]; rfl
  · rw [if_neg h, if_neg]; intro hh; exact h ((isLeap_iff y).1 hh)

theorem yearStart_succ (y : Int) : yearStart (y + 1) = yearStart y + yearDays (isLeap y) := by
  rw [yearDays_eq]
  by_cases h : Leap y
  · rw [if_pos h]
    unfold Leap at h
    unfold yearStart
    omega
  · rw [if_neg h]
    unfold Leap at h
    unfold yearStart
    omega

theorem yearStart_pred (y : Int) : yearStart y = yearStart (y - 1) + yearDays (isLeap (y - 1)) := by
  have := yearStart_succ (y - 1)
  rw [Int.sub_add_cancel] at this
  exact this

theorem sumMonths_succ (leap : Bool) : ∀ (n : Nat) (i : Int), sumMonths leap (n + 1) i = sumMonths leap n i + mdays leap (i + n) := by
  intro n
  induction n with
  | zero => intro i; simp [sumMonths]
  | succ n ih =>
    intro i
    rw [sumMonths, ih (i + 1), sumMonths]
    have : i + 1 + (n : Int) = i + ((n + 1 : Nat) : Int) := by omega
    rw [this]
    omega

theorem sumMonths_eq (y : Int) (n : Nat) : sumMonths (isLeap y) n 0 = monthsBefore y n := by
  induction n with
  | zero => rfl
  | succ n ih =>
    rw [sumMonths_succ, ih, monthsBefore, mdays_eq]
    simp

theorem monthsBefore_year (y : Int) : monthsBefore y 12 = yearDays (isLeap y) := by
  rw [yearDays_eq]
  by_cases h : Leap y <;> simp [h, monthsBefore, monthLen]

/-! ### `normalize_range` -/

theorem normRange_eq (o n : Int) {mx : Int} (h : 0 < mx) : normRange o n mx = (o + n / (mx + 1), n % (mx + 1)) := by
  have hc : 0 < mx + 1 := by omega
  unfold normRange
  by_cases hn : n < 0
  · have h0 : 0 ≤ -n + mx := by omega
    simp only [hn, if_true]
    rw [Int.tdiv_eq_ediv_of_nonneg h0, Int.tmod_eq_emod_of_nonneg h0]
    have h1 := Int.emod_nonneg (-n + mx) (show mx + 1 ≠ 0 by omega)
    have h2 := Int.emod_lt_of_pos (-n + mx) hc
    have h3 := Int.mul_ediv_add_emod (-n + mx) (mx + 1)
    rw [if_neg (by omega)]
    have key : n = (mx + 1) * (-((-n + mx) / (mx + 1))) + (mx - (-n + mx) % (mx + 1)) := by
      rw [Int.mul_neg]; omega
    generalize (-n + mx) / (mx + 1) = q at *
    generalize (-n + mx) % (mx + 1) = r at *
    have e1 : n / (mx + 1) = -q := by
      rw [key, Int.add_comm, Int.add_mul_ediv_left _ _ (by omega), Int.ediv_eq_zero_of_lt (by omega) (by omega)]
      omega
    have e2 : n % (mx + 1) = mx - r := by
      rw [key, Int.add_comm, Int.add_mul_emod_self_left, Int.emod_eq_of_lt (by omega) (by omega)]
    rw [e1, e2]
    simp [Int.sub_eq_add_neg]
  · simp only [hn, if_false]
    by_cases hm : n > mx
    · rw [if_pos hm, Int.tdiv_eq_ediv_of_nonneg (by omega), Int.tmod_eq_emod_of_nonneg (by omega)]
    · rw [if_neg hm, Int.ediv_eq_zero_of_lt (by omega) (by omega), Int.emod_eq_of_lt (by omega) (by omega), Int.add_zero]

/-- The month index used with `mdays` is within the table. -/
theorem normRange_range (o n : Int) : 0 ≤ (normRange o n 11).2 ∧ (normRange o n 11).2 ≤ 11 := by
  rw [normRange_eq o n (by omega)]
  simp only
  omega

/-! ### The loops -/

theorem yearLoop_spec (y d : Int) : yearStart (yearLoop y d).1 + (yearLoop y d).2 = yearStart y + d := by
  fun_induction yearLoop y d with
  | case1 => rfl
  | case2 y d h1 h2 ih =>
    rw [ih, yearStart_pred y]
    unfold stepDays
    rw [if_neg (by omega)]
    omega
  | case3 y d h1 h2 ih =>
    have hd : 0 < d := by
      have := stepDays_cases y d
      have := mabs_cases d
      omega
    rw [ih, yearStart_succ y]
    unfold stepDays
    rw [if_pos hd]
    omega

theorem yearLoop_small (y : Int) {d : Int} (h1 : -365 < d) (h2 : d < 365) : yearLoop y d = (y, d) := by
  unfold yearLoop
  have := stepDays_cases y d
  have := mabs_cases d
  rw [if_pos (by omega)]

/-- Day number of 0-based month and day with the month carried into the year. -/
def absDay (y m d : Int) : Int := yearStart (y + m / 12) + monthsBefore (y + m / 12) (m % 12).toNat + d

theorem absDay_next (y m d : Int) (h0 : 0 ≤ m) (h1 : m ≤ 11) : absDay y (m + 1) (d - monthLen y (m + 1)) = absDay y m d := by
  unfold absDay
  rw [show m / 12 = 0 by omega, show m % 12 = m by omega, Int.add_zero]
  by_cases hm : m = 11
  · subst hm
    rw [show (11 + 1 : Int) / 12 = 1 by omega, show (11 + 1 : Int) % 12 = 0 by omega, yearStart_succ, ← monthsBefore_year]
    simp only [Int.toNat_zero, monthsBefore, show (11 : Int).toNat = 11 from rfl]
    simp
    omega
  · rw [show (m + 1) / 12 = 0 by omega, show (m + 1) % 12 = m + 1 by omega, Int.add_zero,
      show (m + 1).toNat = m.toNat + 1 by omega, monthsBefore, show ((m.toNat : Int) + 1) = m + 1 by omega]
    omega

theorem absDay_norm (y m d : Int) : absDay (y + m / 12) (m % 12) d = absDay y m d := by
  unfold absDay
  rw [show m % 12 / 12 = 0 by omega, show m % 12 % 12 = m % 12 by omega, Int.add_zero]

theorem monthLoop_spec (y m d : Int) : ∀ y' m' d', monthLoop y m d = (y', m', d') →
    absDay y m d = absDay y' m' d' ∧ 0 ≤ m' ∧ m' ≤ 11 ∧ 0 ≤ d' ∧ d' < monthLen y' (m' + 1) := by
  fun_induction monthLoop y m d with
  | case1 y m d Y M h =>
    intro y' m' d' he
    simp only [Prod.mk.injEq] at he
    obtain ⟨rfl, rfl, rfl⟩ := he
    rw [mdays_eq] at h
    simp only [Y, M] at *
    rw [normRange_eq y m (by omega)] at h ⊢
    refine ⟨?_, ?_, ?_, h.2, h.1⟩
    · exact (absDay_norm y m d).symm
    · simp only; omega
    · simp only; omega
  | case2 y m d Y M h1 h2 ih =>
    intro y' m' d' he
    obtain ⟨e, r⟩ := ih y' m' d' he
    refine ⟨?_, r⟩
    rw [← e, ← absDay_norm y m d]
    have hn := normRange_eq y m (mx := 11) (by omega)
    have hY : Y = y + m / 12 := by simp only [Y, hn]; rfl
    have hM : M = m % 12 := by simp only [M, hn]; rfl
    rw [← hY, ← hM]
    have hM0 : 0 ≤ M := by omega
    have hM1 : M ≤ 11 := by omega
    clear_value Y M
    unfold priorDays
    by_cases h0 : M = 0
    · subst h0
      rw [if_pos (by omega), mdays_eq]
      have hl : monthLen Y (11 + 1) = monthLen (Y - 1) (11 + 1) := by simp [monthLen]
      have := absDay_next (Y - 1) 11 (d + monthLen (Y - 1) (11 + 1)) (by omega) (by omega)
      rw [hl]
      have e1 := absDay_norm (Y - 1) (11 + 1) (d + monthLen (Y - 1) (11 + 1) - monthLen (Y - 1) (11 + 1))
      have e2 := absDay_norm Y (0 - 1) (d + monthLen (Y - 1) (11 + 1))
      rw [this] at e1
      rw [show Y - 1 + (11 + 1) / 12 = Y by omega, show (11 + 1 : Int) % 12 = 0 by omega, Int.add_sub_cancel] at e1
      rw [show Y + (0 - 1) / 12 = Y - 1 by omega, show (0 - 1 : Int) % 12 = 11 by omega] at e2
      rw [e1, e2]
    · rw [if_neg (by omega), mdays_eq]
      have := absDay_next Y (M - 1) (d + monthLen Y (M - 1 + 1)) (by omega) (by omega)
      rw [Int.add_sub_cancel] at this
      rw [← this]
      congr 1; omega
  | case3 y m d Y M h1 h2 ih =>
    intro y' m' d' he
    obtain ⟨e, r⟩ := ih y' m' d' he
    refine ⟨?_, r⟩
    rw [← e, ← absDay_norm y m d]
    have hn := normRange_eq y m (mx := 11) (by omega)
    have hY : Y = y + m / 12 := by simp only [Y, hn]; rfl
    have hM : M = m % 12 := by simp only [M, hn]; rfl
    rw [← hY, ← hM, mdays_eq]
    exact (absDay_next Y M d (by omega) (by omega)).symm

theorem epochLoop_spec (y s : Int) : epochLoop y s = s + 86400 * yearStart y := by
  fun_induction epochLoop y s with
  | case1 s => simp [yearStart]
  | case2 y s h1 h2 ih =>
    rw [ih, yearStart_pred y]; omega
  | case3 y s h1 h2 ih =>
    rw [ih, yearStart_succ y]; omega

/-! ### Uniqueness of the day number -/

theorem yearStart_mono {a b : Int} (h : a < b) : yearStart (a + 1) ≤ yearStart b := by
  unfold yearStart; omega

theorem monthsBefore_step (y : Int) {a b : Nat} (h : a < b) : monthsBefore y (a + 1) ≤ monthsBefore y b := by
  obtain ⟨k, rfl⟩ := Nat.exists_eq_add_of_le (show a + 1 ≤ b by omega)
  clear h
  induction k with
  | zero => exact Int.le_refl _
  | succ k ih =>
    show monthsBefore y (a + 1) ≤ monthsBefore y (a + 1 + k) + monthLen y ((a + 1 + k : Nat) + 1)
    have : 0 ≤ monthLen y ((a + 1 + k : Nat) + 1) := by
      unfold monthLen
      repeat' split
      all_goals omega
    omega

theorem dayNum_range {y m d : Int} (h : ValidDate y m d) : yearStart y ≤ dayNum y m d ∧ dayNum y m d < yearStart (y + 1) := by
  obtain ⟨h1, h2, h3, h4⟩ := h
  unfold dayNum
  have hb := monthsBefore_year y
  have h0 : 0 ≤ monthsBefore y (m - 1).toNat := by
    rcases Nat.eq_zero_or_pos (m - 1).toNat with e | e
    · rw [e]; exact Int.le_refl _
    · have := monthsBefore_step y e
      have h5 : monthsBefore y (0 + 1) = 31 := by simp [monthsBefore, monthLen]
      omega
  have h6 : monthsBefore y (m - 1).toNat + monthLen y m ≤ monthsBefore y 12 := by
    have := monthsBefore_step y (a := (m - 1).toNat) (b := 12) (by omega)
    rw [monthsBefore] at this
    rw [show (((m - 1).toNat : Int) + 1) = m by omega] at this
    exact this
  rw [yearStart_succ]
  omega

theorem dayNum_inj {y m d y' m' d' : Int} (h : ValidDate y m d) (h' : ValidDate y' m' d') (e : dayNum y m d = dayNum y' m' d') :
    y = y' ∧ m = m' ∧ d = d' := by
  have r := dayNum_range h
  have r' := dayNum_range h'
  have hy : y = y' := by
    rcases Int.lt_trichotomy y y' with hl | hl | hl
    · have := yearStart_mono hl; omega
    · exact hl
    · have := yearStart_mono hl; omega
  subst hy
  obtain ⟨h1, h2, h3, h4⟩ := h
  obtain ⟨k1, k2, k3, k4⟩ := h'
  have step : ∀ {a b : Int}, 1 ≤ a → a < b → monthsBefore y (a - 1).toNat + monthLen y a ≤ monthsBefore y (b - 1).toNat := by
    intro a b ha hab
    have := monthsBefore_step y (a := (a - 1).toNat) (b := (b - 1).toNat) (by omega)
    rw [monthsBefore, show (((a - 1).toNat : Int) + 1) = a by omega] at this
    exact this
  unfold dayNum at e
  have hm : m = m' := by
    rcases Int.lt_trichotomy m m' with hl | hl | hl
    · have := step h1 hl; omega
    · exact hl
    · have := step k1 hl; omega
  subst hm
  refine ⟨rfl, rfl, ?_⟩
  omega

/-- The day numbers are consecutive. -/
theorem dayNum_next {y m d : Int} (h : ValidDate y m d) :
    ValidDate (next y m d).1 (next y m d).2.1 (next y m d).2.2 ∧
      dayNum (next y m d).1 (next y m d).2.1 (next y m d).2.2 = dayNum y m d + 1 := by
  obtain ⟨h1, h2, h3, h4⟩ := h
  have hl : ∀ y m, 1 ≤ monthLen y m := by
    intro y m; unfold monthLen
    repeat' split
    all_goals omega
  unfold next
  split
  · refine ⟨⟨h1, h2, by simp only; omega, by simp only; omega⟩, ?_⟩
    simp only [dayNum]; omega
  · split
    · refine ⟨⟨by simp only; omega, by simp only; omega, by simp, hl _ _⟩, ?_⟩
      simp only [dayNum]
      rw [show (m + 1 - 1).toNat = (m - 1).toNat + 1 by omega, monthsBefore, show (((m - 1).toNat : Int) + 1) = m by omega]
      omega
    · have : m = 12 := by omega
      subst this
      refine ⟨⟨by simp, by simp, by simp, hl _ _⟩, ?_⟩
      simp only [dayNum]
      have := monthsBefore_year y
      rw [monthsBefore] at this
      rw [yearStart_succ, ← this]
      simp only [show ((12 : Int) - 1).toNat = 11 from rfl, show ((1 : Int) - 1).toNat = 0 from rfl, monthsBefore] at *
      simp at *
      omega

end Verif.Time
