import Verif.Tz.RuleLemmas
/-! C95: local time in zones given by rules. -/
namespace Verif.Tz
open Verif.Time
open Spec (Sorted InForce NthDay NthLastDay ChangeAt InYear Dst Counted West Shows)
open Time.Spec (ValidDate monthLen dayNum yearStart monthsBefore)

/-- **C95, rules are kept sorted.**  Adding a rule to a list with one rule per year adds it if its year has none yet and
refuses it otherwise. -/
theorem add_rule (rules : List Rule) (h : Sorted rules) (r : Rule) :
    ∃ rules' res, addAdjust rules r = some (rules', res) ∧ Sorted rules' ∧
      (res = true ↔ ∀ r' ∈ rules, r'.year ≠ r.year) ∧
      (res = true → ∀ x, x ∈ rules' ↔ x = r ∨ x ∈ rules) ∧ (res = false → rules' = rules) := by
  have hle : rules.Pairwise (fun a b => ruleCmp a b ≤ 0) := (sorted_strict h).imp (fun h => by omega)
  obtain ⟨found, idx, e, hf, _⟩ := Sort.search_correct ruleCmp_lawful rules hle (yearKey r.year) false
  have hk : ∀ x, ruleCmp (yearKey r.year) x = 0 ↔ x.year = r.year := by
    intro x
    unfold ruleCmp yearKey
    dsimp only
    constructor
    · intro h; split at h
      · omega
      · split at h <;> omega
    · intro h; rw [if_pos (by omega)]
  unfold addAdjust
  rw [e]
  cases found with
  | true =>
    obtain ⟨x, hx, hx0⟩ := hf.1 rfl
    exact ⟨_, _, rfl, h, ⟨by simp, fun hh => absurd ((hk x).1 hx0) (hh x hx)⟩, by simp, fun _ => rfl⟩
  | false =>
    have hno : ∀ r' ∈ rules, r'.year ≠ r.year := by
      intro r' hr' hy
      have := hf.2 ⟨r', hr', (hk r').2 hy⟩
      simp at this
    dsimp only
    obtain ⟨idx, e, hle, h1, h2, _⟩ := insertIdx_strict ruleCmp_lawful rules (sorted_strict h) r
    rw [e]
    refine ⟨_, _, rfl, ?_, by simpa using hno, ?_, by simp⟩
    · unfold Sorted
      rw [List.pairwise_append, List.pairwise_cons]
      have hcmp : ∀ x ∈ rules, (0 ≤ ruleCmp r x → r.year < x.year) ∧ (ruleCmp r x ≤ 0 → x.year < r.year) := by
        intro x hx
        have := hno x hx
        unfold ruleCmp
        rw [if_neg (by omega)]
        split <;> omega
      have ht : ∀ x ∈ rules.take idx, r.year < x.year := by
        intro x hx
        obtain ⟨i, hi, rfl⟩ := List.getElem_of_mem hx
        rw [List.length_take] at hi
        rw [List.getElem_take]
        exact (hcmp _ (List.getElem_mem _)).1 (h1 i (by omega) (by omega))
      have hd : ∀ x ∈ rules.drop idx, x.year < r.year := by
        intro x hx
        obtain ⟨i, hi, rfl⟩ := List.getElem_of_mem hx
        rw [List.length_drop] at hi
        rw [List.getElem_drop]
        exact (hcmp _ (List.getElem_mem _)).2 (h2 (idx + i) (by omega) (by omega))
      refine ⟨List.Pairwise.sublist (List.take_sublist _ _) h, ⟨hd, List.Pairwise.sublist (List.drop_sublist _ _) h⟩, ?_⟩
      intro a ha b hb
      rcases List.mem_cons.1 hb with rfl | hb
      · exact ht a ha
      · have := ht a ha; have := hd b hb; omega
    · intro _ x
      rw [List.mem_append, List.mem_cons]
      conv => rhs; rw [← List.take_append_drop idx rules, List.mem_append]
      constructor
      · rintro (a | a | a)
        · exact Or.inr (Or.inl a)
        · exact Or.inl a
        · exact Or.inr (Or.inr a)
      · rintro (a | a | a)
        · exact Or.inr (Or.inl a)
        · exact Or.inl a
        · exact Or.inr (Or.inr a)

/-- **C95, choice of the rule.**  The rule used for a year is the last one that began by then, and the first rule for years
before all of them. -/
theorem rule_of_year (rules : List Rule) (h : Sorted rules) (year : Int) :
    ∃ v, getRule rules year = some v ∧ (v = none ↔ rules = []) ∧ ∀ r, v = some r ↔ InForce rules year r := by
  obtain ⟨v, e, h1, h2⟩ := getRule_spec rules h year
  refine ⟨v, e, h1, fun r => ⟨h2 r, fun hr => ?_⟩⟩
  cases v with
  | none =>
    have h0 := h1.1 rfl
    have hm := hr.1
    rw [h0] at hm
    exact absurd hm (by simp)
  | some r' => rw [inForce_unique h (h2 r' rfl) hr]

/-- **C95, time of a change.**  "The k-th weekday of a month at some time" is computed correctly for every year, for `k` counted
from the start of the month. -/
theorem change_time_partial (c : Change) (hc : Counted c) (y : Int) :
    ∃ v, changeToTime c y = some v ∧ ∀ x, v = some x ↔ ChangeAt c y x := changeToTime_spec c hc y

/-- Second Sunday of March. -/
def usStart : Change := ⟨3, 2, 0, 2, 0, 0⟩
/-- First Sunday of November. -/
def usEnd : Change := ⟨11, 1, 0, 2, 0, 0⟩
/-- `EST5EDT,M3.2.0/02:00:00,M11.1.0/02:00:00`, the example of `include/mstdlib/base/m_time.h:1034`. -/
def newYork : Zone := { abbr := "EST", abbrDst := "EDT", offset := -18000, adjusts := [⟨0, usStart, usEnd, -18000, -14400⟩] }

theorem usStart_counted : Counted usStart := ⟨by decide, by decide, by decide, by decide, by decide, by decide⟩
theorem usEnd_counted : Counted usEnd := ⟨by decide, by decide, by decide, by decide, by decide, by decide⟩

theorem newYork_west : West newYork (-18000) where
  some := by decide
  sorted := by unfold Sorted; decide
  offset := by decide
  dst := by decide
  changes := by
    intro r hr
    rw [List.mem_singleton.1 hr]
    exact Or.inr ⟨usStart_counted, usEnd_counted, by decide⟩

/-- March 14th 2021, 02:00. -/
example : changeToTime usStart 2021 = some (some 1615687200) ∧ ChangeAt usStart 2021 1615687200 :=
  ⟨by decide +kernel, 14, Or.inl ⟨by decide, ⟨by decide, by decide, by decide, by decide⟩, by decide, by decide, by decide⟩, by decide⟩

/-- **C95, to local time (partial).**  In a western zone with changes counted from the start of the month, the local time of
every instant is the date and time at the offset in force, and DST is in force exactly from the start of DST on the clock
showing standard time to its end on the clock showing DST.  Missing: changes counted from the end of the month, zones east of
Greenwich, zones where DST spans the new year, see the theorems ending in `_fails`. -/
theorem tolocal_partial (z : Zone) (off : Int) (hz : West z off) (t : Int) :
    ∃ l, tolocal (.rules z) t = some l ∧ Shows z t l := by
  obtain ⟨y, r, b, hr, hy, e, hb⟩ := ruleToLocal_west hz t
  unfold tolocal AnyZone.adjustTo
  dsimp only
  rw [e]
  dsimp only
  obtain ⟨tm, h1, v1, s1, w1, _⟩ := togm_correct (t + if b then r.offsetDst else off)
  unfold togmLocal
  rw [h1]
  refine ⟨_, rfl, v1, s1, w1, ?_, ?_⟩
  · rintro o ⟨y', r', s, e, hr', hy', hs, he, rfl, hx⟩
    rw [hz.offset r' hr'.1] at hy' hx
    have : y = y' := inYear_unique hy hy'
    subst this
    have := inForce_unique hz.sorted hr hr'
    subst this
    have hlt : s < e := by
      rcases hz.changes r hr.1 with h0 | ⟨c1, c2, hlt⟩
      · obtain ⟨d, hd, _⟩ := hs
        have : ValidDate y r.start.month d := by rcases hd with ⟨_, hd⟩ | ⟨_, hd⟩ <;> exact hd.1
        have := this.1
        omega
      · exact change_lt c1 c2 hlt hs he
    have hbt : b = true := hb.2 ⟨s, e, hs, he, hlt, by omega, by omega⟩
    subst hbt
    exact ⟨rfl, rfl, rfl⟩
  · intro hno
    have hbf : b = false := by
      cases hbb : b with
      | false => rfl
      | true =>
        obtain ⟨s, e, a1, a2, a3, a4, a5⟩ := hb.1 hbb
        refine absurd ⟨r.offsetDst, y, r, s, e, hr, ?_, a1, a2, rfl, Or.inl ⟨a3, ?_, a5⟩⟩ hno
        · rw [hz.offset r hr.1]; exact hy
        · rw [hz.offset r hr.1]; exact a4
    subst hbf
    exact ⟨rfl, rfl, Or.inl ⟨y, r, hr, by rw [hz.offset r hr.1]; exact hy, (hz.offset r hr.1).symm⟩⟩

/-- The last second of EST, the first and the last of EDT, and the next one: 2021 in New York. -/
example : West newYork (-18000) ∧
    (tolocal (.rules newYork) 1615705199).map (fun l => (l.tm.month, l.tm.day, l.tm.hour, l.tm.min, l.tm.sec, l.isdst)) = some (3, 14, 1, 59, 59, 0) ∧
    (tolocal (.rules newYork) 1615705200).map (fun l => (l.tm.month, l.tm.day, l.tm.hour, l.tm.min, l.tm.sec, l.isdst)) = some (3, 14, 3, 0, 0, 1) ∧
    (tolocal (.rules newYork) 1636264799).map (fun l => (l.tm.month, l.tm.day, l.tm.hour, l.tm.min, l.tm.sec, l.isdst)) = some (11, 7, 1, 59, 59, 1) ∧
    (tolocal (.rules newYork) 1636264800).map (fun l => (l.tm.month, l.tm.day, l.tm.hour, l.tm.min, l.tm.sec, l.isdst)) = some (11, 7, 1, 0, 0, 0) :=
  ⟨newYork_west, by decide +kernel, by decide +kernel, by decide +kernel, by decide +kernel⟩

/-- **C95, round trip (partial).**  In these zones converting an instant to local time and back gives the instant and leaves
the local time as it was, also in the hour that occurs twice. -/
theorem roundtrip_partial (z : Zone) (off : Int) (hz : West z off) (t : Int) (l : LocalTm)
    (h : tolocal (.rules z) t = some l) : fromlocal (.rules z) l = some (t, l) := by
  obtain ⟨y, r, b, hr, hy, e, hb⟩ := ruleToLocal_west hz t
  have h' := h
  unfold tolocal AnyZone.adjustTo at h'
  dsimp only at h'
  rw [e] at h'
  dsimp only at h'
  obtain ⟨tm, h1, v1, s1, w1, _⟩ := togm_correct (t + if b then r.offsetDst else off)
  unfold togmLocal at h'
  rw [h1] at h'
  dsimp only at h'
  cases h'
  have hfg := fromgm_togm _ _ h1
  have hback : fromlocalTz (.rules z) ⟨tm, if b = true then 1 else 0, if b = true then r.offsetDst else off,
      some (if b = true then z.abbrDst else z.abbr)⟩ = some t := by
    unfold fromlocalTz AnyZone.adjustFrom ruleFromLocal
    dsimp only
    rw [hfg]
    dsimp only
    obtain ⟨r', b', hr', g, hb'⟩ := getOffset_west hz { tm := tm, isdst := if b then 1 else 0, gmtoff := 0, abbr := none } v1
    dsimp only at hr' hb'
    rw [g]
    dsimp only
    have hoff := hz.offset r hr.1
    have hd := hz.dst r hr.1
    -- the year of the local time is the year in standard time
    have hyear : tm.year = y := by
      cases hbb : b with
      | false =>
        rw [hbb] at s1
        have hv := inYear_valid v1
        rw [s1] at hv
        exact inYear_unique hv hy
      | true =>
        obtain ⟨s, e, a1, a2, a3, a4, a5⟩ := hb.1 hbb
        rw [hbb] at s1
        refine inYear_unique (inYear_valid v1) ?_
        rw [s1]
        refine ⟨by have := hy.1; simp only [if_true]; omega, ?_⟩
        obtain ⟨d, hdd, rfl⟩ := a2
        rcases hz.changes r hr.1 with h0 | ⟨_, c2, _⟩
        · obtain ⟨d', hd', _⟩ := a1
          have : ValidDate y r.start.month d' := by rcases hd' with ⟨_, hd⟩ | ⟨_, hd⟩ <;> exact hd.1
          have := this.1
          omega
        · have hvd : ValidDate y r.fin.month d := by rcases hdd with ⟨_, hd⟩ | ⟨_, hd⟩ <;> exact hd.1
          have := dayNum_range hvd
          rw [yearBegin]
          unfold Time.Spec.seconds at a5
          have := c2.hour; have := c2.min; have := c2.sec
          simp only [if_true]
          omega
    rw [hyear] at hr' hb'
    have hrr := inForce_unique hz.sorted hr' hr
    subst hrr
    have hbb' : b' = b := by
      cases hbb : b with
      | false =>
        rw [hbb] at s1 hb' hb
        simp only [Bool.false_eq_true, if_false] at s1 hb' hb
        rw [s1, hoff] at hb'
        cases hc : b' with
        | false => rfl
        | true =>
          simp only [show ¬ (0 : Int) = 1 by omega, if_false] at hb'
          obtain ⟨s, e, a1, a2, a3, a4, a5⟩ := hb'.1 hc
          exact absurd (hb.2 ⟨s, e, a1, a2, a3, a4, by omega⟩) (by simp)
      | true =>
        obtain ⟨s, e, a1, a2, a3, a4, a5⟩ := hb.1 hbb
        rw [hbb] at s1 hb'
        simp only [if_true] at s1 hb'
        rw [s1] at hb'
        exact hb'.2 ⟨s, e, a1, a2, a3, by omega, by omega⟩
    rw [hbb', hoff]
    congr 1
    split <;> omega
  unfold fromlocal
  rw [hback]
  dsimp only
  rw [h]

/-- **C95, zones without DST.**  A zone without rules has its offset at all times, and the round trip holds. -/
theorem fixed_zone (z : Zone) (hz : z.adjusts = []) (t : Int) :
    ∃ l, tolocal (.rules z) t = some l ∧ Valid l.tm ∧ l.tm.seconds = t + z.offset ∧ l.gmtoff = z.offset ∧ l.isdst = 0 ∧
      fromlocal (.rules z) l = some (t, l) := by
  obtain ⟨tm, h1, v1, s1, w1, _⟩ := togm_correct (t + z.offset)
  have e : tolocal (.rules z) t = some { tm := tm, isdst := 0, gmtoff := z.offset, abbr := none } := by
    unfold tolocal AnyZone.adjustTo ruleToLocal togmLocal
    simp [hz, h1]
  refine ⟨_, e, v1, s1, rfl, rfl, ?_⟩
  have hb : fromlocalTz (.rules z) { tm := tm, isdst := 0, gmtoff := z.offset, abbr := none } = some t := by
    unfold fromlocalTz AnyZone.adjustFrom ruleFromLocal getOffset
    dsimp only
    rw [fromgm_togm _ _ h1, hz]
    have : getRule [] tm.year = some none := by
      unfold getRule Sort.insertIdx Sort.binaryIdx
      simp
    dsimp only
    rw [this]
    dsimp only
    congr 1
    omega
  unfold fromlocal
  rw [hb]
  dsimp only
  rw [e]

/-- **C95 (the code disagrees).**  No change counted from the end of the month ("the last Sunday of October") is ever found: the
check on line 66 tests a field that is still zero. -/
theorem last_weekday_fails (c : Change) (h : c.occur < 0) (y : Int) : changeToTime c y = some none := by
  unfold changeToTime
  dsimp only
  rw [if_neg (by omega), if_pos ⟨h, rfl⟩]

/-- Central European Time as written with the documented extension: `CET+1CEST,M3.-1.0/02:00:00,M10.-1.0/03:00:00`. -/
def berlin : Zone := { abbr := "CET", abbrDst := "CEST", offset := 3600, adjusts := [⟨0, ⟨3, -1, 0, 2, 0, 0⟩, ⟨10, -1, 0, 3, 0, 0⟩, 3600, 7200⟩] }

/-- **C95 (the code disagrees).**  July 1st 2021 in Berlin is DST but shown as standard time. -/
theorem berlin_fails : Dst berlin.adjusts 1625097600 7200 ∧
    (tolocal (.rules berlin) 1625097600).map (fun l => (l.gmtoff, l.isdst)) = some (3600, 0) := by
  refine ⟨⟨2021, ⟨0, ⟨3, -1, 0, 2, 0, 0⟩, ⟨10, -1, 0, 3, 0, 0⟩, 3600, 7200⟩, 1616896800, 1635649200, ?_, ?_, ?_, ?_, rfl, Or.inl ?_⟩,
    by decide +kernel⟩
  · exact ⟨by decide, Or.inl ⟨by decide, by decide⟩⟩
  · exact ⟨by decide, by decide⟩
  · exact ⟨28, Or.inr ⟨by decide, ⟨by decide, by decide, by decide, by decide⟩, by decide, by decide, by decide⟩, by decide⟩
  · exact ⟨31, Or.inr ⟨by decide, ⟨by decide, by decide, by decide, by decide⟩, by decide, by decide, by decide⟩, by decide⟩
  · decide

/-- The same with the weeks 5 that POSIX uses for "last". -/
def berlin5 : Zone := { berlin with adjusts := [⟨0, ⟨3, 5, 0, 2, 0, 0⟩, ⟨10, 5, 0, 3, 0, 0⟩, 3600, 7200⟩] }

/-- **C95 (the code disagrees with POSIX).**  With week 5 there is no DST at all, in any year: March and October never both have
five Sundays. -/
theorem fifth_week_fails (t : Int) : (tolocal (.rules berlin5) t).map (·.isdst) = some 0 := by
  have c1 : Counted ⟨3, 5, 0, 2, 0, 0⟩ := ⟨by decide, by decide, by decide, by decide, by decide, by decide⟩
  have c2 : Counted ⟨10, 5, 0, 3, 0, 0⟩ := ⟨by decide, by decide, by decide, by decide, by decide, by decide⟩
  have hno : ∀ y s e, ChangeAt ⟨3, 5, 0, 2, 0, 0⟩ y s → ChangeAt ⟨10, 5, 0, 3, 0, 0⟩ y e → False := by
    rintro y s e ⟨d, hd, _⟩ ⟨d', hd', _⟩
    rcases hd with ⟨_, ⟨_, _, _, h1⟩, h2, h3, _⟩ | ⟨h0, _⟩
    · rcases hd' with ⟨_, ⟨_, _, _, h1'⟩, h2', h3', _⟩ | ⟨h0, _⟩
      · simp only [monthLen, dayNum, show (3 - 1 : Int).toNat = 2 from rfl, show (10 - 1 : Int).toNat = 9 from rfl, monthsBefore] at h1 h2 h1' h2' h3 h3'
        simp (decide := true) at h1 h2 h1' h2' h3 h3'
        generalize yearStart y = Y at *
        by_cases hl : Time.Spec.Leap y
        · simp only [hl, if_true] at h2 h2'
          dsimp only at *
          omega
        · simp only [hl, if_false] at h2 h2'
          dsimp only at *
          omega
      · exact absurd h0 (by decide)
    · exact absurd h0 (by decide)
  have hsort : Sorted berlin5.adjusts := by unfold Sorted; decide
  have hrule : ∀ y, getRule berlin5.adjusts y = some (some ⟨0, ⟨3, 5, 0, 2, 0, 0⟩, ⟨10, 5, 0, 3, 0, 0⟩, 3600, 7200⟩) := by
    intro y
    obtain ⟨v, e, h1, h2⟩ := getRule_spec _ hsort y
    cases v with
    | none => exact absurd (h1.1 rfl) (by decide)
    | some r => rw [e, List.mem_singleton.1 (h2 r rfl).1]
  have hoff : ∀ l, getOffset berlin5 l = some (3600, false) := by
    intro l
    unfold getOffset
    rw [hrule]
    dsimp only
    rw [if_neg (by decide)]
    obtain ⟨v1, e1, g1⟩ := changeToTime_spec _ c1 l.tm.year
    obtain ⟨v2, e2, g2⟩ := changeToTime_spec _ c2 l.tm.year
    unfold ruleIsdst
    dsimp only
    rw [e1, e2]
    cases v1 with
    | none => rfl
    | some s =>
      cases v2 with
      | none => rfl
      | some e => exact (hno _ s e ((g1 s).1 rfl) ((g2 e).1 rfl)).elim
  obtain ⟨tm0, h0, _⟩ := togm_correct t
  obtain ⟨tm1, h1, _⟩ := togm_correct (t + 3600)
  unfold tolocal AnyZone.adjustTo ruleToLocal togmLocal
  dsimp only
  rw [if_neg (by decide), h0]
  dsimp only
  rw [hrule]
  dsimp only
  rw [h1]
  dsimp only
  rw [hoff]
  dsimp only
  rw [h1]
  rfl

/-- A zone one hour east of Greenwich: `CET+1CEST,M3.4.0/02:00:00,M10.4.0/03:00:00`. -/
def east : Zone := { berlin with adjusts := [⟨0, ⟨3, 4, 0, 2, 0, 0⟩, ⟨10, 4, 0, 3, 0, 0⟩, 3600, 7200⟩] }

/-- **C95 (the code disagrees).**  East of Greenwich DST ends an hour late, and an instant in that hour does not survive the
round trip: on October 24th 2021 DST ends at 01:00 UTC; at 01:30 UTC the local time is still DST, and comes back as 02:30. -/
theorem east_fails : (¬ ∃ o, Dst east.adjusts 1635039000 o) ∧
    (tolocal (.rules east) 1635039000).map (fun l => (l.gmtoff, l.isdst)) = some (7200, 1) ∧
    ((tolocal (.rules east) 1635039000).bind (fromlocal (.rules east))).map (·.1) = some 1635042600 := by
  refine ⟨?_, by decide +kernel, by decide +kernel⟩
  rintro ⟨o, y, r, s, e, hr, hy, hs, he, _, hx⟩
  rw [List.mem_singleton.1 hr.1] at *
  dsimp only at *
  have : y = 2021 := inYear_unique hy ⟨by decide, by decide⟩
  subst this
  have c1 : Counted ⟨3, 4, 0, 2, 0, 0⟩ := ⟨by decide, by decide, by decide, by decide, by decide, by decide⟩
  have c2 : Counted ⟨10, 4, 0, 3, 0, 0⟩ := ⟨by decide, by decide, by decide, by decide, by decide, by decide⟩
  obtain ⟨v1, e1, g1⟩ := changeToTime_spec _ c1 2021
  obtain ⟨v2, e2, g2⟩ := changeToTime_spec _ c2 2021
  have f1 : changeToTime ⟨3, 4, 0, 2, 0, 0⟩ 2021 = some (some 1616896800) := by decide +kernel
  have f2 : changeToTime ⟨10, 4, 0, 3, 0, 0⟩ 2021 = some (some 1635044400) := by decide +kernel
  rw [f1] at e1; rw [f2] at e2
  cases e1; cases e2
  have hs' := (g1 s).2 hs
  have he' := (g2 e).2 he
  cases hs'; cases he'
  omega

/-- Sydney: `AEST+10AEDT,M10.1.0/02:00:00,M4.1.0/03:00:00`. -/
def sydney : Zone := { abbr := "AEST", abbrDst := "AEDT", offset := 36000, adjusts := [⟨0, ⟨10, 1, 0, 2, 0, 0⟩, ⟨4, 1, 0, 3, 0, 0⟩, 36000, 39600⟩] }

/-- **C95 (the code disagrees).**  Where DST spans the new year it is applied in winter and not in summer: January 1st and July 1st
2021 in Sydney. -/
theorem south_fails : Dst sydney.adjusts 1609459200 39600 ∧
    (tolocal (.rules sydney) 1609459200).map (fun l => (l.gmtoff, l.isdst)) = some (36000, 0) ∧
    (tolocal (.rules sydney) 1625097600).map (fun l => (l.gmtoff, l.isdst)) = some (39600, 1) := by
  refine ⟨⟨2021, ⟨0, ⟨10, 1, 0, 2, 0, 0⟩, ⟨4, 1, 0, 3, 0, 0⟩, 36000, 39600⟩, 1633226400, 1617505200, ?_, ?_, ?_, ?_, rfl, Or.inr ?_⟩,
    by decide +kernel, by decide +kernel⟩
  · exact ⟨by decide, Or.inl ⟨by decide, by decide⟩⟩
  · exact ⟨by decide, by decide⟩
  · exact ⟨3, Or.inl ⟨by decide, ⟨by decide, by decide, by decide, by decide⟩, by decide, by decide, by decide⟩, by decide⟩
  · exact ⟨4, Or.inl ⟨by decide, ⟨by decide, by decide, by decide, by decide⟩, by decide, by decide, by decide⟩, by decide⟩
  · decide

/-- **C95 (the code disagrees).**  A rule whose start has month 0 is documented to mean that DST always applies; standard time is
used, in every zone and at every instant of the years it is in force. -/
theorem always_dst_fails (z : Zone) (l : LocalTm) (r : Rule) (h : getRule z.adjusts l.tm.year = some (some r))
    (h0 : r.start.month = 0) : getOffset z l = some (r.offset, false) := by
  unfold getOffset
  rw [h]
  dsimp only
  rw [if_pos h0]

/-- **C95 (the code disagrees).**  In a zone without DST the abbreviation is never filled in. -/
theorem abbr_fails (z : Zone) (hz : z.adjusts = []) (t : Int) :
    (tolocal (.rules z) t).map (·.abbr) = some none := by
  obtain ⟨tm, h1, _⟩ := togm_correct (t + z.offset)
  unfold tolocal AnyZone.adjustTo ruleToLocal togmLocal
  simp [hz, h1]

/-- **C95 (the code disagrees with POSIX).**  A change at 24:00 is put two days early: the second Sunday of March 2021 is the 14th, the
change is due at 00:00 on the 15th (1615766400) and found at 00:00 on the 13th. -/
theorem hour24_fails : changeToTime ⟨3, 2, 0, 24, 0, 0⟩ 2021 = some (some 1615593600) := by decide +kernel

end Verif.Tz
