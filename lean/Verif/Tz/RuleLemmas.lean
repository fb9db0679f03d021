import Verif.Tz.Lemmas
/-! Zones given by rules: helper lemmas. -/
namespace Verif.Tz
open Verif.Time
open Spec (Sorted InForce NthDay NthLastDay ChangeAt InYear Dst Counted West Shows)
open Time.Spec (ValidDate monthLen dayNum yearStart monthsBefore)

theorem yearBegin (y : Int) : Time.Spec.seconds y 1 1 0 0 0 = 86400 * yearStart y := by
  unfold Time.Spec.seconds dayNum
  simp only [Int.sub_self, Int.toNat_zero, monthsBefore]
  omega

theorem inYear_unique {y y' x : Int} (h : InYear y x) (h' : InYear y' x) : y = y' := by
  unfold InYear at h h'
  simp only [yearBegin] at h h'
  rcases Int.lt_trichotomy y y' with hlt | rfl | hgt
  · have := yearStart_mono hlt; omega
  · rfl
  · have := yearStart_mono hgt; omega

theorem inYear_valid {tm : Tm} (v : Valid tm) : InYear tm.year tm.seconds := by
  obtain ⟨v1, v2, v3, v4, v5, v6, v7⟩ := v
  have := dayNum_range v1
  unfold InYear
  simp only [yearBegin]
  unfold Tm.seconds Time.Spec.seconds
  omega

theorem fromgm_valid {tm : Tm} (v : Valid tm) : (fromgm tm).1 = tm.seconds := (togm_fromgm tm v).1

/-- Whether DST is found to apply to a local time, in the zones the code is right for. -/
theorem getOffset_west {z : Zone} {off : Int} (hz : West z off) (l : LocalTm) (v : Valid l.tm) :
    ∃ r b, InForce z.adjusts l.tm.year r ∧ getOffset z l = some (if b then r.offsetDst else r.offset, b) ∧
      (b = true ↔ ∃ s e, ChangeAt r.start l.tm.year s ∧ ChangeAt r.fin l.tm.year e ∧ s < e ∧ s ≤ l.tm.seconds ∧
        (if l.isdst = 1 then l.tm.seconds ≤ e else l.tm.seconds < e - (r.offsetDst - r.offset))) := by
  obtain ⟨vr, e1, e2, e3⟩ := getRule_spec z.adjusts hz.sorted l.tm.year
  cases vr with
  | none => exact absurd (e2.1 rfl) hz.some
  | some r =>
    have hr := e3 r rfl
    unfold getOffset
    rw [e1]
    dsimp only
    rcases hz.changes r hr.1 with h0 | ⟨c1, c2, hlt⟩
    · rw [if_pos h0]
      refine ⟨r, false, hr, by simp, by simp, ?_⟩
      rintro ⟨s, e, ⟨d, hd, _⟩, _⟩
      have : ValidDate l.tm.year r.start.month d := by rcases hd with ⟨_, hd⟩ | ⟨_, hd⟩ <;> exact hd.1
      have := this.1
      omega
    · have hm := c1.month
      rw [if_neg (by omega)]
      unfold ruleIsdst
      obtain ⟨v1, f1, g1⟩ := changeToTime_spec r.start c1 l.tm.year
      obtain ⟨v2, f2, g2⟩ := changeToTime_spec r.fin c2 l.tm.year
      rw [f1, f2]
      cases v1 with
      | none =>
        refine ⟨r, false, hr, by simp, by simp, ?_⟩
        rintro ⟨s, e, hs, _⟩
        exact absurd ((g1 s).2 hs) (by simp)
      | some s =>
        cases v2 with
        | none =>
          refine ⟨r, false, hr, by simp, by simp, ?_⟩
          rintro ⟨s, e, _, he, _⟩
          exact absurd ((g2 e).2 he) (by simp)
        | some e =>
          have hs := (g1 s).1 rfl
          have he := (g2 e).1 rfl
          have hse := change_lt c1 c2 hlt hs he
          dsimp only
          rw [if_pos hse, fromgm_valid v]
          obtain ⟨hd1, hd2⟩ := hz.dst r hr.1
          have hoff := hz.offset r hr.1
          have hdiff : mabs r.offset - mabs r.offsetDst = r.offsetDst - r.offset := by
            have := mabs_cases r.offset
            have := mabs_cases r.offsetDst
            omega
          rw [hdiff]
          refine ⟨r, isdstMid l.tm.seconds s e (r.offsetDst - r.offset) (decide (l.isdst = 1)), hr, ?_, ?_⟩
          · cases isdstMid l.tm.seconds s e (r.offsetDst - r.offset) (decide (l.isdst = 1)) <;> rfl
          · have key : isdstMid l.tm.seconds s e (r.offsetDst - r.offset) (decide (l.isdst = 1)) = true ↔
                s ≤ l.tm.seconds ∧
                (if l.isdst = 1 then l.tm.seconds ≤ e else l.tm.seconds < e - (r.offsetDst - r.offset)) := by
              unfold isdstMid
              by_cases hi : l.isdst = 1
              · simp only [hi, decide_true, Bool.true_eq_false, false_and, if_false, if_true]
                by_cases hx : l.tm.seconds < s ∨ l.tm.seconds > e
                · rw [if_pos hx]; simp only [Bool.false_eq_true, false_iff]; omega
                · rw [if_neg hx]; simp only [true_iff]; omega
              · simp only [hi, decide_false, true_and, if_false]
                by_cases hy : l.tm.seconds ≤ e ∧ l.tm.seconds ≥ e - (r.offsetDst - r.offset)
                · rw [if_pos hy]; simp only [Bool.false_eq_true, false_iff]; omega
                · rw [if_neg hy]
                  by_cases hx : l.tm.seconds < s ∨ l.tm.seconds > e
                  · rw [if_pos hx]; simp only [Bool.false_eq_true, false_iff]; omega
                  · rw [if_neg hx]; simp only [true_iff]; omega
            rw [key]
            constructor
            · rintro ⟨h1, h2⟩
              exact ⟨s, e, hs, he, hse, h1, h2⟩
            · rintro ⟨s', e', hs', he', _, h1, h2⟩
              have es : s' = s := (Option.some.inj ((g1 s').2 hs')).symm
              have ee : e' = e := (Option.some.inj ((g2 e').2 he')).symm
              subst es ee
              exact ⟨h1, h2⟩

/-- The offset in force at an instant. -/
theorem ruleToLocal_west {z : Zone} {off : Int} (hz : West z off) (t : Int) :
    ∃ y r b, InForce z.adjusts y r ∧ InYear y (t + off) ∧
      ruleToLocal z t = some { offset := if b then r.offsetDst else off, isdst := b, abbr := some (if b then z.abbrDst else z.abbr) } ∧
      (b = true ↔ ∃ s e, ChangeAt r.start y s ∧ ChangeAt r.fin y e ∧ s < e ∧ s ≤ t + off ∧ t + r.offsetDst < e) := by
  obtain ⟨tm0, h0, _⟩ := togm_correct t
  obtain ⟨vr, e1, e2, e3⟩ := getRule_spec z.adjusts hz.sorted tm0.year
  cases vr with
  | none => exact absurd (e2.1 rfl) hz.some
  | some r0 =>
    have hr0 := hz.offset r0 (e3 r0 rfl).1
    obtain ⟨tm1, h1, v1, s1, _⟩ := togm_correct (t + off)
    obtain ⟨r, b, hr, g, hb⟩ := getOffset_west hz { tm := tm1, isdst := 0, gmtoff := 0, abbr := none } v1
    have hro := hz.offset r hr.1
    dsimp only at hr hb
    simp only [show ¬ (0 : Int) = 1 by omega, if_false, s1, hro] at hb
    refine ⟨tm1.year, r, b, hr, by rw [← s1]; exact inYear_valid v1, ?_, ?_⟩
    · unfold ruleToLocal togmLocal
      rw [if_neg (fun h => hz.some (List.length_eq_zero_iff.1 h)), h0]
      dsimp only
      rw [e1]
      dsimp only
      rw [hr0, h1]
      dsimp only
      rw [g, hro]
    · rw [hb]
      constructor
      · rintro ⟨s, e, a1, a2, a3, a4, a5⟩
        exact ⟨s, e, a1, a2, a3, a4, by omega⟩
      · rintro ⟨s, e, a1, a2, a3, a4, a5⟩
        exact ⟨s, e, a1, a2, a3, a4, by omega⟩

end Verif.Tz
