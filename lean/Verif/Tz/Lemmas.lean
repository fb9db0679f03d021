import Verif.Tz.Spec
import Verif.Time.Props
import Verif.Sort.Props
/-! Helper lemmas for local time. -/
namespace Verif.Tz
open Verif.Time

variable {α : Type _} {cmp : α → α → Int}

/-- Where a key goes in a list without equal elements: an equal element is before it only if it is the last one. -/
theorem insertIdx_strict (hc : LawfulCmp cmp) (a : List α) (hs : a.Pairwise (fun a b => cmp a b < 0)) (key : α) :
    ∃ idx, Sort.insertIdx cmp a key false = some idx ∧ idx ≤ a.length ∧
      (∀ i (h : i < a.length), i < idx → 0 ≤ cmp key a[i]) ∧ (∀ i (h : i < a.length), idx ≤ i → cmp key a[i] ≤ 0) ∧
      (idx < a.length → ∀ i (h : i < a.length), i < idx → 0 < cmp key a[i]) := by
  have ha : a.Pairwise (fun a b => cmp a b ≤ 0) := hs.imp (fun h => by omega)
  have hget : ∀ i j (hj : j < a.length) (hij : i < j), cmp (a[i]'(by omega)) a[j] < 0 :=
    fun i j hj hij => List.pairwise_iff_getElem.1 hs i j (by omega) hj hij
  unfold Sort.insertIdx Sort.binaryIdx
  by_cases hn : a.length = 0
  · have : a = [] := List.length_eq_zero_iff.1 hn
    subst this
    exact ⟨0, by simp, by simp, by simp, by simp, by simp⟩
  have hinit : Sort.HInv cmp a key 0 ((a.length : Int) - 1) :=
    ⟨by omega, by omega, fun i _ h => absurd h (by omega), fun i hi h => absurd hi (by omega)⟩
  obtain ⟨l, r, m, e, hh, hI, hcase⟩ := Sort.halve_spec hc a key ha 0 ((a.length : Int) - 1) 0 1 hinit
    (Or.inl (by omega))
  have hlast : a.length - 1 < a.length := by omega
  have hfirst : 0 < a.length := by omega
  have hl : l ≤ a.length := by have := hI.l_le; have := hI.r_lt; omega
  simp only [hn, if_false, hh]
  simp only [Bool.false_eq_true, if_false, List.getElem?_eq_getElem hlast,
    List.getElem?_eq_getElem hfirst]
  by_cases h1 : 0 ≤ cmp key (a[a.length - 1])
  · have hlow : ∀ i (h : i < a.length), i < a.length → 0 ≤ cmp key a[i] := fun i hi _ =>
      (hc.swap _ _).1 (hc.trans _ _ _ (Sort.sorted_get hc ha hlast (show i ≤ a.length - 1 by omega)) ((hc.swap _ _).2 h1))
    by_cases h2 : cmp key (a[a.length - 1]) = 0
    · simp only [h2]
      exact ⟨a.length, by simp, Nat.le_refl _, hlow, fun i hi hil => absurd hi (by omega), fun h => absurd h (by omega)⟩
    · simp only [h2, show cmp key (a[a.length - 1]) > 0 by omega]
      exact ⟨a.length, by simp, Nat.le_refl _, hlow, fun i hi hil => absurd hi (by omega), fun h => absurd h (by omega)⟩
  simp only [show ¬ cmp key (a[a.length - 1]) = 0 by omega,
    show ¬ cmp key (a[a.length - 1]) > 0 by omega, if_false]
  by_cases h3 : cmp key a[0] ≤ 0
  · simp only [h3]
    exact ⟨0, by simp, Nat.zero_le _, fun i hi hil => absurd hil (by omega),
      fun i hi _ => hc.trans _ _ _ h3 (Sort.sorted_get hc ha hi (Nat.zero_le i)), fun _ i hi hil => absurd hil (by omega)⟩
  simp only [h3, if_false]
  have hat : (l : Int) = r + 1 → (∀ i (h : i < a.length), i < l → 0 ≤ cmp key a[i]) ∧
      (∀ i (h : i < a.length), l ≤ i → cmp key a[i] ≤ 0) ∧
      (l < a.length → ∀ i (h : i < a.length), i < l → 0 < cmp key a[i]) := by
    intro hlr
    exact ⟨fun i hi hil => by have := hI.below i hi hil; omega, fun i hi hil => by have := hI.above i hi (by omega); omega,
      fun _ i hi hil => hI.below i hi hil⟩
  rcases hcase with ⟨he, _, _, hm, hm0⟩ | ⟨h1', h | h⟩
  · have hlow : ∀ i (h : i < a.length), i < m → 0 < cmp key a[i] := by
      intro i hi him
      refine (hc.lt_swap _ _).1 (hc.lt_of_lt_of_le (hget i m hm him) ?_)
      rw [(hc.eq_swap _ _).1 hm0]; omega
    refine ⟨m, by simp [he], by omega, fun i hi him => by have := hlow i hi him; omega, fun i hi him => ?_, fun _ => hlow⟩
    exact hc.trans _ _ _ (by rw [hm0]; omega) (Sort.sorted_get hc ha hi him)
  · exact ⟨l, by simp [show ¬ e > 0 by omega, h.2], hl, hat h1'⟩
  · exact ⟨l, by simp [show e > 0 by omega, h.2], hl, hat h1'⟩

theorem ruleCmp_lawful : LawfulCmp ruleCmp := by
  constructor
  · intro a b; unfold ruleCmp; repeat' split
    all_goals omega
  · intro a b c; unfold ruleCmp; repeat' split
    all_goals omega

theorem transCmp_lawful : LawfulCmp transCmp := by
  constructor
  · intro a b; unfold transCmp; repeat' split
    all_goals omega
  · intro a b c; unfold transCmp; repeat' split
    all_goals omega

/-! ### The rule of a year -/
open Spec (Sorted InForce NthDay NthLastDay ChangeAt InYear Dst Counted West)
open Time.Spec (ValidDate monthLen dayNum yearStart monthsBefore)

theorem sorted_strict {rules : List Rule} (h : Sorted rules) : rules.Pairwise (fun a b => ruleCmp a b < 0) := by
  refine h.imp ?_
  intro a b hab
  unfold ruleCmp
  rw [if_neg (by omega), if_pos (by omega)]
  omega

theorem getRule_spec (rules : List Rule) (h : Sorted rules) (year : Int) :
    ∃ v, getRule rules year = some v ∧ (v = none ↔ rules = []) ∧ ∀ r, v = some r → InForce rules year r := by
  obtain ⟨idx, e, hle, h1, h2, h3⟩ := insertIdx_strict ruleCmp_lawful rules (sorted_strict h) (yearKey year)
  unfold getRule
  rw [e]
  dsimp only
  have hk : ∀ r, ruleCmp (yearKey year) r = if year = r.year then 0 else if year > r.year then -1 else 1 := fun r => rfl
  have hget : ∀ i j (hi : i < rules.length) (hj : j < rules.length), i < j → rules[j].year < rules[i].year :=
    fun i j hi hj hij => List.pairwise_iff_getElem.1 h i j hi hj hij
  by_cases hn : rules.length = 0
  · have : rules = [] := List.length_eq_zero_iff.1 hn
    rw [if_pos (by omega), if_pos hn]
    exact ⟨none, rfl, by simp [this], by simp⟩
  have hne : rules ≠ [] := fun h => hn (by simp [h])
  by_cases hi : idx = rules.length
  · rw [if_pos hi, if_neg hn]
    have hl : idx - 1 < rules.length := by omega
    rw [List.getElem?_eq_getElem hl]
    refine ⟨_, rfl, by simp [hne], ?_⟩
    intro r hr
    cases hr
    refine ⟨List.getElem_mem hl, ?_⟩
    have hg : ∀ r' ∈ rules, year ≤ r'.year := by
      intro r' hr'
      obtain ⟨i, hi', rfl⟩ := List.getElem_of_mem hr'
      have := h1 i hi' (by omega)
      rw [hk] at this
      split at this
      · omega
      · split at this <;> omega
    have hmin : ∀ r' ∈ rules, (rules[idx - 1]).year ≤ r'.year := by
      intro r' hr'
      obtain ⟨i, hi', rfl⟩ := List.getElem_of_mem hr'
      by_cases hij : i = idx - 1
      · subst hij; omega
      · have := hget i (idx - 1) hi' hl (by omega)
        omega
    by_cases heq : (rules[idx - 1]).year = year
    · left
      exact ⟨by omega, fun r' hr' hle' => by have := hg r' hr'; omega⟩
    · right
      refine ⟨fun r' hr' => ?_, hmin⟩
      have a1 := hmin r' hr'
      have a2 := hg _ (List.getElem_mem hl)
      omega
  · rw [if_neg hi]
    have hl : idx < rules.length := by omega
    rw [List.getElem?_eq_getElem hl]
    refine ⟨_, rfl, by simp [hne], ?_⟩
    intro r hr
    cases hr
    refine ⟨List.getElem_mem hl, Or.inl ⟨?_, ?_⟩⟩
    · have := h2 idx hl (Nat.le_refl _)
      rw [hk] at this
      split at this
      · omega
      · split at this <;> omega
    · intro r' hr' hy
      obtain ⟨i, hi', rfl⟩ := List.getElem_of_mem hr'
      rcases Nat.lt_trichotomy i idx with hlt | rfl | hgt
      · have := h3 hl i hi' hlt
        rw [hk] at this
        split at this
        · omega
        · split at this <;> omega
      · omega
      · have := hget idx i hl hi' hgt
        omega

theorem inForce_unique {rules : List Rule} (h : Sorted rules) {y : Int} {r r' : Rule} (a : InForce rules y r)
    (b : InForce rules y r') : r = r' := by
  have hyear : r.year = r'.year := by
    obtain ⟨ma, a⟩ := a
    obtain ⟨mb, b⟩ := b
    rcases a with ⟨a1, a2⟩ | ⟨a1, a2⟩ <;> rcases b with ⟨b1, b2⟩ | ⟨b1, b2⟩
    · have := a2 r' mb b1; have := b2 r ma a1; omega
    · have := b1 r ma; omega
    · have := a1 r' mb; omega
    · have := a2 r' mb; have := b2 r ma; omega
  obtain ⟨i, hi, ei⟩ := List.getElem_of_mem a.1
  obtain ⟨j, hj, ej⟩ := List.getElem_of_mem b.1
  have hg : ∀ i j (hi : i < rules.length) (hj : j < rules.length), i < j → rules[j].year < rules[i].year :=
    fun i j hi hj hij => List.pairwise_iff_getElem.1 h i j hi hj hij
  rcases Nat.lt_trichotomy i j with hlt | rfl | hgt
  · have := hg i j hi hj hlt; rw [ei, ej] at this; omega
  · rw [← ei, ← ej]
  · have := hg j i hj hi hgt; rw [ei, ej] at this; omega

/-! ### The time of a change -/

theorem dayNum_day (y m d : Int) : dayNum y m d = dayNum y m 1 + (d - 1) := by unfold dayNum; omega

theorem dayNum_month_lt {y m d m' d' : Int} (h : ValidDate y m d) (h' : ValidDate y m' d') (hm : m < m') :
    dayNum y m d < dayNum y m' d' := by
  obtain ⟨a1, a2, a3, a4⟩ := h
  obtain ⟨b1, b2, b3, b4⟩ := h'
  have := monthsBefore_step y (show (m - 1).toNat < (m' - 1).toNat by omega)
  rw [monthsBefore, show ((m - 1).toNat : Int) + 1 = m by omega] at this
  unfold dayNum
  omega

theorem changeToTime_spec (c : Change) (hc : Counted c) (y : Int) :
    ∃ v, changeToTime c y = some v ∧ ∀ x, v = some x ↔ ChangeAt c y x := by
  obtain ⟨ho, hm, hw, hh, hmi, hs⟩ := hc
  have hml : 28 ≤ monthLen y c.month := by
    have := mdays_range (isLeap y) (c.month - 1)
    rw [mdays_eq, Int.sub_add_cancel] at this
    omega
  have v1 : Valid { year := y, month := c.month, day := 1, hour := c.hour, min := c.min, sec := c.sec,
                    wday := 0, yday := 0, year2 := 0 } :=
    ⟨⟨hm.1, hm.2, Int.le_refl _, by show 1 ≤ monthLen y c.month; omega⟩, hh.1, hh.2, hmi.1, hmi.2, hs.1, hs.2⟩
  obtain ⟨_, a, ea, a1, a2, a3, a4, a5, a6⟩ := togm_fromgm _ v1
  have hwd : a.wday = (dayNum y c.month 1 + 4) % 7 := by
    obtain ⟨_, e2⟩ := fromgm_value _ (Or.inr (valid_small v1))
    rw [valid_carried v1] at e2
    obtain ⟨a', h', _, _, hw', _⟩ := togm_correct (Tm.seconds ⟨c.month, 1, c.hour, c.min, c.sec, y, 0, 0, 0⟩)
    rw [e2, h'] at ea
    cases ea
    rw [hw']
    unfold Tm.seconds Time.Spec.seconds
    dsimp only
    congr 2
    omega
  dsimp only at a1 a2 a3 a4 a5 a6
  unfold changeToTime
  rw [if_neg (by omega), if_neg (by omega)]
  simp only [show c.occur > 0 from ho, if_true]
  rw [ea]
  dsimp only
  rw [a2, hwd]
  generalize hday : ((if 1 - (dayNum y c.month 1 + 4) % 7 + c.wday < 1 then 1 - (dayNum y c.month 1 + 4) % 7 + c.wday + 7
    else 1 - (dayNum y c.month 1 + 4) % 7 + c.wday) + 7 * (c.occur - 1)) = day
  have hday1 : (dayNum y c.month day + 4) % 7 = c.wday ∧ 7 * (c.occur - 1) < day ∧ day ≤ 7 * c.occur := by
    rw [dayNum_day]
    split at hday <;> omega
  have huniq : ∀ d, (dayNum y c.month d + 4) % 7 = c.wday → 7 * (c.occur - 1) < d → d ≤ 7 * c.occur → d = day := by
    intro d hd h1 h2
    rw [dayNum_day] at hd
    have h3 := hday1.1
    rw [dayNum_day] at h3
    omega
  by_cases hv : ValidDate y c.month day
  · rw [if_neg (by rw [(isValidDay_iff _ _ _).2 hv]; simp)]
    have v2 : ∀ w, Valid ⟨c.month, day, c.hour, c.min, c.sec, y, w, a.yday, a.year2⟩ := fun w =>
      ⟨hv, hh.1, hh.2, hmi.1, hmi.2, hs.1, hs.2⟩
    refine ⟨_, rfl, fun x => ?_⟩
    rw [a1, a4, a5, a6, (togm_fromgm _ (v2 _)).1]
    unfold Tm.seconds
    dsimp only
    constructor
    · intro e
      cases e
      exact ⟨day, Or.inl ⟨ho, hv, hday1⟩, rfl⟩
    · rintro ⟨d, ⟨_, hd⟩ | ⟨h0, _⟩, rfl⟩
      · rw [huniq d hd.2.1 hd.2.2.1 hd.2.2.2]
      · omega
  · have hv' : isValidDay y c.month day = false := by
      cases hh : isValidDay y c.month day with
      | false => rfl
      | true => exact absurd ((isValidDay_iff _ _ _).1 hh) hv
    rw [if_pos hv']
    refine ⟨_, rfl, fun x => ⟨by simp, ?_⟩⟩
    rintro ⟨d, ⟨_, hd⟩ | ⟨h0, _⟩, _⟩
    · rw [huniq d hd.2.1 hd.2.2.1 hd.2.2.2] at hd
      exact absurd hd.1 hv
    · omega

theorem change_lt {c c' : Change} (h : Counted c) (h' : Counted c') (hm : c.month < c'.month) {y s e : Int}
    (hs : ChangeAt c y s) (he : ChangeAt c' y e) : s < e := by
  obtain ⟨d, hd, rfl⟩ := hs
  obtain ⟨d', hd', rfl⟩ := he
  have v : ValidDate y c.month d := by rcases hd with ⟨_, hd⟩ | ⟨_, hd⟩ <;> exact hd.1
  have v' : ValidDate y c'.month d' := by rcases hd' with ⟨_, hd⟩ | ⟨_, hd⟩ <;> exact hd.1
  have := dayNum_month_lt v v' hm
  have := h.hour; have := h.min; have := h.sec
  have := h'.hour; have := h'.min; have := h'.sec
  unfold Time.Spec.seconds
  omega

end Verif.Tz
