import Verif.Tz.OlsonLemmas
/-! C96: local time in zones given by a table of transitions. -/
namespace Verif.Tz
open Verif.Time
open Spec (SortedT Current Initial Table)

/-- **C96, to local time (partial).**  The local time of every instant is the date and time at the offset of the last transition
that has taken place; before all transitions, of the first one to standard time.  Missing: the very instant of the first
transition if that one is to DST, see `first_instant_fails`. -/
theorem olson_tolocal_partial (ts : List Transition) (h : SortedT ts) (hne : ts ≠ []) (t : Int)
    (hx : ∀ y ∈ ts, (∀ x' ∈ ts, y.start ≤ x'.start) → y.isdst = true → y.start ≠ t) :
    ∃ l x, tolocal (.olson ts) t = some l ∧ (Current ts t x ∨ Initial ts t x) ∧
      l.gmtoff = x.offset ∧ (l.isdst = 1 ↔ x.isdst = true) ∧ (l.isdst = 0 ↔ x.isdst = false) ∧ l.abbr = some x.abbr ∧
      Valid l.tm ∧ l.tm.seconds = t + x.offset ∧ l.tm.wday = ((t + x.offset) / 86400 + 4) % 7 := by
  obtain ⟨v, e, h1, h2⟩ := getTransition_spec ts h t
  cases v with
  | none => exact absurd (h1.1 rfl) hne
  | some x =>
    obtain ⟨tm, h3, v1, s1, w1, _⟩ := togm_correct (t + x.offset)
    have hr : tolocal (.olson ts) t = some ⟨tm, if x.isdst then 1 else 0, x.offset, some x.abbr⟩ := by
      unfold tolocal AnyZone.adjustTo olsonToLocal togmLocal
      dsimp only
      rw [e]
      dsimp only
      rw [h3]
    refine ⟨_, x, hr, ?_, rfl, ?_, ?_, rfl, v1, s1, w1⟩
    · rcases h2 x rfl with a | a | ⟨y, hy, hy1, hy2, hy3⟩
      · exact Or.inl a
      · exact Or.inr a
      · exact absurd hy1 (hx y hy.1 hy2 hy3)
    · dsimp only
      cases x.isdst <;> simp
    · dsimp only
      cases x.isdst <;> simp

/-- Two years of New York, as in a TZif file. -/
def nyTable : List Transition :=
  [⟨1636264800, -18000, false, "EST"⟩, ⟨1615705200, -14400, true, "EDT"⟩, ⟨1604210400, -18000, false, "EST"⟩,
   ⟨1583650800, -14400, true, "EDT"⟩, ⟨-2717650800, -18000, false, "EST"⟩]

theorem nyTable_table : Table nyTable where
  some := by decide
  apart := by decide
  offset := by decide
  first := by decide
  back := by
    intro i hi
    have : i = 0 ∨ i = 1 ∨ i = 2 ∨ i = 3 := by simp only [nyTable, List.length_cons, List.length_nil] at hi; omega
    rcases this with rfl | rfl | rfl | rfl <;> (revert hi; decide)

example : SortedT nyTable ∧ nyTable ≠ [] ∧ (∀ y ∈ nyTable, (∀ x' ∈ nyTable, y.start ≤ x'.start) → y.isdst = true → y.start ≠ 1636264799) ∧
    (tolocal (.olson nyTable) 1636264799).map (fun l => (l.tm.day, l.tm.hour, l.isdst)) = some (7, 1, 1) ∧
    (tolocal (.olson nyTable) 1636264800).map (fun l => (l.tm.day, l.tm.hour, l.isdst)) = some (7, 1, 0) :=
  ⟨by unfold SortedT; decide, by decide, by decide, by decide +kernel, by decide +kernel⟩

/-- The lookup in a table, by position. -/
theorem lookup_table {ts : List Transition} (ht : Table ts) (t : Int) :
    ∃ i, ∃ h : i < ts.length, getTransition ts t = some (some ts[i]) ∧ (ts[i].start ≤ t ∨ i = ts.length - 1) ∧
      ∀ j (hj : j < ts.length), j < i → t < ts[j].start := by
  have hs : SortedT ts := ht.apart.imp (fun h => by omega)
  have hget : ∀ i j (hi : i < ts.length) (hj : j < ts.length), i < j → ts[j].start < ts[i].start :=
    fun i j hi hj hij => List.pairwise_iff_getElem.1 hs i j hi hj hij
  obtain ⟨v, e, h1, h2⟩ := getTransition_spec ts hs t
  cases v with
  | none => exact absurd (h1.1 rfl) ht.some
  | some x =>
    rcases h2 x rfl with ⟨hx, hx1, hx2⟩ | ⟨hx1, hx, hx2⟩ | ⟨y, hy, _, hy2, hy3⟩
    · obtain ⟨i, hi, rfl⟩ := List.getElem_of_mem hx
      refine ⟨i, hi, e, Or.inl hx1, fun j hj hji => ?_⟩
      have := hget j i hj hi hji
      have := hx2 ts[j] (List.getElem_mem hj)
      omega
    · obtain ⟨i, hi, rfl⟩ := List.getElem_of_mem hx
      refine ⟨i, hi, e, Or.inr ?_, fun j hj _ => hx1 _ (List.getElem_mem hj)⟩
      have hl : ts.length - 1 < ts.length := by omega
      have hmin : ∀ x' ∈ ts, ts[ts.length - 1].start ≤ x'.start := by
        intro x' hx'
        obtain ⟨j, hj, rfl⟩ := List.getElem_of_mem hx'
        by_cases hij : j = ts.length - 1
        · subst hij; omega
        · have := hget j (ts.length - 1) hj hl (by omega)
          omega
      have hstd := ht.first _ (List.getElem_mem hl) hmin
      have hle : ts[i].start ≤ ts[ts.length - 1].start := by
        rcases hx2 with ⟨_, h4⟩ | ⟨_, h4⟩
        · exact h4 _ (List.getElem_mem hl) hstd
        · exact h4 _ (List.getElem_mem hl)
      by_cases hil : i = ts.length - 1
      · exact hil
      · have := hget i (ts.length - 1) hi hl (by omega)
        omega
    · have := ht.first y hy.1 hy2
      rw [hy3] at this
      cases this

/-- **C96, round trip (partial).**  Converting an instant to local time and back gives the instant and leaves the local time as it
was, also in the hour that occurs twice, for every table whose transitions are more than two days apart, whose offsets are within a
day, that begins with standard time, and in which the clock is put back only at a change between DST and standard time.  Missing:
other tables, see `same_kind_fails` and `first_instant_fails`. -/
theorem olson_roundtrip_partial (ts : List Transition) (ht : Table ts) (t : Int) :
    ∃ l, tolocal (.olson ts) t = some l ∧ fromlocal (.olson ts) l = some (t, l) := by
  obtain ⟨i, hi, e, hi1, hi2⟩ := lookup_table ht t
  obtain ⟨tm, h3, v1, s1, w1, _⟩ := togm_correct (t + ts[i].offset)
  have hr : tolocal (.olson ts) t = some ⟨tm, if ts[i].isdst then 1 else 0, ts[i].offset, some ts[i].abbr⟩ := by
    unfold tolocal AnyZone.adjustTo olsonToLocal togmLocal
    dsimp only
    rw [e]
    dsimp only
    rw [h3]
  refine ⟨_, hr, ?_⟩
  have hfg := fromgm_togm _ _ h3
  have hap : ∀ a b (ha : a < ts.length) (hb : b < ts.length), a < b → ts[b].start + 172800 < ts[a].start :=
    fun a b ha hb hab => List.pairwise_iff_getElem.1 ht.apart a b ha hb hab
  have hoi := ht.offset _ (List.getElem_mem hi)
  obtain ⟨k, hk, ek, hk1, hk2⟩ := lookup_table ht (t + ts[i].offset - 86400)
  obtain ⟨n, hn, en, hn1, hn2⟩ := lookup_table ht (t + ts[i].offset + 86400)
  have hik : i ≤ k := by
    apply Nat.le_of_not_lt
    intro hlt
    have := hi2 k hk hlt
    rcases hk1 with h | h <;> omega
  have hni : n ≤ i := by
    apply Nat.le_of_not_lt
    intro hlt
    have := hn2 i hi hlt
    rcases hi1 with h | h <;> omega
  have hkn : k ≤ n + 1 := by
    apply Nat.le_of_not_lt
    intro hlt
    have h1 := hk2 (n + 1) (by omega) (by omega)
    have h2 := hap n (n + 1) hn (by omega) (by omega)
    rcases hn1 with h | h <;> omega
  have hfl : olsonFromLocal ts { tm := tm, isdst := if ts[i].isdst then 1 else 0, gmtoff := 0, abbr := none } = some (ts[i].offset * -1) := by
    unfold olsonFromLocal oneDay
    dsimp only
    rw [hfg]
    dsimp only
    rw [ek, en]
    dsimp only
    by_cases heq : k = n
    · have hi' : i = n := by omega
      subst heq
      subst hi'
      rw [if_pos rfl]
    · have hk' : k = n + 1 := by omega
      subst hk'
      have hstart := hap n (n + 1) hn hk (by omega)
      rw [if_neg (fun h => by rw [h] at hstart; omega)]
      have hnx : ts[n].start ≤ t + ts[i].offset + 86400 := by rcases hn1 with h | h <;> omega
      by_cases hin : i = n
      · -- the later one
        subst hin
        have hit : ts[i].start ≤ t := by rcases hi1 with h | h <;> omega
        have hop := ht.offset _ (List.getElem_mem hk)
        rw [if_neg (fun h => h.2 (by omega)), if_neg (fun h => h.2 (by omega)), if_neg (fun h => h.1 (by omega))]
        cases hp : ts[i + 1].isdst <;> cases hc : ts[i].isdst <;> simp
      · have hin' : i = n + 1 := by omega
        subst hin'
        have hit : ts[n + 1].start ≤ t := by
          rcases hi1 with h | h
          · exact h
          · apply Classical.byContradiction
            intro hlt
            omega
        have hlt := hi2 n hn (by omega)
        rw [if_neg (fun h => h.1 (by omega))]
        by_cases hval : t + ts[n + 1].offset - ts[n].offset ≥ ts[n].start
        · rw [if_neg (fun h => h.2 hval), if_neg (fun h => h.1 (by omega))]
          have hb := ht.back n hk (by omega)
          cases hp : ts[n + 1].isdst <;> cases hc : ts[n].isdst <;> rw [hp, hc] at hb <;> simp at hb ⊢
        · rw [if_pos ⟨by omega, hval⟩]
  have hb : fromlocalTz (.olson ts) ⟨tm, if ts[i].isdst then 1 else 0, ts[i].offset, some ts[i].abbr⟩ = some t := by
    unfold fromlocalTz AnyZone.adjustFrom
    dsimp only
    rw [hfg]
    dsimp only
    rw [hfl]
    dsimp only
    congr 1
    omega
  unfold fromlocal
  rw [hb]
  dsimp only
  rw [hr]

/-- 01:30 occurs twice on November 7th 2021 in New York. -/
example : Table nyTable ∧
    ((tolocal (.olson nyTable) 1636263000).bind (fromlocal (.olson nyTable))).map (·.1) = some 1636263000 ∧
    ((tolocal (.olson nyTable) 1636266600).bind (fromlocal (.olson nyTable))).map (·.1) = some 1636266600 :=
  ⟨nyTable_table, by decide +kernel, by decide +kernel⟩

/-- Moscow, October 26th 2014: standard time was put back by an hour. -/
def moscow : List Transition := [⟨1414274400, 10800, false, "MSK"⟩, ⟨1301180400, 14400, false, "MSK"⟩]

/-- **C96 (the code disagrees).**  If the clock is put back without a change between DST and standard time, instants in the hour before
come back an hour late. -/
theorem same_kind_fails :
    ((tolocal (.olson moscow) 1414272600).bind (fromlocal (.olson moscow))).map (·.1) = some 1414276200 := by decide +kernel

/-- A table beginning with DST. -/
def dstFirst : List Transition := [⟨1636264800, -18000, false, "EST"⟩, ⟨1615705200, -14400, true, "EDT"⟩]

/-- **C96 (the code disagrees).**  If the first transition is to DST, it takes effect one second late: at its very instant standard time
is shown. -/
theorem first_instant_fails : Current dstFirst 1615705200 ⟨1615705200, -14400, true, "EDT"⟩ ∧
    (tolocal (.olson dstFirst) 1615705200).map (fun l => (l.gmtoff, l.isdst)) = some (-18000, 0) ∧
    (tolocal (.olson dstFirst) 1615705201).map (fun l => (l.gmtoff, l.isdst)) = some (-14400, 1) :=
  ⟨⟨by decide, by decide, by decide⟩, by decide +kernel, by decide +kernel⟩

/-- **C96 (the code disagrees).**  With such a table the round trip fails before the first transition: a local time that neither the
standard time found for it nor the first transition claims is taken for UTC. -/
theorem before_first_fails :
    (tolocal (.olson dstFirst) 1615705199).map (fun l => (l.tm.hour, l.tm.min, l.gmtoff)) = some (1, 59, -18000) ∧
    ((tolocal (.olson dstFirst) 1615705199).bind (fromlocal (.olson dstFirst))).map (·.1) = some 1615687199 :=
  ⟨by decide +kernel, by decide +kernel⟩

end Verif.Tz
