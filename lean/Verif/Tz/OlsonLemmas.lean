import Verif.Tz.Lemmas
/-! Zones given by transitions: specification and helper lemmas. -/
namespace Verif.Tz
open Verif.Time

namespace Spec

/-- No two transitions at the same time, the latest first. -/
def SortedT (ts : List Transition) : Prop := ts.Pairwise (fun a b => b.start < a.start)

/-- The transition in force at `t` is the last one that has taken place. -/
def Current (ts : List Transition) (t : Int) (x : Transition) : Prop :=
  x ∈ ts ∧ x.start ≤ t ∧ ∀ x' ∈ ts, x'.start ≤ t → x'.start ≤ x.start

/-- Before all transitions: the first one to standard time, and the first of all if there is none. -/
def Initial (ts : List Transition) (t : Int) (x : Transition) : Prop :=
  (∀ x' ∈ ts, t < x'.start) ∧ x ∈ ts ∧
    ((x.isdst = false ∧ ∀ x' ∈ ts, x'.isdst = false → x.start ≤ x'.start) ∨
     ((∀ x' ∈ ts, x'.isdst = true) ∧ ∀ x' ∈ ts, x.start ≤ x'.start))

/-- Tables for which converting back works: transitions are more than two days apart, offsets are within a day, the first
transition is to standard time, and the clock is only put back at a change between DST and standard time. -/
structure Table (ts : List Transition) : Prop where
  some : ts ≠ []
  apart : ts.Pairwise (fun a b => b.start + 172800 < a.start)
  offset : ∀ x ∈ ts, -86400 ≤ x.offset ∧ x.offset ≤ 86400
  first : ∀ x ∈ ts, (∀ x' ∈ ts, x.start ≤ x'.start) → x.isdst = false
  back : ∀ i (h : i + 1 < ts.length), ts[i].offset < ts[i + 1].offset → ts[i].isdst ≠ ts[i + 1].isdst

end Spec
open Spec (SortedT Current Initial Table)

theorem sortedT_strict {ts : List Transition} (h : SortedT ts) : ts.Pairwise (fun a b => transCmp a b < 0) := by
  refine h.imp ?_
  intro a b hab
  unfold transCmp
  rw [if_neg (by omega), if_pos (by omega)]
  omega

theorem firstStd_spec (ts : List Transition) : ∀ (n : Nat) (last : Option Transition), n ≤ ts.length →
    (∃ i, ∃ h : i < ts.length, i < n ∧ firstStd ts n last = some ts[i] ∧ ts[i].isdst = false ∧
      ∀ j (hj : j < ts.length), i < j → j < n → ts[j].isdst = true) ∨
    ((∀ j (hj : j < ts.length), j < n → ts[j].isdst = true) ∧ firstStd ts n last = if n = 0 then last else ts[0]?) := by
  intro n
  induction n with
  | zero => intro last _; exact Or.inr ⟨fun j _ h => absurd h (by omega), by simp [firstStd]⟩
  | succ n ih =>
    intro last hn
    have hl : n < ts.length := by omega
    unfold firstStd
    rw [List.getElem?_eq_getElem hl]
    dsimp only
    by_cases hd : ts[n].isdst = false
    · rw [if_pos hd]
      exact Or.inl ⟨n, hl, by omega, rfl, hd, fun j _ h1 h2 => absurd h1 (by omega)⟩
    · rw [if_neg hd]
      have hd' : ts[n].isdst = true := by cases h : ts[n].isdst with | true => rfl | false => exact absurd h hd
      rcases ih (some ts[n]) (by omega) with ⟨i, h, h1, h2, h3, h4⟩ | ⟨h1, h2⟩
      · refine Or.inl ⟨i, h, by omega, h2, h3, fun j hj hij hjn => ?_⟩
        by_cases e : j = n
        · subst e; exact hd'
        · exact h4 j hj hij (by omega)
      · refine Or.inr ⟨fun j hj hjn => ?_, ?_⟩
        · by_cases e : j = n
          · subst e; exact hd'
          · exact h1 j hj (by omega)
        · rw [h2]
          by_cases e : n = 0
          · subst e; simp [List.getElem?_eq_getElem hl]
          · simp [e]

/-- What the table lookup finds.  The exception is the very instant of the first transition. -/
theorem getTransition_spec (ts : List Transition) (h : SortedT ts) (t : Int) :
    ∃ v, getTransition ts t = some v ∧ (v = none ↔ ts = []) ∧
      ∀ x, v = some x → Current ts t x ∨ Initial ts t x ∨
        ∃ y, Current ts t y ∧ y.start = t ∧ (∀ x' ∈ ts, y.start ≤ x'.start) ∧ y.isdst = true := by
  obtain ⟨idx, e, hle, h1, h2, h3⟩ := insertIdx_strict transCmp_lawful ts (sortedT_strict h) (startKey t)
  have hk : ∀ x, transCmp (startKey t) x = if t = x.start then 0 else if t > x.start then -1 else 1 := fun x => rfl
  have hget : ∀ i j (hi : i < ts.length) (hj : j < ts.length), i < j → ts[j].start < ts[i].start :=
    fun i j hi hj hij => List.pairwise_iff_getElem.1 h i j hi hj hij
  unfold getTransition
  rw [e]
  dsimp only
  by_cases hi : idx < ts.length
  · rw [List.getElem?_eq_getElem hi]
    refine ⟨_, rfl, ?_, ?_⟩
    · constructor
      · intro hh; cases hh
      · intro hh; rw [hh] at hi; exact absurd hi (by simp)
    · intro x hx
      cases hx
      refine Or.inl ⟨List.getElem_mem hi, ?_, ?_⟩
      · have := h2 idx hi (Nat.le_refl _)
        rw [hk] at this
        split at this
        · omega
        · split at this <;> omega
      · intro x' hx' hy
        obtain ⟨i, hi', rfl⟩ := List.getElem_of_mem hx'
        rcases Nat.lt_trichotomy i idx with hlt | rfl | hgt
        · have := h3 hi i hi' hlt
          rw [hk] at this
          split at this
          · omega
          · split at this <;> omega
        · omega
        · have := hget idx i hi hi' hgt
          omega
  · have hlen : idx = ts.length := by omega
    have hge : ∀ x' ∈ ts, t ≤ x'.start := by
      intro x' hx'
      obtain ⟨i, hi', rfl⟩ := List.getElem_of_mem hx'
      have := h1 i hi' (by omega)
      rw [hk] at this
      split at this
      · omega
      · split at this <;> omega
    rw [List.getElem?_eq_none (by omega)]
    dsimp only
    rw [if_pos hlen]
    by_cases hn : ts.length = 0
    · have : ts = [] := List.length_eq_zero_iff.1 hn
      subst this
      exact ⟨none, rfl, by simp, by simp⟩
    have hl : ts.length - 1 < ts.length := by omega
    have hne : ts ≠ [] := fun hh => hn (by simp [hh])
    have hmin : ∀ x' ∈ ts, ts[ts.length - 1].start ≤ x'.start := by
      intro x' hx'
      obtain ⟨i, hi', rfl⟩ := List.getElem_of_mem hx'
      by_cases hij : i = ts.length - 1
      · subst hij; omega
      · have := hget i (ts.length - 1) hi' hl (by omega)
        omega
    -- the result, and that it is the right one before all transitions
    have hres : ∃ x, (match firstStd ts ts.length none with
        | some t => if t.isdst = true then some ts[ts.length - 1]? else some (some t)
        | none => some ts[ts.length - 1]?) = some (some x) ∧ x ∈ ts ∧
        ((x.isdst = false ∧ ∀ x' ∈ ts, x'.isdst = false → x.start ≤ x'.start) ∨
         ((∀ x' ∈ ts, x'.isdst = true) ∧ ∀ x' ∈ ts, x.start ≤ x'.start)) := by
      rcases firstStd_spec ts ts.length none (Nat.le_refl _) with ⟨i, hi', _, e1, hs, hd⟩ | ⟨hd, e1⟩
      · rw [e1]
        dsimp only
        rw [if_neg (by rw [hs]; simp)]
        refine ⟨ts[i], rfl, List.getElem_mem hi', Or.inl ⟨hs, ?_⟩⟩
        intro x' hx' hx0
        obtain ⟨j, hj, rfl⟩ := List.getElem_of_mem hx'
        rcases Nat.lt_trichotomy i j with hlt | rfl | hgt
        · have := hd j hj hlt hj; rw [hx0] at this; cases this
        · omega
        · have := hget j i hj hi' hgt; omega
      · rw [e1, if_neg hn]
        have h0 : 0 < ts.length := by omega
        rw [List.getElem?_eq_getElem h0]
        dsimp only
        rw [if_pos (hd 0 h0 h0), List.getElem?_eq_getElem hl]
        refine ⟨_, rfl, List.getElem_mem hl, Or.inr ⟨?_, hmin⟩⟩
        intro x' hx'
        obtain ⟨j, hj, rfl⟩ := List.getElem_of_mem hx'
        exact hd j hj hj
    obtain ⟨x, ex, hx, hx1⟩ := hres
    refine ⟨some x, ex, by simp [hne], ?_⟩
    intro x0 hx0
    cases hx0
    by_cases heq : ts[ts.length - 1].start = t
    · have hcur : Current ts t ts[ts.length - 1] :=
        ⟨List.getElem_mem hl, by omega, fun x' hx' hle' => by have := hge x' hx'; omega⟩
      by_cases hd : ts[ts.length - 1].isdst = true
      · exact Or.inr (Or.inr ⟨_, hcur, heq, hmin, hd⟩)
      · have hd' : ts[ts.length - 1].isdst = false := by
          cases hh : ts[ts.length - 1].isdst with | false => rfl | true => exact absurd hh hd
        have : x.start = ts[ts.length - 1].start := by
          have a := hmin x hx
          rcases hx1 with ⟨_, h4⟩ | ⟨h4, _⟩
          · have := h4 _ (List.getElem_mem hl) hd'; omega
          · have := h4 _ (List.getElem_mem hl); rw [hd'] at this; cases this
        left
        exact ⟨hx, by omega, fun x' hx' hle' => by have := hge x' hx'; omega⟩
    · refine Or.inr (Or.inl ⟨fun x' hx' => ?_, hx, hx1⟩)
      have := hge _ (List.getElem_mem hl)
      have := hmin x' hx'
      omega

end Verif.Tz
