import Verif.Timer.Inv
/-! C44: event timers. -/
namespace Verif.Timer

theorem FireOk.of {l1 l2 : List Ev} {i time due : Nat} (h : FireOk (l1 ++ .fire i time due :: l2)) :
    running l2 i = true ∧ ms due ≤ ms time ∧ ∀ d, armed l2 i = some d → due = d := by
  induction l1 with
  | nil => exact h.1
  | cons e l1 ih => cases e <;> first | exact ih h.2 | exact ih h

/-- A timer fires only if it has been started and has neither been stopped nor removed since. -/
theorem fires_only_running {now : Nat} {s : St} (h : Reach now s) (l1 l2 : List Ev) (i time due : Nat) (hl : s.log = l1 ++ .fire i time due :: l2) :
    running l2 i = true := by
  have := (reach_inv h).fires
  rw [hl] at this
  exact this.of.1

/-- A timer that has been started outside its own callback fires, the first time, less than a millisecond before the delay asked for is
over or later.  Missing: never before the delay is over (`fires_early`), and starts in the own callback (`own_start_forgets`). -/
theorem not_early_partial {now : Nat} {s : St} (h : Reach now s) (l1 l2 : List Ev) (i time due d : Nat) (hl : s.log = l1 ++ .fire i time due :: l2)
    (ha : armed l2 i = some d) : d < time + 1000 := by
  have := (reach_inv h).fires
  rw [hl] at this
  obtain ⟨_, h2, h3⟩ := this.of
  have := h3 d ha
  subst this
  unfold ms at h2
  omega

/-- A timer with a count fires at most that often after the last call that starts it or sets the count. -/
theorem fire_count {now : Nat} {s : St} (h : Reach now s) (i : Nat) (hc : cntOf s.log i ≠ 0) : since s.log i ≤ cntOf s.log i := (reach_inv h).glob i hc

/-- A timer that fires is due no later, in milliseconds, than every other timer that is started. -/
theorem earliest_first {now : Nat} {s s' : St} (h : Reach now s) (st : Step s s') (i time due : Nat) (hl : s'.log = .fire i time due :: s.log) (j : Nat) (u : T)
    (hj : (j, u) ∈ s.q) (hu : u.started = true) : ms due ≤ ms u.next := by
  have I := reach_inv h
  have hlen : ∀ e, s.log ≠ e :: s.log := fun e he => by have := congrArg List.length he; simp at this
  cases st with
  | @fire x q curr last wall hp he hq hd hx =>
    simp only [List.cons.injEq, and_true, Ev.fire.injEq] at hl
    obtain ⟨rfl, rfl, rfl⟩ := hl
    unfold dueFirst at hd
    simp only [ne_eq, decide_eq_true_eq] at hd
    rw [hq] at hj
    rcases List.mem_cons.1 hj with rfl | hj
    · exact Nat.le_refl _
    · have hs := I.sorted
      rw [hq] at hs
      have := (List.pairwise_cons.1 hs).1 _ hj
      unfold cmp diff at this
      rw [hd.2.1, hu] at this
      simp only [Bool.true_eq_false, and_self, and_true, and_false, if_false] at this
      split at this
      · omega
      · split at this <;> omega
  | _ => first | exact absurd hl (hlen _) | simp at hl

/-- A pass ends only when no started timer is due, in milliseconds, or the first in the queue is the one that has fired last. -/
theorem pass_complete {now : Nat} {s : St} {curr : Nat} {last : Option Nat} (h : Reach now s)
    (hl : ∀ x q, s.q = x :: q → dueFirst curr last x = false) :
    (∀ j u, (j, u) ∈ s.q → u.started = true → ms curr < ms u.next) ∨ ∃ x q, s.q = x :: q ∧ last = some x.1 := by
  have I := reach_inv h
  cases hq : s.q with
  | nil => exact Or.inl (by simp)
  | cons x q =>
    by_cases hlast : last = some x.1
    · exact Or.inr ⟨x, q, rfl, hlast⟩
    · refine Or.inl ?_
      have hx := hl x q hq
      unfold dueFirst at hx
      simp only [ne_eq, decide_eq_false_iff_not] at hx
      have hs := I.sorted
      rw [hq] at hs
      have hfirst : ∀ u : T, u.started = true → (∃ j, (j, u) ∈ q) → x.2.started = true ∧ ms x.2.next ≤ ms u.next := by
        rintro u hu ⟨j, hj⟩
        have hc := (List.pairwise_cons.1 hs).1 _ hj
        unfold cmp diff at hc
        rw [hu] at hc
        cases hxs : x.2.started with
        | false => rw [hxs] at hc; simp at hc
        | true =>
          rw [hxs] at hc
          simp only [Bool.true_eq_false, and_self, and_true, and_false, if_false] at hc
          refine ⟨rfl, ?_⟩
          split at hc
          · omega
          · split at hc <;> omega
      have hdue : x.2.started = true → ms curr < ms x.2.next := by
        intro h1
        apply Classical.byContradiction
        intro h2
        exact hx ⟨hlast, h1, by unfold diff; omega⟩
      intro j u hj hu
      rcases List.mem_cons.1 hj with e | hj
      · subst e; exact hdue hu
      · obtain ⟨h1, h2⟩ := hfirst u hu ⟨j, hj⟩
        have := hdue h1
        omega

theorem Ins.single (x : Nat × T) : Ins x [] [x] := ⟨[], [], rfl, rfl, by simp, by simp⟩

/-- A timer started for one millisecond. -/
def one (now : Nat) : St :=
  ⟨[(7, { fresh with interval := 1, next := now + 1000, started := true })], none, none, [], now, [7], [.start 7 true now 1 false]⟩

theorem started (now : Nat) : Reach now (one now) := by
  have h1 : Reach now { init now with q := [(7, fresh)], used := [7] } := .step .init (.add (i := 7) (by simp [init]) (Ins.single _))
  have h2 := h1.step (.start (i := 7) (t := fresh) 1 0 (by simp) (by decide) (Ins.single _))
  simpa [start, schedule, fresh, delayOf, init, one] using h2

/-- A timer started for a millisecond can fire half a millisecond after the start. -/
theorem fires_early : ∃ s, Reach 500 s ∧ s.log = [.fire 7 1000 1500, .start 7 true 500 1 false] ∧ armed [.start 7 true 500 1 false] 7 = some 1500 := by
  have h2 := (started 500).step (.tick 1000 (by decide))
  have h3 := h2.step (.enter rfl)
  have h4 := h3.step (.fire (x := (7, { fresh with interval := 1, next := 1500, started := true })) (q := []) 0 rfl rfl rfl (by decide) (by decide))
  exact ⟨_, h4, rfl, rfl⟩

/-- Calling `M_event_timer_start` on a started timer with an interval that it refuses makes the timer fire at once. -/
theorem refused_start_fires : ∃ s, Reach 500000 s ∧ s.log = [.fire 7 500000 0, .start 7 false 500000 0 false, .start 7 true 500000 1 false] := by
  have h2 := (started 500000).step (.start (i := 7) (t := { fresh with interval := 1, next := 501000, started := true }) 0 0 (by simp [one]) (by decide) (Ins.single _))
  have h3 := h2.step (.enter rfl)
  have h4 := h3.step (.fire (x := (7, { fresh with interval := 0, next := 0, started := true })) (q := []) 0 rfl rfl (by rfl) (by decide) (by decide))
  exact ⟨_, h4, rfl⟩

/-- A start time that is set and used in the own callback is forgotten: the timer asked to fire in 9 seconds fires after 2 milliseconds. -/
theorem own_start_forgets : ∃ s, Reach 0 s ∧ ∃ l, s.log = .fire 7 4000 4000 :: .start 7 true 2000 9000 true :: l := by
  have h2 := ((started 0).step (.tick 2000 (by decide))).step (.enter rfl)
  have h4 := h2.step (.fire (x := (7, { fresh with interval := 1, next := 1000, started := true })) (q := []) 0 rfl rfl rfl (by decide) (by decide))
  have h5 := h4.step (.setExec 9000000 0 false true rfl)
  have h6 := h5.step (.startExec 2 0 rfl (by decide))
  have h7 := h6.step (.retKeep (t' := { fresh with interval := 2, next := 4000, started := true, last := 2000 }) 0 rfl rfl (by decide) (Ins.single _))
  have h8 := ((h7.step (.leave rfl rfl (by rintro x q ⟨rfl, rfl⟩; decide))).step (.tick 4000 (by decide))).step (.enter rfl)
  have h9 := h8.step (.fire (x := (7, { fresh with interval := 2, next := 4000, started := true, last := 2000 })) (q := []) 0 rfl rfl rfl (by decide) (by decide))
  exact ⟨_, h9, _, rfl⟩

/-- A timer with count 1 fires once. -/
example : ∃ s, Reach 0 s ∧ s.log = [.fire 7 1000 1000, .setCnt 7 1, .start 7 true 0 1 false] ∧ s.exec = none ∧ cntOf s.log 7 = 1 ∧ since s.log 7 = 1 ∧
    s.q = [(7, { fresh with interval := 1, next := 1000, last := 1000, fireCnt := 1, cnt := 1 })] := by
  have h2 := (started 0).step (.setCnt (l1 := []) (l2 := []) 1 rfl)
  have h3 := (h2.step (.tick 1000 (by decide))).step (.enter rfl)
  have h4 := h3.step (.fire (x := (7, { fresh with interval := 1, next := 1000, started := true, fireCnt := 1 })) (q := []) 0 rfl rfl rfl (by decide) (by decide))
  have h5 := h4.step (.retKeep (t' := { fresh with interval := 1, next := 1000, last := 1000, fireCnt := 1, cnt := 1 }) 0 rfl rfl (by decide) (Ins.single _))
  exact ⟨_, h5, rfl, rfl, rfl, rfl, rfl⟩

end Verif.Timer
