import Verif.Pool.Live
/-! C38: the thread pool runs every dispatched task exactly once. -/
namespace Verif.Pool

/-- Task `x` waits in a call of the dispatch function. -/
def Pending (s : St) (x : Task) : Prop := ∃ a ∈ s.cs, 0 < todoC x a

/-- C38: no task is started twice, only dispatched tasks are started, and a dispatched task is at exactly one place: started, in the
queue, or in a dispatch call that waits for room. -/
theorem exactly_once {c : Cfg} {n k : Nat} {s : St} (h : Reach c n k s) :
    s.log.Nodup ∧ (∀ x ∈ s.log, x ∈ s.disp) ∧
    ∀ x ∈ s.disp, (x ∈ s.log ∧ x ∉ s.queue ∧ ¬ Pending s x) ∨ (x ∉ s.log ∧ x ∈ s.queue ∧ ¬ Pending s x) ∨
      (x ∉ s.log ∧ x ∉ s.queue ∧ Pending s x) := by
  have I := reach_invB h
  have hd : ∀ x, s.disp.count x ≤ 1 := fun x => List.nodup_iff_count.1 I.nodup x
  have hl : ∀ x, x ∈ s.log ↔ 0 < s.log.count x := fun x => List.count_pos_iff.symm
  have hq : ∀ x, x ∈ s.queue ↔ 0 < s.queue.count x := fun x => List.count_pos_iff.symm
  have hp : ∀ x, Pending s x ↔ 0 < tot (todoC x) s.cs := fun x => tot_pos.symm
  refine ⟨List.nodup_iff_count.2 fun x => ?_, fun x hx => ?_, fun x hx => ?_⟩
  · have := hd x; have := I.tasks x; omega
  · rw [hl] at hx
    exact List.count_pos_iff.1 (by have := I.tasks x; omega)
  · have h1 := List.count_pos_iff.2 hx
    have := hd x; have := I.tasks x
    rw [hl, hq, hp]
    omega

/-- C38: tasks are started in the order in which they were put into the queue. -/
theorem first_in_first_out {c : Cfg} {n k : Nat} {s : St} (h : Reach c n k s) : ∃ rest, s.insd = s.log ++ rest := ⟨_, (reach_invB h).insd⟩

/-- C38: a task is finished at most once, and only after it was started. -/
theorem finished_once {c : Cfg} {n k : Nat} {s : St} (h : Reach c n k s) : s.fin.Nodup ∧ ∀ x ∈ s.fin, x ∈ s.log := by
  have I := reach_invB h
  have hn := List.nodup_iff_count.1 (exactly_once h).1
  refine ⟨List.nodup_iff_count.2 fun x => ?_, fun x hx => ?_⟩
  · have := hn x; have := I.runs x; omega
  · have := List.count_pos_iff.2 hx
    have := I.runs x
    exact List.count_pos_iff.1 (by omega)

/-- C38: the queue never exceeds its maximum and the threads never exceed theirs. -/
theorem bounded {c : Cfg} (hc : c.minT ≤ c.maxT) {n k : Nat} {s : St} (h : Reach c n k s) :
    s.queue.length ≤ c.maxQ ∧ (s.ws.filter (· ≠ .dead)).length ≤ c.maxT ∧ s.numT = (s.ws.filter (· ≠ .dead)).length := by
  have I := reach_invA hc h
  have e : ∀ ws : List W, tot live ws = (ws.filter (· ≠ .dead)).length := by
    intro ws
    induction ws with
    | nil => rfl
    | cons x ws ih =>
      rw [tot_cons, List.filter_cons, ih]
      by_cases hx : x = .dead
      · subst hx; simp [live]
      · have : live x = 1 := by cases x <;> first | rfl | exact absurd rfl hx
        simp [hx, this]; omega
  have := I.live; have := I.maxT
  have := e s.ws
  exact ⟨I.maxQ, by omega, by omega⟩

/-- The settings made by `M_threadpool_create` satisfy the assumptions about them. -/
theorem mkCfg_ok (w minT maxT size : Nat) (idle : Option Nat) (hw : 16 ≤ w) (h : 0 < maxT) :
    (mkCfg w minT maxT idle size).minT ≤ (mkCfg w minT maxT idle size).maxT ∧ 0 < (mkCfg w minT maxT idle size).maxT ∧
    0 < (mkCfg w minT maxT idle size).maxQ := by
  unfold mkCfg queueSize
  dsimp only
  refine ⟨?_, ?_, ?_⟩
  · split <;> omega
  · split <;> omega
  · (repeat' split) <;> omega

/-- C38: `M_threadpool_parent_wait` returns only when all tasks dispatched for the parent are finished. -/
theorem wait_returns {c : Cfg} {n k : Nat} {s : St} (h : Reach c n k s) {i p : Nat} {pr : Parent}
    (hi : s.cs[i]? = some .idle ∨ s.cs[i]? = some (.wWoken p)) (hp : s.ps[p]? = some pr) (hr : (waitBody s i p pr).cs[i]? = some .idle) :
    ∀ x ∈ s.disp, x.parent = p → x ∈ s.fin := by
  have I := reach_invB h
  have hlen : i < s.cs.length := by
    apply Classical.byContradiction; intro hn
    rw [List.getElem?_eq_none (by omega)] at hi; rcases hi with hi | hi <;> cases hi
  have h0 : pr.remaining = 0 := by
    unfold waitBody at hr
    split at hr
    · assumption
    · rw [List.getElem?_set_self hlen] at hr; cases hr
  have hpar := I.par p pr hp
  intro x hx hxp
  have h1 := List.count_pos_iff.2 hx
  have h2 := I.tasks x
  have h3 := I.runs x
  have h4 : s.queue.count x = 0 := by
    apply Classical.byContradiction; intro hn
    have hm := List.count_pos_iff.1 (Nat.pos_of_ne_zero hn)
    have : 0 < s.queue.countP (·.parent = p) := List.countP_pos_iff.2 ⟨x, hm, by simpa using hxp⟩
    omega
  have h5 : tot (todoC x) s.cs = 0 := by
    rw [tot_zero]
    intro a ha
    have hz := tot_zero.1 (show tot (todoP p) s.cs = 0 by omega) a ha
    apply Classical.byContradiction; intro hn
    have key : ∀ ts : List Task, 0 < ts.count x → 0 < ts.countP (·.parent = p) := fun ts ht =>
      List.countP_pos_iff.2 ⟨x, List.count_pos_iff.1 ht, by simpa using hxp⟩
    cases a <;> simp only [todoC, todoP] at hn hz <;> first | exact hn trivial | (have := key _ (Nat.pos_of_ne_zero hn); omega)
  have h6 : tot (runW x) s.ws = 0 := by
    rw [tot_zero]
    intro a ha
    have hz := tot_zero.1 (show tot (runP p) s.ws = 0 by omega) a ha
    cases a <;> simp only [runW, runP] at hz ⊢ <;> (split <;> first | rfl | (rename_i e; rw [e, if_pos hxp] at hz; cases hz))
  exact List.count_pos_iff.1 (by omega)

/-- Every pool thread sleeps or has ended, and every user sleeps or is outside the calls. -/
def Quiet (s : St) : Prop :=
  (∀ x ∈ s.ws, (∃ b, x = .sleep b) ∨ x = .dead) ∧ ∀ a ∈ s.cs, a = .idle ∨ a = .dDone ∨ onI a = true ∨ ∃ p, a = .wSleep p

/-- C38, without idle time: when nothing moves any more, all dispatched tasks are finished and nobody waits.  Missing: pools whose
threads end after the idle time, for which it fails (`stranded_task`). -/
theorem all_finished_partial {c : Cfg} (hs : c.stays) (hc : c.minT ≤ c.maxT) (hm : 0 < c.maxT) (hqm : 0 < c.maxQ) {n k : Nat} {s : St}
    (h : Reach c n k s) (hu : s.up = true) (hq : Quiet s) : (∀ x ∈ s.disp, x ∈ s.fin) ∧ ∀ a ∈ s.cs, a = .idle ∨ a = .dDone := by
  have A := reach_invA hc h
  have I := reach_invB h
  have L := reach_live hs hc hm hqm h
  have hact : tot act s.ws = 0 := by
    rw [tot_zero]; intro x hx
    rcases hq.1 x hx with ⟨b, rfl⟩ | rfl <;> rfl
  have hz : ∀ (f : C → Nat), f .idle = 0 → f .dDone = 0 → (∀ a, onI a = true → f a = 0) → (∀ p, f (.wSleep p) = 0) → tot f s.cs = 0 := by
    intro f h1 h2 h3 h4
    rw [tot_zero]; intro a ha
    rcases hq.2 a ha with rfl | rfl | ho | ⟨p, rfl⟩
    · exact h1
    · exact h2
    · exact h3 a ho
    · exact h4 p
  have hWI : tot WI s.cs = 0 := hz WI rfl rfl (by intro a ha; cases a <;> first | rfl | cases ha) (by intro p; rfl)
  have hIT : tot IT s.cs = 0 := hz IT rfl rfl (by intro a ha; cases a <;> first | rfl | cases ha) (by intro p; rfl)
  have hSI : tot SI s.cs = 0 := by
    apply Classical.byContradiction; intro hn
    have := L.sleep hu (by omega)
    omega
  have hqe : s.queue = [] := by
    apply Classical.byContradiction; intro hn
    have := L.queue hu hn; omega
  have hnS : ∀ a ∈ s.cs, onI a = false := by
    intro a ha
    have h1 := tot_zero.1 hSI a ha
    have h2 : dS a = 0 := by
      apply Classical.byContradiction; intro hn
      have := (A.dsl (tot_pos.2 ⟨a, ha, by omega⟩)).1
      rw [hu] at this; cases this
    cases a <;> simp [onI, SI, dS] at h1 h2 ⊢
  have hcs : ∀ a ∈ s.cs, a = .idle ∨ a = .dDone ∨ ∃ p, a = .wSleep p := by
    intro a ha
    rcases hq.2 a ha with h1 | h1 | h1 | h1
    · exact Or.inl h1
    · exact Or.inr (Or.inl h1)
    · rw [hnS a ha] at h1; cases h1
    · exact Or.inr (Or.inr h1)
  have htodo : ∀ x, tot (todoC x) s.cs = 0 := by
    intro x; rw [tot_zero]; intro a ha
    rcases hcs a ha with rfl | rfl | ⟨p, rfl⟩ <;> rfl
  have htodoP : ∀ x, tot (todoP x) s.cs = 0 := by
    intro x; rw [tot_zero]; intro a ha
    rcases hcs a ha with rfl | rfl | ⟨p, rfl⟩ <;> rfl
  have hrun : ∀ x, tot (runW x) s.ws = 0 := by
    intro x; rw [tot_zero]; intro a ha
    rcases hq.1 a ha with ⟨b, rfl⟩ | rfl <;> rfl
  have hrunP : ∀ x, tot (runP x) s.ws = 0 := by
    intro x; rw [tot_zero]; intro a ha
    rcases hq.1 a ha with ⟨b, rfl⟩ | rfl <;> rfl
  constructor
  · intro x hx
    have h1 := List.count_pos_iff.2 hx
    have h2 := I.tasks x
    have h3 := I.runs x
    rw [hqe, htodo x] at h2
    rw [hrun x] at h3
    simp only [List.count_nil] at h2
    exact List.count_pos_iff.1 (by omega)
  · intro a ha
    rcases hcs a ha with h1 | h1 | ⟨p, rfl⟩
    · exact Or.inl h1
    · exact Or.inr h1
    · exfalso
      obtain ⟨pr, h2, _, h3⟩ := I.sleepP p (tot_pos.2 ⟨_, ha, by simp [wS]⟩)
      have h4 := I.par p pr h2
      rw [hqe, htodoP p, hrunP p] at h4
      simp at h4
      omega

/-- A pool with two threads and no idle time meets the assumptions. -/
example : (mkCfg 18446744073709551615 2 2 (some 1000) 0).stays ∧ (mkCfg 18446744073709551615 2 2 (some 1000) 0).maxQ = 16 := by
  constructor
  · right; decide
  · decide

/-- `M_threadpool_destroy` does not sleep for ever: when nothing moves, it does not wait. -/
theorem destroy_completes {c : Cfg} (hc : c.minT ≤ c.maxT) {n k : Nat} {s : St} (h : Reach c n k s) (hq : Quiet s) : .dSleep ∉ s.cs := by
  have A := reach_invA hc h
  intro hm
  obtain ⟨hu, hn⟩ := A.dsl (tot_pos.2 ⟨_, hm, by simp [dS]⟩)
  have hsl := (A.down hu).2
  have hl := A.live
  obtain ⟨x, hx, hxl⟩ := tot_pos.1 (show 0 < tot live s.ws by omega)
  have hs0 := tot_zero.1 hsl x hx
  rcases hq.1 x hx with ⟨b, rfl⟩ | rfl
  · cases hs0
  · cases hxl

/-- The threads of a pool of at most one thread, none of them kept when idle. -/
def cfg01 : Cfg := ⟨0, 1, 8, some 1000⟩

/-- C38 fails with idle time: a thread that ends after its idle time still counts as a thread when a task is dispatched, so none is
started for the task; the task stays in the queue with nobody to run it, and the parent waits for ever. -/
theorem stranded_task : ∃ s, Reach cfg01 1 1 s ∧ s.up = true ∧ Quiet s ∧ (∃ x ∈ s.disp, x ∉ s.log) ∧ .wSleep 0 ∈ s.cs := by
  -- a first task starts the thread, which runs it and goes to sleep
  have r0 : Reach cfg01 1 1 (init cfg01 1 1) := .init
  have r1 := r0.step (.dispatch (i := 0) (p := 0) (ts := [⟨0, 0⟩]) rfl rfl rfl (by simp) (by simp) (by decide))
  have r2 := r1.step (.insert (i := 0) (t := ⟨0, 0⟩) (todo := []) (woke := false) (ws' := [.fetch]) rfl (Or.inr ⟨by decide, rfl⟩))
  have r3 := r2.step (.fetch (i := 0) (cs' := [.idle]) rfl rfl)
  have r4 := r3.step (.finish (i := 0) (t := ⟨0, 0⟩) rfl)
  have r5 := r4.step (.notify (i := 0) (t := ⟨0, 0⟩) rfl rfl)
  have r6 := r5.step (.fetch (i := 0) (cs' := [.idle]) rfl rfl)
  -- the time limit expires, the thread decides to end
  have r7 := r6.step (.timeout (i := 0) rfl)
  have r8 := r7.step (.resume (i := 0) (tm := true) (cs' := [.idle]) rfl rfl)
  -- before it has counted itself out, a second task is dispatched
  have r9 := r8.step (.dispatch (i := 0) (p := 0) (ts := [⟨0, 1⟩]) rfl rfl rfl (by simp) (by simp) (by decide))
  have r10 := r9.step (.insert (i := 0) (t := ⟨0, 1⟩) (todo := []) (woke := false) (ws' := [.exiting]) rfl (Or.inr ⟨by decide, rfl⟩))
  have r11 := r10.step (.exit (i := 0) rfl)
  have r12 := r11.step (.wait (i := 0) (p := 0) rfl rfl)
  refine ⟨_, r12, rfl, ⟨?_, ?_⟩, ⟨⟨0, 1⟩, ?_, ?_⟩, ?_⟩
  · intro x hx
    have : x ∈ [W.dead] := hx
    simp at this
    exact Or.inr this
  · intro x hx
    have : x ∈ [C.wSleep 0] := hx
    simp at this
    exact Or.inr (Or.inr (Or.inr ⟨0, this⟩))
  · show (⟨0, 1⟩ : Task) ∈ [(⟨0, 0⟩ : Task), ⟨0, 1⟩]
    simp
  · show (⟨0, 1⟩ : Task) ∉ [(⟨0, 0⟩ : Task)]
    decide
  · show C.wSleep 0 ∈ [C.wSleep 0]
    simp

/-- The minimum number of threads is not kept with idle time: two threads that end at the same time both see one thread too many. -/
theorem below_minimum : ∃ s, Reach ⟨1, 2, 16, some 1000⟩ 1 1 s ∧ s.up = true ∧ s.numT = 0 := by
  have r0 : Reach ⟨1, 2, 16, some 1000⟩ 1 1 (init ⟨1, 2, 16, some 1000⟩ 1 1) := .init
  have r1 := r0.step (.dispatch (i := 0) (p := 0) (ts := [⟨0, 0⟩]) rfl rfl rfl (by simp) (by simp) (by decide))
  have r2 := r1.step (.insert (i := 0) (t := ⟨0, 0⟩) (todo := []) (woke := false) (ws' := [.fetch, .fetch]) rfl (Or.inr ⟨by decide, rfl⟩))
  have r3 := r2.step (.fetch (i := 0) (cs' := [.idle]) rfl rfl)
  have r4 := r3.step (.finish (i := 0) (t := ⟨0, 0⟩) rfl)
  have r5 := r4.step (.notify (i := 0) (t := ⟨0, 0⟩) rfl rfl)
  have r6 := r5.step (.fetch (i := 0) (cs' := [.idle]) rfl rfl)
  have r7 := r6.step (.fetch (i := 1) (cs' := [.idle]) rfl rfl)
  have r8 := r7.step (.timeout (i := 0) rfl)
  have r9 := r8.step (.timeout (i := 1) rfl)
  have r10 := r9.step (.resume (i := 0) (tm := true) (cs' := [.idle]) rfl rfl)
  have r11 := r10.step (.resume (i := 1) (tm := true) (cs' := [.idle]) rfl rfl)
  have r12 := r11.step (.exit (i := 0) rfl)
  have r13 := r12.step (.exit (i := 1) rfl)
  exact ⟨_, r13, rfl, rfl⟩

/-- The users in impossible places: without a task to queue or waiting for one of the parents that do not exist. -/
def emptyC (k : Nat) : C → Nat
  | .ins ts _ => if ts = [] then 1 else 0 | .inSleep ts => if ts = [] then 1 else 0 | .inWoken ts => if ts = [] then 1 else 0
  | .wSleep p => if p < k then 0 else 1 | .wWoken p => if p < k then 0 else 1 | _ => 0

theorem wake_emptyC (k : Nat) (x : C) : emptyC k (wakeI x) = emptyC k x := by cases x <;> rfl

theorem empty_set {k : Nat} {cs : List C} {i : Nat} {a b : C} (h : cs[i]? = some a) (h0 : tot (emptyC k) cs = 0) (hb : emptyC k b = 0) :
    tot (emptyC k) (cs.set i b) = 0 := by
  have := tot_set h b (emptyC k)
  omega

theorem lt_of_get {α : Type} {l : List α} {i : Nat} {a : α} (h : l[i]? = some a) : i < l.length := by
  apply Classical.byContradiction; intro hn
  rw [List.getElem?_eq_none (by omega)] at h; cases h

theorem fetchBody_same (c : Cfg) (s : St) (i : Nat) (tm : Bool) : (fetchBody c s i tm).1.cs = s.cs ∧ (fetchBody c s i tm).1.ps = s.ps := by
  rcases fetchBody_cases c s i tm with ⟨_, e⟩ | ⟨_, _, _, _, e⟩ | ⟨_, _, _, _, _, e⟩ | ⟨_, _, _, _, e⟩ <;> rw [e] <;> exact ⟨rfl, rfl⟩

theorem reach_empty {c : Cfg} {n k : Nat} {s : St} (h : Reach c n k s) : s.ps.length = k ∧ tot (emptyC k) s.cs = 0 := by
  induction h with
  | init => simp [init, tot_replicate, emptyC]
  | step r st ih =>
    rename_i s s'
    obtain ⟨hk, ih⟩ := ih
    cases st with
    | @fetch i cs' h hI =>
      have hI' : MaybeI (fetchBody c s i false).2 (fetchBody c s i false).1.cs cs' := hI
      have e := fetchBody_same c s i false
      refine ⟨by dsimp only; rw [e.2]; exact hk, ?_⟩
      dsimp only
      rw [maybeI_tot hI' (wake_emptyC k), e.1]
      exact ih
    | @resume i tm cs' h hI =>
      have hI' : MaybeI (fetchBody c { s with numIdle := s.numIdle - 1 } i tm).2 (fetchBody c { s with numIdle := s.numIdle - 1 } i tm).1.cs cs' := hI
      have e := fetchBody_same c { s with numIdle := s.numIdle - 1 } i tm
      refine ⟨by dsimp only; rw [e.2]; exact hk, ?_⟩
      dsimp only
      rw [maybeI_tot hI' (wake_emptyC k), e.1]
      exact ih
    | finish h => exact ⟨hk, ih⟩
    | @notify i t pr h _ =>
      unfold notify
      dsimp only
      refine ⟨by rw [List.length_set]; exact hk, ?_⟩
      split
      · rw [wakeP_other (f := emptyC k) t.parent (by intro q; rfl)]; exact ih
      · exact ih
    | exit h =>
      unfold exit
      refine ⟨hk, ?_⟩
      dsimp only
      split
      · rw [tot_map _ _ _ (wake_emptyC k)]; exact ih
      · exact ih
    | timeout h => exact ⟨hk, ih⟩
    | spuriousO h => exact ⟨hk, ih⟩
    | spuriousI h _ => exact ⟨hk, empty_set h ih (by rw [wake_emptyC]; exact tot_zero.1 ih _ (List.mem_of_getElem? h))⟩
    | spuriousP h => exact ⟨hk, empty_set h ih (by have := tot_zero.1 ih _ (List.mem_of_getElem? h); exact this)⟩
    | dispatch h _ _ hne _ _ => exact ⟨by dsimp only; rw [List.length_set]; exact hk, empty_set h ih (by simp [emptyC, hne])⟩
    | @insert i t todo woke ws' h hO =>
      have e : (spawn c s).cs = s.cs ∧ (spawn c s).ps = s.ps := by unfold spawn; split <;> exact ⟨rfl, rfl⟩
      constructor
      · dsimp only
        unfold insBody
        split <;> dsimp only <;> rw [e.2] <;> exact hk
      dsimp only
      unfold insBody
      split <;> dsimp only <;> rw [e.1]
      · refine empty_set h ih ?_
        split
        · rfl
        · rename_i hne; simp [emptyC, hne]
      · exact empty_set h ih (by simp [emptyC])
    | @insertResume i todo h => exact ⟨hk, empty_set h ih (by have := tot_zero.1 ih _ (List.mem_of_getElem? h); exact this)⟩
    | avail h _ => unfold availBody; split <;> exact ⟨hk, empty_set h ih rfl⟩
    | @availResume i cs' h hI =>
      have hI' : MaybeI (decide (s.waiters - 1 ≠ 0)) s.cs cs' := by
        unfold MaybeI
        simpa only [decide_eq_true_eq] using hI
      have e := maybeI_tot hI' (wake_emptyC k)
      unfold availBody
      split <;> exact ⟨hk, empty_set (availResume_cs hI' h) (by dsimp only; rw [e]; exact ih) rfl⟩
    | wait h hp =>
      have := lt_of_get hp
      unfold waitBody
      split <;> exact ⟨by dsimp only; rw [List.length_set]; exact hk, empty_set h ih (by simp [emptyC]; try omega)⟩
    | waitResume h hp =>
      have := lt_of_get hp
      unfold waitBody
      split <;> exact ⟨by dsimp only; rw [List.length_set]; exact hk, empty_set h ih (by simp [emptyC]; try omega)⟩
    | destroy h _ _ => unfold destroyBody; split <;> exact ⟨hk, empty_set h ih rfl⟩
    | destroyResume h => unfold destroyBody; split <;> exact ⟨hk, empty_set h ih rfl⟩

theorem get_set_ne {α : Type} {l : List α} {i : Nat} {a b : α} (h : l[i]? = some a) (hne : b ≠ a) : (l.set i b)[i]? ≠ l[i]? := by
  have hlen : i < l.length := by
    apply Classical.byContradiction; intro hn
    rw [List.getElem?_eq_none (by omega)] at h; cases h
  rw [List.getElem?_set_self hlen, h]
  intro e
  cases e
  exact hne rfl

/-- A thread that neither sleeps nor has ended can go on: in a state that is not quiet something moves. -/
theorem pool_thread_moves {c : Cfg} {n k : Nat} {s : St} (h : Reach c n k s) {i : Nat} {a : W} (ha : s.ws[i]? = some a)
    (hn : ∀ b, a ≠ .sleep b) (hd : a ≠ .dead) : ∃ s', Step c s s' ∧ s'.ws[i]? ≠ s.ws[i]? := by
  have I := reach_invB h
  cases a with
  | sleep b => exact absurd rfl (hn b)
  | dead => exact absurd rfl hd
  | fetch =>
    have hcs : ∃ cs', MaybeI (fetchBody c s i false).2 (fetchBody c s i false).1.cs cs' := by
      unfold MaybeI
      split
      · exact signalI_exists _
      · exact ⟨_, rfl⟩
    obtain ⟨cs', hI⟩ := hcs
    refine ⟨_, .fetch ha hI, ?_⟩
    dsimp only
    rcases fetchBody_cases c s i false with ⟨_, e⟩ | ⟨_, q, _, _, e⟩ | ⟨_, _, _, _, _, e⟩ | ⟨_, _, b, _, e⟩ <;> rw [e] <;>
      exact get_set_ne ha (by simp)
  | woken tm =>
    have hcs : ∃ cs', MaybeI (fetchBody c { s with numIdle := s.numIdle - 1 } i tm).2 (fetchBody c { s with numIdle := s.numIdle - 1 } i tm).1.cs cs' := by
      unfold MaybeI
      split
      · exact signalI_exists _
      · exact ⟨_, rfl⟩
    obtain ⟨cs', hI⟩ := hcs
    refine ⟨_, .resume ha hI, ?_⟩
    dsimp only
    rcases fetchBody_cases c { s with numIdle := s.numIdle - 1 } i tm with ⟨_, e⟩ | ⟨_, q, _, _, e⟩ | ⟨_, _, _, _, _, e⟩ | ⟨_, _, b, _, e⟩ <;> rw [e] <;>
      exact get_set_ne ha (by simp)
  | run t => exact ⟨_, .finish ha, get_set_ne ha (by simp)⟩
  | done t =>
    have hv := I.valid t (runW_log I ha (by simp [runW]))
    refine ⟨_, .notify ha (List.getElem?_eq_getElem hv), ?_⟩
    exact get_set_ne ha (by simp)
  | exiting => exact ⟨_, .exit ha, get_set_ne ha (by simp)⟩

/-- A user in a call who does not sleep can go on. -/
theorem user_moves {c : Cfg} {n k : Nat} {s : St} (h : Reach c n k s) {i : Nat} {a : C} (ha : s.cs[i]? = some a)
    (hn : ¬ (a = .idle ∨ a = .dDone ∨ onI a = true ∨ ∃ p, a = .wSleep p)) :
    ∃ s', Step c s s' ∧ s'.cs[i]? ≠ s.cs[i]? := by
  have h1 : (∃ t todo w, a = .ins (t :: todo) w) ∨ (∃ ts, a = .inWoken ts) ∨ a = .avWoken ∨ a = .dWoken ∨ ∃ p, a = .wWoken p ∧ p < s.ps.length := by
    obtain ⟨hk, he⟩ := reach_empty h
    have he := tot_zero.1 he a (List.mem_of_getElem? ha)
    cases a with
    | ins ts w =>
      cases ts with
      | nil => simp [emptyC] at he
      | cons t todo => exact Or.inl ⟨t, todo, w, rfl⟩
    | inWoken ts => exact Or.inr (Or.inl ⟨ts, rfl⟩)
    | avWoken => exact Or.inr (Or.inr (Or.inl rfl))
    | dWoken => exact Or.inr (Or.inr (Or.inr (Or.inl rfl)))
    | wWoken p =>
      simp [emptyC] at he
      exact Or.inr (Or.inr (Or.inr (Or.inr ⟨p, rfl, by omega⟩)))
    | idle => exact absurd (Or.inl rfl) hn
    | dDone => exact absurd (Or.inr (Or.inl rfl)) hn
    | wSleep p => exact absurd (Or.inr (Or.inr (Or.inr ⟨p, rfl⟩))) hn
    | inSleep ts => exact absurd (Or.inr (Or.inr (Or.inl rfl))) hn
    | avSleep => exact absurd (Or.inr (Or.inr (Or.inl rfl))) hn
    | dSleep => exact absurd (Or.inr (Or.inr (Or.inl rfl))) hn
  rcases h1 with ⟨t, todo, w, rfl⟩ | ⟨ts, rfl⟩ | rfl | rfl | ⟨p, rfl, hp⟩
  · have hws : ∃ ws', MaybeO (insBody c (spawn c s) i t todo w).2 (insBody c (spawn c s) i t todo w).1.ws ws' := by
      unfold MaybeO
      split
      · exact signalO_exists _
      · exact ⟨_, rfl⟩
    obtain ⟨ws', hO⟩ := hws
    refine ⟨_, .insert ha hO, ?_⟩
    dsimp only
    have e : (spawn c s).cs = s.cs := by unfold spawn; split <;> rfl
    unfold insBody
    split <;> dsimp only <;> rw [e]
    · refine get_set_ne ha ?_
      split
      · simp
      · intro e2; injection e2 with e3 e4
        have := congrArg List.length e3
        simp at this
    · exact get_set_ne ha (by simp)
  · exact ⟨_, .insertResume ha, get_set_ne ha (by simp)⟩
  · have hcs : ∃ cs', MaybeI (decide (s.waiters - 1 ≠ 0)) s.cs cs' := by
      unfold MaybeI
      split
      · exact signalI_exists _
      · exact ⟨_, rfl⟩
    obtain ⟨cs', hI⟩ := hcs
    have h' := availResume_cs hI ha
    refine ⟨_, .availResume ha (by unfold MaybeI at hI; simpa only [decide_eq_true_eq] using hI), ?_⟩
    rw [ha, ← h']
    unfold availBody
    split <;> exact get_set_ne h' (by simp)
  · refine ⟨_, .destroyResume ha, ?_⟩
    unfold destroyBody
    split <;> exact get_set_ne ha (by simp)
  · refine ⟨_, .waitResume ha (List.getElem?_eq_getElem hp), ?_⟩
    unfold waitBody
    split <;> exact get_set_ne ha (by simp)

/-- Two tasks in a pool of one thread: the first runs, the second is queued. -/
example : ∃ s, Reach ⟨1, 1, 8, none⟩ 1 1 s ∧ s.log = [⟨0, 0⟩] ∧ s.queue = [⟨0, 1⟩] ∧ s.ws = [.run ⟨0, 0⟩] := by
  have r0 : Reach ⟨1, 1, 8, none⟩ 1 1 (init ⟨1, 1, 8, none⟩ 1 1) := .init
  have r1 := r0.step (.dispatch (i := 0) (p := 0) (ts := [⟨0, 0⟩, ⟨0, 1⟩]) rfl rfl rfl (by simp) (by simp) (by decide))
  have r2 := r1.step (.insert (i := 0) (t := ⟨0, 0⟩) (todo := [⟨0, 1⟩]) (woke := false) (ws' := [.fetch]) rfl (Or.inr ⟨by decide, rfl⟩))
  have r3 := r2.step (.insert (i := 0) (t := ⟨0, 1⟩) (todo := []) (woke := true) (ws' := [.fetch]) rfl (Or.inr ⟨by decide, rfl⟩))
  have r4 := r3.step (.fetch (i := 0) (cs' := [.idle]) rfl rfl)
  exact ⟨_, r4, rfl, rfl, rfl⟩

end Verif.Pool
