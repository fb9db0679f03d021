import Verif.Pool.Inv
/-! Where the dispatched tasks are, and what the parents know about them. -/
namespace Verif.Pool

/-- The invariant about the tasks and the parents. -/
structure InvB (s : St) : Prop where
  nodup : s.disp.Nodup
  tasks : ∀ x, s.disp.count x = s.log.count x + s.queue.count x + tot (todoC x) s.cs
  runs : ∀ x, s.log.count x = s.fin.count x + tot (runW x) s.ws
  insd : s.insd = s.log ++ s.queue
  par : ∀ (p : Nat) (pr : Parent), s.ps[p]? = some pr → pr.remaining = s.queue.countP (·.parent = p) + tot (todoP p) s.cs + tot (runP p) s.ws
  valid : ∀ x ∈ s.disp, x.parent < s.ps.length
  sleepP : ∀ p, 0 < tot (wS p) s.cs → ∃ pr, s.ps[p]? = some pr ∧ pr.isWaiting = true ∧ pr.remaining > 0

theorem init_invB (c : Cfg) (n k : Nat) : InvB (init c n k) := by
  constructor <;> simp [init, tot_replicate, todoC, runW, todoP, runP, wS, List.getElem?_replicate]

theorem runW_log {s : St} (I : InvB s) {i : Nat} {a : W} {t : Task} (h : s.ws[i]? = some a) (ha : 0 < runW t a) : t ∈ s.disp := by
  have h1 : 0 < tot (runW t) s.ws := tot_pos.2 ⟨a, List.mem_of_getElem? h, ha⟩
  have h2 := I.runs t
  have h3 := I.tasks t
  exact List.count_pos_iff.1 (by omega)

theorem fetch_invB {c : Cfg} {s : St} {i : Nat} {a : W} {tm : Bool} {cs' : List C} (h : s.ws[i]? = some a) (ha : a = .fetch ∨ ∃ b, a = .woken b)
    (I : InvB s) (hI : MaybeI (fetchBody c s i tm).2 (fetchBody c s i tm).1.cs cs') : InvB { (fetchBody c s i tm).1 with cs := cs' } := by
  obtain ⟨nodup, tasks, runs, insd, par, valid, sleepP⟩ := I
  have hr : ∀ x, runW x a = 0 := by rcases ha with rfl | ⟨b, rfl⟩ <;> intro x <;> rfl
  have hp : ∀ x, runP x a = 0 := by rcases ha with rfl | ⟨b, rfl⟩ <;> intro x <;> rfl
  rcases fetchBody_cases c s i tm with ⟨hu, e⟩ | ⟨hu, q, rest, hq, e⟩ | ⟨hu, hq, hn, hx, b, e⟩ | ⟨hu, hq, b, hb, e⟩
  all_goals
    rw [e] at hI ⊢
    have t1 := fun x => maybeI_tot hI (wake_todoC x)
    have t2 := fun x => maybeI_tot hI (wake_todoP x)
    have t3 := fun x => maybeI_tot hI (wake_wS x)
    simp only at t1 t2 t3
    clear hI
  · refine ⟨nodup, fun x => ?_, fun x => ?_, insd, fun p pr hpr => ?_, valid, fun p h0 => ?_⟩ <;> dsimp only at *
    · have := tasks x; have := t1 x; omega
    · have w := tot_set h .exiting (runW x)
      rw [hr x] at w; have := runs x; simp only [runW] at w; omega
    · have w := tot_set h .exiting (runP p)
      rw [hp p] at w; have := t2 p; have := par p pr hpr; simp only [runP] at w; omega
    · exact sleepP p (by have := t3 p; omega)
  · refine ⟨nodup, fun x => ?_, fun x => ?_, ?_, fun p pr hpr => ?_, valid, fun p h0 => ?_⟩ <;> dsimp only at *
    · have h2 := tasks x; have := t1 x
      rw [hq, List.count_cons] at h2
      simp only [List.count_append, List.count_cons, List.count_nil]
      omega
    · have w := tot_set h (.run q) (runW x)
      rw [hr x] at w; have := runs x; simp only [runW] at w
      simp only [List.count_append, List.count_cons, List.count_nil, beq_iff_eq]
      omega
    · rw [insd, hq]; simp
    · have w := tot_set h (.run q) (runP p)
      rw [hp p] at w; have := t2 p; have h1 := par p pr hpr; simp only [runP] at w
      rw [hq, List.countP_cons] at h1
      simp only [decide_eq_true_eq] at h1
      omega
    · exact sleepP p (by have := t3 p; omega)
  · refine ⟨nodup, fun x => ?_, fun x => ?_, insd, fun p pr hpr => ?_, valid, fun p h0 => ?_⟩ <;> dsimp only at *
    · have := tasks x; have := t1 x; omega
    · have w := tot_set h .exiting (runW x)
      rw [hr x] at w; have := runs x; simp only [runW] at w; omega
    · have w := tot_set h .exiting (runP p)
      rw [hp p] at w; have := t2 p; have := par p pr hpr; simp only [runP] at w; omega
    · exact sleepP p (by have := t3 p; omega)
  · refine ⟨nodup, fun x => ?_, fun x => ?_, insd, fun p pr hpr => ?_, valid, fun p h0 => ?_⟩ <;> dsimp only at *
    · have := tasks x; have := t1 x; omega
    · have w := tot_set h (.sleep b) (runW x)
      rw [hr x] at w; have := runs x; simp only [runW] at w; omega
    · have w := tot_set h (.sleep b) (runP p)
      rw [hp p] at w; have := t2 p; have := par p pr hpr; simp only [runP] at w; omega
    · exact sleepP p (by have := t3 p; omega)

theorem ws_invB {s : St} {ws' : List W} {n : Int} (I : InvB s) (h1 : ∀ x, tot (runW x) ws' = tot (runW x) s.ws)
    (h2 : ∀ x, tot (runP x) ws' = tot (runP x) s.ws) : InvB { s with ws := ws', numT := n } :=
  ⟨I.nodup, I.tasks, fun x => by have := I.runs x; have := h1 x; dsimp only; omega, I.insd,
    fun p pr hpr => by have := I.par p pr hpr; have := h2 p; dsimp only; omega, I.valid, I.sleepP⟩

theorem cs_invB {s : St} {cs' : List C} {n : Int} (I : InvB s) (h1 : ∀ x, tot (todoC x) cs' = tot (todoC x) s.cs)
    (h2 : ∀ x, tot (todoP x) cs' = tot (todoP x) s.cs) (h3 : ∀ p, tot (wS p) cs' ≤ tot (wS p) s.cs) : InvB { s with cs := cs', waiters := n } :=
  ⟨I.nodup, fun x => by have := I.tasks x; have := h1 x; dsimp only; omega, I.runs, I.insd,
    fun p pr hpr => by have := I.par p pr hpr; have := h2 p; dsimp only; omega, I.valid,
    fun p h0 => I.sleepP p (by have := h3 p; dsimp only at h0; omega)⟩

theorem notify_invB {s : St} {i : Nat} {t : Task} {pr : Parent} (h : s.ws[i]? = some (.done t)) (hpr : s.ps[t.parent]? = some pr) (I : InvB s) :
    InvB (notify s i t pr) := by
  obtain ⟨nodup, tasks, runs, insd, par, valid, sleepP⟩ := I
  have hlen : t.parent < s.ps.length := by
    apply Classical.byContradiction; intro hn
    rw [List.getElem?_eq_none (by omega)] at hpr; cases hpr
  unfold notify
  refine ⟨nodup, fun x => ?_, fun x => ?_, insd, fun p pr' hpr' => ?_, ?_, fun p h0 => ?_⟩ <;> dsimp only at *
  · have e := wakeP_other (f := todoC x) t.parent (by intro q; rfl) s.cs
    have := tasks x
    split <;> omega
  · have w := tot_set h .fetch (runW x)
    have := runs x
    simp only [List.count_append, List.count_cons, List.count_nil, beq_iff_eq]
    simp only [runW] at w
    omega
  · have w := tot_set h .fetch (runP p)
    simp only [runP] at w
    have e : tot (todoP p) (if pr.isWaiting = true ∧ pr.remaining - 1 = 0 then List.map (wakeP t.parent) s.cs else s.cs) = tot (todoP p) s.cs := by
      split
      · exact wakeP_other (f := todoP p) t.parent (by intro q; rfl) s.cs
      · rfl
    rw [e]
    by_cases hp : t.parent = p
    · subst hp
      rw [List.getElem?_set_self hlen] at hpr'
      cases hpr'
      have := par _ _ hpr
      simp only [if_true] at w
      dsimp only
      omega
    · rw [List.getElem?_set_ne hp] at hpr'
      have := par _ _ hpr'
      rw [if_neg hp] at w
      omega
  · intro x hx
    rw [List.length_set]
    exact valid x hx
  · by_cases hp : t.parent = p
    · subst hp
      by_cases hc : pr.isWaiting = true ∧ pr.remaining - 1 = 0
      · rw [if_pos hc, wake_wSleep] at h0
        simp at h0
      · rw [if_neg hc] at h0
        obtain ⟨pr2, h2, hw, hr⟩ := sleepP _ h0
        rw [hpr] at h2; cases h2
        have hne : ¬ pr.remaining - 1 = 0 := fun e => hc ⟨hw, e⟩
        exact ⟨_, List.getElem?_set_self hlen, hw, by dsimp only; omega⟩
    · have h0' : 0 < tot (wS p) s.cs := by
        split at h0
        · rw [wake_wSleep, if_neg (fun e => hp e.symm)] at h0; exact h0
        · exact h0
      obtain ⟨pr2, h2, hw, hr⟩ := sleepP _ h0'
      exact ⟨pr2, by rw [List.getElem?_set_ne hp]; exact h2, hw, hr⟩

theorem countP_all {ts : List Task} {p q : Nat} (h : ∀ t ∈ ts, t.parent = p) : ts.countP (·.parent = q) = if p = q then ts.length else 0 := by
  split
  · rename_i e; subst e
    rw [List.countP_eq_length]; simpa using h
  · rename_i e
    rw [List.countP_eq_zero]
    intro t ht
    have := h t ht
    simp only [decide_eq_true_eq]
    omega

theorem wait_invB {s : St} {i p : Nat} {pr : Parent} {a : C} (h : s.cs[i]? = some a) (ha : a = .idle ∨ a = .wWoken p) (hpr : s.ps[p]? = some pr)
    (I : InvB s) : InvB (waitBody s i p pr) := by
  have I0 := I
  obtain ⟨nodup, tasks, runs, insd, par, valid, sleepP⟩ := I
  have hlen : p < s.ps.length := by
    apply Classical.byContradiction; intro hn
    rw [List.getElem?_eq_none (by omega)] at hpr; cases hpr
  have a1 : ∀ x, todoC x a = 0 := by rcases ha with rfl | rfl <;> intro x <;> rfl
  have a2 : ∀ x, todoP x a = 0 := by rcases ha with rfl | rfl <;> intro x <;> rfl
  have a3 : ∀ x, wS x a = 0 := by rcases ha with rfl | rfl <;> intro x <;> rfl
  have hge := par p pr hpr
  unfold waitBody
  split
  · rename_i h0
    refine ⟨nodup, fun x => ?_, runs, insd, fun q pr' hpr' => ?_, ?_, fun q hq => ?_⟩ <;> dsimp only at *
    · have w := tot_set h .idle (todoC x)
      have := tasks x; rw [a1 x] at w; simp only [todoC] at w; omega
    · have w := tot_set h .idle (todoP q)
      rw [a2 q] at w; simp only [todoP] at w
      by_cases hp : p = q
      · subst hp
        rw [List.getElem?_set_self hlen] at hpr'; cases hpr'
        dsimp only; omega
      · rw [List.getElem?_set_ne hp] at hpr'
        have := par _ _ hpr'; omega
    · intro x hx; rw [List.length_set]; exact valid x hx
    · have w := tot_set h .idle (wS q)
      rw [a3 q] at w; simp only [wS] at w
      obtain ⟨pr2, h2, hw, hr⟩ := sleepP q (by omega)
      by_cases hp : p = q
      · subst hp; rw [hpr] at h2; cases h2; omega
      · exact ⟨pr2, by rw [List.getElem?_set_ne hp]; exact h2, hw, hr⟩
  · rename_i h0
    refine ⟨nodup, fun x => ?_, runs, insd, fun q pr' hpr' => ?_, ?_, fun q hq => ?_⟩ <;> dsimp only at *
    · have w := tot_set h (.wSleep p) (todoC x)
      have := tasks x; rw [a1 x] at w; simp only [todoC] at w; omega
    · have w := tot_set h (.wSleep p) (todoP q)
      rw [a2 q] at w; simp only [todoP] at w
      by_cases hp : p = q
      · subst hp
        rw [List.getElem?_set_self hlen] at hpr'; cases hpr'
        dsimp only; omega
      · rw [List.getElem?_set_ne hp] at hpr'
        have := par _ _ hpr'; omega
    · intro x hx; rw [List.length_set]; exact valid x hx
    · have w := tot_set h (.wSleep p) (wS q)
      rw [a3 q] at w; simp only [wS] at w
      by_cases hp : p = q
      · subst hp
        exact ⟨_, List.getElem?_set_self hlen, rfl, by dsimp only; omega⟩
      · rw [if_neg hp] at w
        obtain ⟨pr2, h2, hw, hr⟩ := sleepP q (by omega)
        exact ⟨pr2, by rw [List.getElem?_set_ne hp]; exact h2, hw, hr⟩

theorem dispatch_invB {s : St} {i p : Nat} {pr : Parent} {ts : List Task} (h : s.cs[i]? = some .idle) (hpr : s.ps[p]? = some pr)
    (hts : ∀ t ∈ ts, t.parent = p) (hn : (s.disp ++ ts).Nodup) (I : InvB s) :
    InvB { s with ps := s.ps.set p { pr with remaining := pr.remaining + ts.length }, disp := s.disp ++ ts, cs := s.cs.set i (.ins ts false) } := by
  obtain ⟨nodup, tasks, runs, insd, par, valid, sleepP⟩ := I
  have hlen : p < s.ps.length := by
    apply Classical.byContradiction; intro hn
    rw [List.getElem?_eq_none (by omega)] at hpr; cases hpr
  refine ⟨hn, fun x => ?_, runs, insd, fun q pr' hpr' => ?_, ?_, fun q hq => ?_⟩ <;> dsimp only at *
  · have w := tot_set h (.ins ts false) (todoC x)
    have := tasks x; simp only [todoC] at w
    rw [List.count_append]; omega
  · have w := tot_set h (.ins ts false) (todoP q)
    simp only [todoP] at w
    rw [countP_all hts] at w
    by_cases hp : p = q
    · subst hp
      rw [List.getElem?_set_self hlen] at hpr'; cases hpr'
      have := par _ _ hpr
      dsimp only; simp only [if_true] at w; omega
    · rw [List.getElem?_set_ne hp] at hpr'
      rw [if_neg hp] at w
      have := par _ _ hpr'; omega
  · intro x hx
    rw [List.length_set]
    rcases List.mem_append.1 hx with hx | hx
    · exact valid x hx
    · rw [hts x hx]; exact hlen
  · have w := tot_set h (.ins ts false) (wS q)
    simp only [wS] at w
    obtain ⟨pr2, h2, hw, hr⟩ := sleepP q (by omega)
    by_cases hp : p = q
    · subst hp; rw [hpr] at h2; cases h2
      exact ⟨_, List.getElem?_set_self hlen, hw, by dsimp only; omega⟩
    · exact ⟨pr2, by rw [List.getElem?_set_ne hp]; exact h2, hw, hr⟩

theorem insBody_invB {c : Cfg} {s : St} {i : Nat} {t : Task} {todo : List Task} {woke : Bool} {ws' : List W} (I : InvB s)
    (h : s.cs[i]? = some (.ins (t :: todo) woke)) (hO : MaybeO (insBody c s i t todo woke).2 (insBody c s i t todo woke).1.ws ws') :
    InvB { (insBody c s i t todo woke).1 with ws := ws' } := by
  have e : (insBody c s i t todo woke).1.ws = s.ws := by unfold insBody; split <;> rfl
  have t1 := fun x => maybeO_tot hO (wake_runW x)
  have t2 := fun x => maybeO_tot hO (wake_runP x)
  rw [e] at t1 t2
  suffices J : InvB (insBody c s i t todo woke).1 from
    ws_invB J (by intro x; rw [t1 x, e]) (by intro x; rw [t2 x, e])
  obtain ⟨nodup, tasks, runs, insd, par, valid, sleepP⟩ := I
  unfold insBody
  split
  · generalize hb : (if todo = [] then C.idle else C.ins todo true) = b
    have b1 : ∀ x, todoC x b = todo.count x := by
      intro x; rw [← hb]; split
      · rename_i e; rw [e]; rfl
      · rfl
    have b2 : ∀ x, todoP x b = todo.countP (·.parent = x) := by
      intro x; rw [← hb]; split
      · rename_i e; rw [e]; rfl
      · rfl
    have b3 : ∀ x, wS x b = 0 := by intro x; rw [← hb]; split <;> rfl
    refine ⟨nodup, fun x => ?_, runs, ?_, fun q pr' hpr' => ?_, valid, fun q hq => ?_⟩ <;> dsimp only at *
    · have w := tot_set h b (todoC x)
      have := tasks x; rw [b1 x] at w
      simp only [todoC, List.count_cons] at w
      simp only [List.count_append, List.count_cons, List.count_nil]
      omega
    · rw [insd]; simp
    · have w := tot_set h b (todoP q)
      have := par _ _ hpr'; rw [b2 q] at w
      simp only [todoP, List.countP_cons] at w
      simp only [List.countP_append, List.countP_cons, List.countP_nil]
      omega
    · have w := tot_set h b (wS q)
      rw [b3 q] at w
      simp only [wS] at w
      exact sleepP q (by omega)
  · refine cs_invB ⟨nodup, tasks, runs, insd, par, valid, sleepP⟩ ?_ ?_ ?_ <;> intro x
    · have w := tot_set h (.inSleep (t :: todo)) (todoC x); simp only [todoC] at w; omega
    · have w := tot_set h (.inSleep (t :: todo)) (todoP x); simp only [todoP] at w; omega
    · have w := tot_set h (.inSleep (t :: todo)) (wS x); simp only [wS] at w; omega

theorem set_invB {s : St} {i : Nat} {a b : C} {n : Int} (I : InvB s) (h : s.cs[i]? = some a) (h1 : ∀ x, todoC x b = todoC x a)
    (h2 : ∀ x, todoP x b = todoP x a) (h3 : ∀ x, wS x b ≤ wS x a) : InvB { s with cs := s.cs.set i b, waiters := n } := by
  refine cs_invB I ?_ ?_ ?_ <;> intro x
  · have w := tot_set h b (todoC x); have := h1 x; omega
  · have w := tot_set h b (todoP x); have := h2 x; omega
  · have w := tot_set h b (wS x); have := h3 x; omega

theorem wset_invB {s : St} {i : Nat} {a b : W} {n : Int} (I : InvB s) (h : s.ws[i]? = some a) (h1 : ∀ x, runW x b = runW x a)
    (h2 : ∀ x, runP x b = runP x a) : InvB { s with ws := s.ws.set i b, numT := n } := by
  refine ws_invB I ?_ ?_ <;> intro x
  · have w := tot_set h b (runW x); have := h1 x; omega
  · have w := tot_set h b (runP x); have := h2 x; omega

theorem avail_invB {c : Cfg} {s : St} {i : Nat} {a : C} (I : InvB s) (h : s.cs[i]? = some a) (ha : a = .idle ∨ a = .avWoken) : InvB (availBody c s i) := by
  unfold availBody
  split
  · exact set_invB (n := s.waiters) I h (by rcases ha with rfl | rfl <;> intro x <;> rfl) (by rcases ha with rfl | rfl <;> intro x <;> rfl)
      (by intro x; simp [wS])
  · exact set_invB I h (by rcases ha with rfl | rfl <;> intro x <;> rfl) (by rcases ha with rfl | rfl <;> intro x <;> rfl)
      (by intro x; simp [wS])

theorem destroy_invB {s : St} {i : Nat} {a : C} (I : InvB s) (h : s.cs[i]? = some a) (ha : a = .idle ∨ a = .dWoken) : InvB (destroyBody s i) := by
  unfold destroyBody
  split <;>
  exact set_invB (n := s.waiters) I h (by rcases ha with rfl | rfl <;> intro x <;> rfl) (by rcases ha with rfl | rfl <;> intro x <;> rfl)
      (by intro x; simp [wS])

theorem availResume_cs {cs cs' : List C} {b : Bool} {i : Nat} (hI : MaybeI b cs cs') (h : cs[i]? = some .avWoken) : cs'[i]? = some .avWoken := by
  unfold MaybeI at hI
  split at hI
  · rcases hI with ⟨j, x, hj, ho, rfl⟩ | ⟨_, rfl⟩
    · rw [List.getElem?_set]
      split
      · rename_i e; subst e
        rw [h] at hj; cases hj; cases ho
      · exact h
    · exact h
  · rw [hI]; exact h

theorem step_invB {c : Cfg} {s s' : St} (I : InvB s) (st : Step c s s') : InvB s' := by
  cases st with
  | fetch h hI => exact fetch_invB h (Or.inl rfl) I hI
  | resume h hI =>
    exact fetch_invB (s := { s with numIdle := s.numIdle - 1 }) h (Or.inr ⟨_, rfl⟩) ⟨I.nodup, I.tasks, I.runs, I.insd, I.par, I.valid, I.sleepP⟩ hI
  | finish h => exact wset_invB (n := s.numT) I h (by intro x; rfl) (by intro x; rfl)
  | notify h hp => exact notify_invB h hp I
  | exit h =>
    unfold exit
    dsimp only
    split
    · refine cs_invB (n := s.waiters) (wset_invB (b := .dead) I h ?_ ?_) ?_ ?_ ?_ <;> intro x
      · rfl
      · rfl
      · exact tot_map _ _ _ (wake_todoC x) _
      · exact tot_map _ _ _ (wake_todoP x) _
      · exact Nat.le_of_eq (tot_map _ _ _ (wake_wS x) _)
    · refine wset_invB I h ?_ ?_ <;> intro x <;> rfl
  | timeout h => exact wset_invB (n := s.numT) I h (by intro x; rfl) (by intro x; rfl)
  | spuriousO h => exact wset_invB (n := s.numT) I h (by intro x; rfl) (by intro x; rfl)
  | spuriousI h _ => exact set_invB (n := s.waiters) I h (fun x => wake_todoC x _) (fun x => wake_todoP x _) (fun x => Nat.le_of_eq (wake_wS x _))
  | spuriousP h => exact set_invB (n := s.waiters) I h (by intro x; rfl) (by intro x; rfl) (by intro x; simp [wS])
  | dispatch h _ hp _ ht hn => exact dispatch_invB h hp ht hn I
  | insert h hO =>
    refine insBody_invB ?_ ?_ hO
    · unfold spawn; split
      · exact ws_invB I (by intro x; rw [tot_append]; rfl) (by intro x; rw [tot_append]; rfl)
      · exact I
    · unfold spawn; split <;> exact h
  | insertResume h => exact set_invB I h (by intro x; rfl) (by intro x; rfl) (by intro x; simp [wS])
  | avail h _ => exact avail_invB I h (Or.inl rfl)
  | @availResume i cs' h hI =>
    have hI' : MaybeI (decide (s.waiters - 1 ≠ 0)) s.cs cs' := by
      unfold MaybeI
      simpa only [decide_eq_true_eq] using hI
    refine avail_invB (cs_invB I ?_ ?_ ?_) (availResume_cs hI' h) (Or.inr rfl) <;> intro x
    · exact maybeI_tot hI' (wake_todoC x)
    · exact maybeI_tot hI' (wake_todoP x)
    · exact Nat.le_of_eq (maybeI_tot hI' (wake_wS x))
  | wait h hp => exact wait_invB h (Or.inl rfl) hp I
  | waitResume h hp => exact wait_invB h (Or.inr rfl) hp I
  | destroy h _ _ =>
    refine destroy_invB ?_ h (Or.inl rfl)
    have J := ws_invB (n := s.numT) I (fun x => tot_map _ _ _ (wake_runW x) s.ws) (fun x => tot_map _ _ _ (wake_runP x) s.ws)
    exact ⟨J.nodup, J.tasks, J.runs, J.insd, J.par, J.valid, J.sleepP⟩
  | destroyResume h => exact destroy_invB I h (Or.inr rfl)

theorem reach_invB {c : Cfg} {n k : Nat} {s : St} (h : Reach c n k s) : InvB s := by
  induction h with
  | init => exact init_invB c n k
  | step _ st ih => exact step_invB ih st

end Verif.Pool
