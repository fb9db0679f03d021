import Verif.Pipe.Stage
/-! The results reported, and the ends of the threads. -/
namespace Verif.Pipe

theorem runsOf_mem {runs : List (Nat × Task)} {k : Nat} {x : Task} : x ∈ runsOf runs k ↔ (k, x) ∈ runs := by
  unfold runsOf
  constructor
  · intro h
    obtain ⟨p, hp, rfl⟩ := List.mem_map.1 h
    have h2 := (List.mem_filter.1 hp)
    have : p.1 = k := by simpa using h2.2
    rw [← this]; exact h2.1
  · intro h
    exact List.mem_map.2 ⟨(k, x), List.mem_filter.2 ⟨h, by simp⟩, rfl⟩

/-- Where step `k` stands with its task. -/
structure Own (oks runs : List (Nat × Task)) (k : Nat) (a : Stp) : Prop where
  run : ∀ x, a.pc = .run x → (k, x) ∉ oks
  ret : ∀ x, a.pc = .ret x false → (k, x) ∉ oks ∧ (k, x) ∈ runs

/-- The invariant about results. -/
structure Result (n : Nat) (s : St) : Prop where
  own : ∀ (k : Nat) (a : Stp), s.steps[k]? = some a → Own s.oks s.runs k a
  fail : ∀ x, (x, Res.fail) ∈ s.fin → s.status = false ∨ ∃ k, (k, x) ∈ s.runs ∧ (k, x) ∉ s.oks
  abort : ∀ x, (x, Res.abort) ∈ s.fin → s.status = false
  range : ∀ p ∈ s.runs, p.1 < n

theorem Own.wake {oks runs : List (Nat × Task)} {k : Nat} {a : Stp} (p : Own oks runs k a) : Own oks runs k (wake a) := by
  obtain ⟨h1, h2⟩ := p
  constructor <;> obtain ⟨pc, slot⟩ := a <;> cases pc <;> simp_all [Verif.Pipe.wake]

theorem own_set {oks runs : List (Nat × Task)} {steps : List Stp} {i : Nat} {b : Stp} (p : ∀ (k : Nat) (a : Stp), steps[k]? = some a → Own oks runs k a)
    (hb : Own oks runs i b) : ∀ (k : Nat) (a : Stp), (steps.set i b)[k]? = some a → Own oks runs k a := by
  intro k a h
  by_cases e : i = k
  · subst e
    have hl := lt_of_get h
    rw [List.length_set] at hl
    rw [List.getElem?_set_self hl] at h
    cases h
    exact hb
  · rw [List.getElem?_set_ne e] at h
    exact p k a h

theorem own_signal {oks runs : List (Nat × Task)} {steps : List Stp} (i : Nat) (p : ∀ (k : Nat) (a : Stp), steps[k]? = some a → Own oks runs k a) :
    ∀ (k : Nat) (a : Stp), (signal i steps)[k]? = some a → Own oks runs k a := by
  intro k a h
  rw [get_signal] at h
  split at h
  · cases e : steps[k]? with
    | none => rw [e] at h; cases h
    | some c =>
      rw [e] at h
      cases h
      exact (p k c e).wake
  · exact p k a h

theorem own_signalPrev {oks runs : List (Nat × Task)} {steps : List Stp} (i : Nat) (p : ∀ (k : Nat) (a : Stp), steps[k]? = some a → Own oks runs k a) :
    ∀ (k : Nat) (a : Stp), (signalPrev i steps)[k]? = some a → Own oks runs k a := by
  unfold signalPrev
  split
  · exact own_signal _ p
  · exact p

theorem own_map {oks runs : List (Nat × Task)} {steps : List Stp} (p : ∀ (k : Nat) (a : Stp), steps[k]? = some a → Own oks runs k a) :
    ∀ (k : Nat) (a : Stp), (steps.map wake)[k]? = some a → Own oks runs k a := by
  intro k a h
  rw [List.getElem?_map] at h
  cases e : steps[k]? with
  | none => rw [e] at h; cases h
  | some c =>
    rw [e] at h
    cases h
    exact (p k c e).wake

theorem set_result {n : Nat} {s : St} (R : Result n s) {k : Nat} {b : Stp} (hb : Own s.oks s.runs k b) : Result n { s with steps := s.steps.set k b } :=
  ⟨own_set R.own hb, R.fail, R.abort, R.range⟩

theorem finishTask_result {n : Nat} {s : St} (R : Result n s) {x : Task} {r : Res}
    (hf : r = .fail → s.status = false ∨ ∃ k, (k, x) ∈ s.runs ∧ (k, x) ∉ s.oks) (ha : r = .abort → s.status = false) : Result n (finishTask s x r) := by
  refine ⟨R.own, ?_, ?_, R.range⟩
  · intro y hy
    simp only [finishTask, List.mem_append, List.mem_singleton, Prod.mk.injEq] at hy
    rcases hy with hy | ⟨rfl, rfl⟩
    · exact R.fail y hy
    · exact hf rfl
  · intro y hy
    simp only [finishTask, List.mem_append, List.mem_singleton, Prod.mk.injEq] at hy
    rcases hy with hy | ⟨rfl, rfl⟩
    · exact R.abort y hy
    · exact ha rfl

theorem Own.idle {oks runs : List (Nat × Task)} {k : Nat} {a : Stp} (h : hold a.pc = [] ∨ (∃ x, a.pc = .sleepS x) ∨ ∃ x, a.pc = .wokenS x) : Own oks runs k a := by
  obtain ⟨pc, slot⟩ := a
  constructor <;> cases pc <;> simp_all [hold]

theorem fetch_result {n : Nat} {s : St} {k : Nat} {a : Stp} (R : Result n s) (I : Inv s) (O : Ord (fetch s k a)) (S : Stage n s) (hl : s.steps.length = n)
    (h : s.steps[k]? = some a) : Result n (fetch s k a) := by
  have hk := lt_of_get h
  have hnew : ∀ x, (runsOf (s.runs ++ [(k, x)]) k).Nodup → (k, x) ∉ s.oks := by
    intro x hn hx
    rw [runsOf_append, if_pos rfl] at hn
    exact (List.nodup_append.1 hn).2.2 x (runsOf_mem.2 (S.called _ hx)) x (by simp) rfl
  have hmono : ∀ (x : Task), ∀ (i : Nat) (b : Stp), s.steps[i]? = some b → Own s.oks (s.runs ++ [(k, x)]) i b := fun x i b hb =>
    ⟨(R.own i b hb).run, fun y hy => ⟨((R.own i b hb).ret y hy).1, List.mem_append_left _ ((R.own i b hb).ret y hy).2⟩⟩
  have hrun : ∀ (x : Task), (k, x) ∉ s.oks → Own s.oks (s.runs ++ [(k, x)]) k ⟨.run x, none⟩ := by
    intro x hx
    refine ⟨fun y hy => ?_, by simp⟩
    cases hy; exact hx
  have hfail : ∀ (x y : Task), (y, Res.fail) ∈ s.fin → s.status = false ∨ ∃ i, (i, y) ∈ s.runs ++ [(k, x)] ∧ (i, y) ∉ s.oks := by
    intro x y hy
    rcases R.fail y hy with h | ⟨i, h1, h2⟩
    · exact Or.inl h
    · exact Or.inr ⟨i, List.mem_append_left _ h1, h2⟩
  have hrange : ∀ (x : Task), ∀ p ∈ s.runs ++ [(k, x)], p.1 < n := by
    intro x p hp
    rcases List.mem_append.1 hp with hp | hp
    · exact R.range p hp
    · rw [List.mem_singleton] at hp; rw [hp]; dsimp only; omega
  have hsleep : Own s.oks s.runs k ⟨.sleepF, none⟩ := Own.idle (Or.inl rfl)
  have hO := O k
  unfold fetch at hO ⊢
  split at hO
  · rename_i x hx
    have hno := hnew x ((List.nodup_append.1 (hO.nodup I.nodup)).1)
    exact ⟨own_signalPrev k (own_set (hmono x) (hrun x hno)), hfail x, R.abort, hrange x⟩
  · split at hO
    · rename_i hk0
      rw [if_pos hk0]
      split at hO
      · rename_i x q hq
        have hno := hnew x ((List.nodup_append.1 (hO.nodup I.nodup)).1)
        exact ⟨own_set (hmono x) (hrun x hno), hfail x, R.abort, hrange x⟩
      · exact set_result R hsleep
    · rename_i hk0
      rw [if_neg hk0]
      exact ⟨own_signalPrev k (own_set R.own hsleep), R.fail, R.abort, R.range⟩

theorem exitStep_result {n : Nat} {s : St} {k : Nat} {a : Stp} (R : Result n s) (hu : s.status = false) : Result n (exitStep s k a) := by
  have key : ∀ s1 : St, Result n s1 → s1.status = false →
      Result n { (if k = 0 then abortAll s1 s1.queue else s1) with steps := (if k = 0 then abortAll s1 s1.queue else s1).steps.set k ⟨.dead, none⟩ } := by
    intro s1 R1 hu1
    split
    · rw [abortAll_eq]
      exact ⟨own_set R1.own (Own.idle (Or.inl rfl)), fun _ _ => Or.inl hu1, fun _ _ => hu1, R1.range⟩
    · exact set_result R1 (Own.idle (Or.inl rfl))
  obtain ⟨pc, slot⟩ := a
  cases slot with
  | none => exact key s R hu
  | some x => exact key (finishTask s x .abort) (finishTask_result R (by simp) (fun _ => hu)) hu

theorem sendNext_result {n : Nat} {s : St} {k : Nat} {a : Stp} {x : Task} (R : Result n s) : Result n (sendNext s k a x) := by
  unfold sendNext
  split
  · exact R
  · rename_i b hb
    split
    · exact set_result R (Own.idle (Or.inr (Or.inl ⟨x, rfl⟩)))
    · split
      · rename_i hu
        exact finishTask_result (set_result R (Own.idle (Or.inl rfl))) (fun _ => Or.inl hu) (by simp)
      · exact ⟨own_signal _ (own_set (own_set R.own (Own.idle (Or.inl rfl))) ⟨(R.own _ b hb).run, (R.own _ b hb).ret⟩), R.fail, R.abort, R.range⟩

theorem failure_result {n : Nat} {s : St} (R : Result n s) (ok : Bool) : Result n (failure s ok) := by
  unfold failure
  split
  · exact ⟨own_map R.own, fun _ _ => Or.inl rfl, fun _ _ => rfl, R.range⟩
  · exact R

theorem finishStep_result {n : Nat} {s : St} {k : Nat} {a : Stp} {x : Task} {ok : Bool} (R : Result n s) (h : s.steps[k]? = some a) (ha : a.pc = .ret x ok) :
    Result n (finishStep s k a x ok) := by
  have R1 := failure_result R ok
  have h1 := failure_get (ok := ok) h ha
  unfold finishStep
  dsimp only
  split
  · refine finishTask_result (set_result R1 (Own.idle (Or.inl rfl))) ?_ ?_
    · intro hr
      dsimp only
      unfold result at hr
      split at hr
      · cases hr
      · cases ok with
        | true => simp at hr
        | false => exact Or.inr ⟨k, ((R1.own k a h1).ret x ha).2, ((R1.own k a h1).ret x ha).1⟩
    · intro hr
      dsimp only
      unfold result at hr
      split at hr
      · rename_i hc; exact hc.1
      · cases ok <;> simp at hr
  · exact sendNext_result R1

theorem wait_result {n : Nat} {s : St} (R : Result n s) (j l : Nat) : Result n (wait s j l) := by
  unfold wait
  split <;> exact ⟨R.own, R.fail, R.abort, R.range⟩

theorem join_result {n : Nat} {s : St} (R : Result n s) (j i : Nat) : Result n (join s j i) := by
  unfold join
  split
  · exact ⟨own_signal _ R.own, R.fail, R.abort, R.range⟩
  · exact ⟨R.own, R.fail, R.abort, R.range⟩

theorem not_finished {s : St} (I : Inv s) {k : Nat} {a : Stp} {x : Task} (h : s.steps[k]? = some a) (hx : x ∈ content a) (r : Res) : (x, r) ∉ s.fin := by
  intro hf
  have h1 := I.count x
  have h2 : 0 < (line s.steps ++ s.queue).count x := List.count_pos_iff.2 (List.mem_append_left _ (mem_line h hx))
  have h3 : 0 < (s.fin.map (·.1)).count x := List.count_pos_iff.2 (List.mem_map.2 ⟨_, hf, rfl⟩)
  have h4 : s.acc.count x ≤ 1 := List.nodup_iff_count.1 I.nodup x
  omega

theorem step_result {n : Nat} {s s' : St} (R : Result n s) (I : Inv s) (O' : Ord s') (S : Stage n s) (hl : s.steps.length = n) (st : Step s s') : Result n s' := by
  cases st with
  | top h ha =>
    unfold top at O' ⊢
    split
    · rename_i hu; exact exitStep_result R hu
    · rename_i hu; rw [if_neg hu] at O'; exact fetch_result R I O' S hl h
  | @callback k a x ok h ha =>
    have hnf := fun r => not_finished I h (x := x) (by simp [content, ha, hold]) r
    have hother : ∀ p : Nat × Task, p ∉ s.oks → p ≠ (k, x) → p ∉ (if ok then s.oks ++ [(k, x)] else s.oks) := by
      intro p hp hne
      split
      · simp only [List.mem_append, List.mem_singleton, not_or]; exact ⟨hp, hne⟩
      · exact hp
    refine ⟨?_, ?_, R.abort, R.range⟩
    · intro i b hb
      dsimp only at hb ⊢
      by_cases e : k = i
      · subst e
        rw [List.getElem?_set_self (lt_of_get h)] at hb
        cases hb
        refine ⟨by simp, fun y hy => ?_⟩
        simp only [PC.ret.injEq] at hy
        obtain ⟨rfl, rfl⟩ := hy
        exact ⟨by simpa using (R.own k a h).run x ha, (S.pass k a h).runs x ha⟩
      · rw [List.getElem?_set_ne e] at hb
        refine ⟨fun y hy => hother _ ((R.own i b hb).run y hy) (by simp; omega), fun y hy => ?_⟩
        exact ⟨hother _ ((R.own i b hb).ret y hy).1 (by simp; omega), ((R.own i b hb).ret y hy).2⟩
    · intro y hy
      rcases R.fail y hy with h | ⟨i, h1, h2⟩
      · exact Or.inl h
      · refine Or.inr ⟨i, h1, hother _ h2 ?_⟩
        intro e
        cases e
        exact hnf _ hy
  | finish h ha => exact finishStep_result R h ha
  | resume h ha => exact sendNext_result R
  | spurious => exact ⟨own_signal _ R.own, R.fail, R.abort, R.range⟩
  | spuriousU h => exact ⟨R.own, R.fail, R.abort, R.range⟩
  | insert h hx =>
    unfold insert
    split
    · exact R
    · exact ⟨own_signal _ R.own, R.fail, R.abort, R.range⟩
  | wait h => exact wait_result R _ _
  | waitResume h => exact wait_result R _ _
  | destroy h => exact ⟨own_map R.own, fun _ _ => Or.inl rfl, fun _ _ => rfl, R.range⟩
  | destroyResume h =>
    unfold destroyWait
    split
    · exact join_result R _ _
    · exact ⟨R.own, R.fail, R.abort, R.range⟩
  | joined h h1 h2 => exact join_result R _ _

theorem reach_result {b : Bool} {n m : Nat} {s : St} (h : Reach b n m s) : Result n s := by
  induction h with
  | init =>
    refine ⟨?_, by simp [init], by simp [init], by simp [init]⟩
    intro k a h
    simp only [init, List.getElem?_replicate] at h
    split at h
    · cases h; exact Own.idle (Or.inl rfl)
    · cases h
  | step r st ih => exact step_result ih (reach_inv r) (reach_ord (.step r st)) (reach_stage r) (reach_live r).len st

/-- The thread of step `k` has ended. -/
def deadAt (steps : List Stp) (k : Nat) : Prop := ∃ a, steps[k]? = some a ∧ a.pc = .dead

theorem dead_signal {steps : List Stp} {k : Nat} (i : Nat) (h : deadAt steps k) : deadAt (signal i steps) k := by
  obtain ⟨a, h1, h2⟩ := h
  unfold deadAt
  rw [get_signal, h1]
  split
  · refine ⟨wake a, rfl, ?_⟩
    unfold wake
    rw [h2]
    exact h2
  · exact ⟨a, rfl, h2⟩

theorem dead_signalPrev {steps : List Stp} {k : Nat} (i : Nat) (h : deadAt steps k) : deadAt (signalPrev i steps) k := by
  unfold signalPrev
  split
  · exact dead_signal _ h
  · exact h

theorem dead_map {steps : List Stp} {k : Nat} (h : deadAt steps k) : deadAt (steps.map wake) k := by
  obtain ⟨a, h1, h2⟩ := h
  refine ⟨wake a, getElem?_map_wake h1, ?_⟩
  unfold wake
  rw [h2]
  exact h2

theorem dead_set {steps : List Stp} {k i : Nat} {a b : Stp} (h : deadAt steps k) (hi : steps[i]? = some a) (ha : a.pc ≠ .dead) : deadAt (steps.set i b) k := by
  obtain ⟨c, h1, h2⟩ := h
  have : i ≠ k := by
    intro e; subst e
    rw [h1] at hi; cases hi
    exact ha h2
  exact ⟨c, by rw [List.getElem?_set_ne this]; exact h1, h2⟩

theorem dead_set_same {steps : List Stp} {k i : Nat} {a b : Stp} (h : deadAt steps k) (hi : steps[i]? = some a) (ha : b.pc = a.pc) : deadAt (steps.set i b) k := by
  obtain ⟨c, h1, h2⟩ := h
  by_cases e : i = k
  · subst e
    rw [h1] at hi; cases hi
    exact ⟨b, List.getElem?_set_self (lt_of_get h1), by rw [ha]; exact h2⟩
  · exact ⟨c, by rw [List.getElem?_set_ne e]; exact h1, h2⟩

theorem sendNext_dead {s : St} {k i : Nat} {a : Stp} {x : Task} (hd : deadAt s.steps i) (h : s.steps[k]? = some a) (ha : a.pc ≠ .dead) :
    deadAt (sendNext s k a x).steps i := by
  unfold sendNext
  split
  · exact hd
  · rename_i b hb
    split
    · exact dead_set hd h ha
    · split
      · exact dead_set hd h ha
      · refine dead_signal _ (dead_set_same (a := b) (dead_set hd h ha) ?_ rfl)
        rw [List.getElem?_set_ne (by omega)]
        exact hb

theorem join_dead {s : St} {i : Nat} (hd : deadAt s.steps i) (j l : Nat) : deadAt (join s j l).steps i := by
  unfold join
  split
  · exact dead_signal _ hd
  · exact hd

/-- Ended threads stay ended. -/
theorem step_dead {s s' : St} {i : Nat} (hd : deadAt s.steps i) (st : Step s s') : deadAt s'.steps i := by
  cases st with
  | @top k a h ha =>
    unfold top
    have hn : a.pc ≠ .dead := by rw [ha]; simp
    split
    · have e1 : (exitStep s k a).steps = s.steps.set k ⟨.dead, none⟩ := by
        unfold exitStep
        cases a.slot <;> dsimp only <;> split <;> simp [abortAll_eq, finishTask]
      rw [e1]
      exact dead_set hd h hn
    · unfold fetch
      split
      · exact dead_signalPrev _ (dead_set hd h hn)
      · split
        · split <;> exact dead_set hd h hn
        · exact dead_signalPrev _ (dead_set hd h hn)
  | callback ok h ha => exact dead_set hd h (by rw [ha]; simp)
  | @finish k a x ok h ha =>
    have h1 := failure_get (ok := ok) h ha
    have hd1 : deadAt (failure s ok).steps i := by
      unfold failure
      split
      · exact dead_map hd
      · exact hd
    unfold finishStep
    dsimp only
    split
    · exact dead_set hd1 h1 (by rw [ha]; simp)
    · exact sendNext_dead hd1 h1 (by rw [ha]; simp)
  | resume h ha => exact sendNext_dead hd h (by rw [ha]; simp)
  | spurious => exact dead_signal _ hd
  | spuriousU h => exact hd
  | insert h hx =>
    unfold insert
    split
    · exact hd
    · exact dead_signal _ hd
  | wait h => unfold wait; split <;> exact hd
  | waitResume h => unfold wait; split <;> exact hd
  | destroy h => exact dead_map hd
  | destroyResume h =>
    unfold destroyWait
    split
    · exact join_dead hd _ _
    · exact hd
  | joined h h1 h2 => exact join_dead hd _ _

/-- What the caller of `M_thread_pipeline_destroy` knows. -/
structure Joined (n : Nat) (s : St) (u : U) : Prop where
  join : ∀ i, u = .dJoin i → ∀ l, l < i → deadAt s.steps l
  done : u = .dDone → s.status = false ∧ s.cnt ≤ 0 ∧ ∀ l, l < n → deadAt s.steps l

theorem step_down {s s' : St} (h : s.status = false) (st : Step s s') : s'.status = false ∧ (s.cnt ≤ 0 → s'.cnt ≤ 0) := by
  cases st with
  | @top k a h' ha =>
    unfold top
    rw [if_pos h]
    unfold exitStep
    cases a.slot <;> dsimp only <;> split <;> simp only [abortAll_eq, finishTask, h, true_and] <;> omega
  | callback ok h' ha => exact ⟨h, fun h => h⟩
  | @finish k a x ok h' ha =>
    have h1 : (failure s ok).status = false ∧ (failure s ok).cnt = s.cnt := by
      unfold failure
      split
      · exact ⟨rfl, rfl⟩
      · exact ⟨h, rfl⟩
    unfold finishStep
    dsimp only
    split
    · simp only [finishTask, h1, true_and]; omega
    · unfold sendNext
      split
      · exact ⟨h1.1, by rw [h1.2]; exact id⟩
      · split
        · exact ⟨h1.1, by dsimp only; rw [h1.2]; exact id⟩
        · rw [if_pos h1.1]
          simp only [finishTask, h1, true_and]; omega
  | resume h' ha =>
    unfold sendNext
    split
    · exact ⟨h, id⟩
    · split
      · exact ⟨h, id⟩
      · try rw [if_pos h]
        simp only [finishTask, h, true_and]; omega
  | spurious => exact ⟨h, id⟩
  | spuriousU h' => exact ⟨h, id⟩
  | insert h' hx =>
    unfold insert
    rw [if_pos h]
    exact ⟨h, id⟩
  | wait h' => unfold wait; split <;> exact ⟨h, id⟩
  | waitResume h' => unfold wait; split <;> exact ⟨h, id⟩
  | destroy h' => exact ⟨rfl, id⟩
  | destroyResume h' =>
    unfold destroyWait join
    split
    · split <;> exact ⟨h, id⟩
    · exact ⟨h, id⟩
  | joined h' h1 h2 =>
    unfold join
    split <;> exact ⟨h, id⟩

theorem Joined.step {n : Nat} {s s' : St} {u : U} (J : Joined n s u) (st : Step s s') : Joined n s' u := by
  refine ⟨fun i hi l hl => step_dead (J.join i hi l hl) st, fun hu => ?_⟩
  obtain ⟨h1, h2, h3⟩ := J.done hu
  have := step_down h1 st
  exact ⟨this.1, this.2 h2, fun l hl => step_dead (h3 l hl) st⟩

theorem Joined.other {n : Nat} {s : St} {u : U} (h1 : ∀ i, u ≠ .dJoin i) (h2 : u ≠ .dDone) : Joined n s u :=
  ⟨fun i hi => absurd hi (h1 i), fun h => absurd h h2⟩

theorem wakeU_wakeU (u : U) : wakeU (wakeU u) = wakeU u := by cases u <;> rfl

/-- How the users change. -/
theorem step_users {s s' : St} (st : Step s s') : (s'.us = s.us ∨ s'.us = s.us.map wakeU) ∨
    (∃ j v, (s'.us = s.us.set j v ∨ s'.us = (s.us.map wakeU).set j v) ∧ (∀ i, v ≠ .dJoin i) ∧ v ≠ .dDone) ∨
    (∃ j i u, s.us[j]? = some u ∧ s' = join s j i ∧ ((u = .dWoken ∧ i = 0 ∧ s.cnt ≤ 0) ∨ ∃ l, u = .dJoin l ∧ i = l + 1 ∧ deadAt s.steps l)) ∨
    (∃ j u, s.us[j]? = some u ∧ s'.us = s.us.set j (wakeU u)) := by
  cases st with
  | @top k a h ha =>
    refine Or.inl ?_
    unfold top
    split
    · unfold exitStep
      cases a.slot <;> dsimp only <;> split <;> simp only [abortAll_eq, finishTask]
      · split <;> simp
      · simp
      · split <;> simp [wakeU_wakeU]
      · simp
    · unfold fetch
      split
      · exact Or.inl rfl
      · split
        · split <;> exact Or.inl rfl
        · exact Or.inl rfl
  | callback ok h ha => exact Or.inl (Or.inl rfl)
  | @finish k a x ok h ha =>
    refine Or.inl ?_
    have h1 : (failure s ok).us = s.us ∨ (failure s ok).us = s.us.map wakeU := by
      unfold failure
      split
      · exact Or.inr rfl
      · exact Or.inl rfl
    have h2 : (failure s ok).us.map wakeU = s.us.map wakeU := by
      rcases h1 with h1 | h1 <;> rw [h1]
      simp [wakeU_wakeU]
    unfold finishStep
    dsimp only
    split
    · exact Or.inr h2
    · unfold sendNext
      split
      · exact h1
      · split
        · exact h1
        · split
          · exact Or.inr h2
          · exact h1
  | resume h ha =>
    refine Or.inl ?_
    unfold sendNext
    split
    · exact Or.inl rfl
    · split
      · exact Or.inl rfl
      · split
        · exact Or.inr rfl
        · exact Or.inl rfl
  | spurious => exact Or.inl (Or.inl rfl)
  | spuriousU h => exact Or.inr (Or.inr (Or.inr ⟨_, _, h, rfl⟩))
  | insert h hx => unfold insert; split <;> exact Or.inl (Or.inl rfl)
  | wait h => unfold wait; split <;> exact Or.inr (Or.inl ⟨_, _, Or.inl rfl, by simp, by simp⟩)
  | waitResume h => unfold wait; split <;> exact Or.inr (Or.inl ⟨_, _, Or.inl rfl, by simp, by simp⟩)
  | destroy h => exact Or.inr (Or.inl ⟨_, _, Or.inr rfl, by simp, by simp⟩)
  | destroyResume h =>
    unfold destroyWait
    split
    · rename_i hc; exact Or.inr (Or.inr (Or.inl ⟨_, 0, _, h, rfl, Or.inl ⟨rfl, rfl, hc⟩⟩))
    · exact Or.inr (Or.inl ⟨_, _, Or.inl rfl, by simp, by simp⟩)
  | joined h h1 h2 => exact Or.inr (Or.inr (Or.inl ⟨_, _, _, h, rfl, Or.inr ⟨_, rfl, rfl, ⟨_, h1, h2⟩⟩⟩))

theorem Joined.wake {n : Nat} {s : St} {u : U} (J : Joined n s u) : Joined n s (wakeU u) := by
  cases u <;> first | exact J | exact Joined.other (by simp [wakeU]) (by simp [wakeU])

theorem reach_joined {b : Bool} {n m : Nat} {s : St} (h : Reach b n m s) : ∀ u ∈ s.us, Joined n s u := by
  induction h with
  | init =>
    intro u hu
    simp only [init, List.mem_replicate] at hu
    obtain ⟨_, rfl⟩ := hu
    exact Joined.other (by simp) (by simp)
  | @step s s' r st ih =>
    have ih' : ∀ u ∈ s.us, Joined n s' u := fun u hu => (ih u hu).step st
    have ihw : ∀ u ∈ s.us.map wakeU, Joined n s' u := by
      intro u hu
      obtain ⟨v, hv, rfl⟩ := List.mem_map.1 hu
      exact (ih' v hv).wake
    intro u hu
    rcases step_users st with (e | e) | ⟨j, v, e, h1, h2⟩ | ⟨j, i, v, hv, e, h1⟩ | ⟨j, v, hv, e⟩
    · rw [e] at hu; exact ih' u hu
    · rw [e] at hu; exact ihw u hu
    · rcases e with e | e
      · rw [e] at hu
        rcases List.mem_or_eq_of_mem_set hu with h | h
        · exact ih' u h
        · rw [h]; exact Joined.other h1 h2
      · rw [e] at hu
        rcases List.mem_or_eq_of_mem_set hu with h | h
        · exact ihw u h
        · rw [h]; exact Joined.other h1 h2
    · have L := reach_live r
      have Jv := ih v (List.mem_of_getElem? hv)
      have gv := L.users v (List.mem_of_getElem? hv)
      have hstat : s.status = false ∧ s.cnt ≤ 0 ∧ ∀ l, l < i → deadAt s.steps l := by
        rcases h1 with ⟨rfl, rfl, hc⟩ | ⟨l, rfl, rfl, hd⟩
        · exact ⟨gv.dWoken rfl, hc, by omega⟩
        · refine ⟨(gv.dJoin l rfl).1, (gv.dJoin l rfl).2.1, ?_⟩
          intro l' hl'
          by_cases e2 : l' = l
          · rw [e2]; exact hd
          · exact Jv.join l rfl l' (by omega)
      subst e
      unfold join at hu ih' ⊢
      split at hu
      · rename_i hi
        rw [if_pos hi] at ih' ⊢
        rcases List.mem_or_eq_of_mem_set hu with h | h
        · exact ih' u h
        · rw [h]
          refine ⟨fun i' e l hl => ?_, by simp⟩
          cases e
          exact dead_signal _ (hstat.2.2 l hl)
      · rename_i hi
        rw [if_neg hi] at ih' ⊢
        rcases List.mem_or_eq_of_mem_set hu with h | h
        · exact ih' u h
        · rw [h]
          refine ⟨by simp, fun _ => ⟨hstat.1, hstat.2.1, fun l hl => hstat.2.2 l ?_⟩⟩
          have := L.len
          omega
    · rw [e] at hu
      rcases List.mem_or_eq_of_mem_set hu with h | h
      · exact ih' u h
      · rw [h]; exact (ih' v (List.mem_of_getElem? hv)).wake

end Verif.Pipe
