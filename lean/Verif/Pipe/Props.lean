import Verif.Pipe.Result
/-! C41, C42 and C43: pipelines. -/
namespace Verif.Pipe

/-- The callback of step `k` has failed for the task `x`, once `x` is finished. -/
def Failed (s : St) (k : Nat) (x : Task) : Prop := (k, x) ∈ s.runs ∧ (k, x) ∉ s.oks

/-- The task `x` is finished. -/
def Finished (s : St) (x : Task) : Prop := ∃ r, (x, r) ∈ s.fin

/-! ### Schedules, for examples -/

inductive Act
  | top (k : Nat) | callback (k : Nat) (ok : Bool) | finish (k : Nat) | resume (k : Nat)
  | insert (j : Nat) (x : Task) | wait (j limit : Nat) | destroy (j : Nat) | destroyResume (j : Nat) | joined (j : Nat)

/-- The state after an action. -/
def exec (s : St) : Act → Option St
  | .top k => match s.steps[k]? with
    | some ⟨.top, slot⟩ => some (top s k ⟨.top, slot⟩)
    | _ => none
  | .callback k ok => match s.steps[k]? with
    | some ⟨.run x, slot⟩ => some { s with steps := s.steps.set k ⟨.ret x ok, slot⟩, oks := if ok then s.oks ++ [(k, x)] else s.oks }
    | _ => none
  | .finish k => match s.steps[k]? with
    | some ⟨.ret x ok, slot⟩ => some (finishStep s k ⟨.ret x ok, slot⟩ x ok)
    | _ => none
  | .resume k => match s.steps[k]? with
    | some ⟨.wokenS x, slot⟩ => some (sendNext s k ⟨.wokenS x, slot⟩ x)
    | _ => none
  | .insert j x => if s.us[j]? = some .idle ∧ x ∉ s.acc then some (insert s x) else none
  | .wait j limit => if s.us[j]? = some .idle then some (wait s j limit) else none
  | .destroy j => if s.us[j]? = some .idle then some (destroy s j) else none
  | .destroyResume j => if s.us[j]? = some .dWoken then some (destroyWait s j) else none
  | .joined j => match s.us[j]? with
    | some (.dJoin i) => match s.steps[i]? with
      | some ⟨.dead, _⟩ => some (join s j (i + 1))
      | _ => none
    | _ => none

theorem exec_step {s s' : St} {act : Act} (h : exec s act = some s') : Step s s' := by
  cases act with
  | top k =>
    simp only [exec] at h
    split at h
    · rename_i slot e; cases h; exact .top e rfl
    · cases h
  | callback k ok =>
    simp only [exec] at h
    split at h
    · rename_i x slot e; cases h; exact .callback ok e rfl
    · cases h
  | finish k =>
    simp only [exec] at h
    split at h
    · rename_i x ok slot e; cases h; exact .finish e rfl
    · cases h
  | resume k =>
    simp only [exec] at h
    split at h
    · rename_i x slot e; cases h; exact .resume e rfl
    · cases h
  | insert j x =>
    simp only [exec] at h
    split at h
    · rename_i e; cases h; exact .insert e.1 e.2
    · cases h
  | wait j limit =>
    simp only [exec] at h
    split at h
    · rename_i e; cases h; exact .wait e
    · cases h
  | destroy j =>
    simp only [exec] at h
    split at h
    · rename_i e; cases h; exact .destroy e
    · cases h
  | destroyResume j =>
    simp only [exec] at h
    split at h
    · rename_i e; cases h; exact .destroyResume e
    · cases h
  | joined j =>
    simp only [exec] at h
    split at h
    · rename_i i e
      split at h
      · rename_i slot e2; cases h; exact .joined e e2 rfl
      · cases h
    · cases h

def execAll (s : St) : List Act → Option St
  | [] => some s
  | a :: l => (exec s a).bind (execAll · l)

theorem execAll_reach {b : Bool} {n m : Nat} {s s' : St} {l : List Act} (r : Reach b n m s) (h : execAll s l = some s') : Reach b n m s' := by
  induction l generalizing s with
  | nil => cases h; exact r
  | cons a l ih =>
    simp only [execAll] at h
    cases e : exec s a with
    | none => rw [e] at h; cases h
    | some s1 => rw [e] at h; exact ih (.step r (exec_step e)) h

/-! ### C41 -/

/-- The finish callback is called at most once for a task, only for accepted tasks, and the tasks not finished are those counted. -/
theorem finished_once {b : Bool} {n m : Nat} {s : St} (h : Reach b n m s) :
    (s.fin.map (·.1)).Nodup ∧ (∀ x, Finished s x → x ∈ s.acc) ∧ s.cnt = (s.acc.length : Int) - s.fin.length := by
  have I := reach_inv h
  refine ⟨?_, ?_, ?_⟩
  · rw [List.nodup_iff_count]
    intro x
    have h1 := I.count x
    have h2 := List.nodup_iff_count.1 I.nodup x
    omega
  · rintro x ⟨r, hr⟩
    have h1 := I.count x
    have h3 : 0 < (s.fin.map (·.1)).count x := List.count_pos_iff.2 (List.mem_map.2 ⟨_, hr, rfl⟩)
    exact List.count_pos_iff.1 (by omega)
  · have hp : s.acc.Perm (s.fin.map (·.1) ++ (line s.steps ++ s.queue)) := by
      rw [List.perm_iff_count]
      intro x
      rw [List.count_append]
      exact I.count x
    have := hp.length_eq
    rw [List.length_append, List.length_map] at this
    rw [I.cnt]
    omega

/-- The tasks that succeed finish in the order of insertion. -/
theorem success_order {b : Bool} {n m : Nat} {s : St} (h : Reach b n m s) : ((s.fin.filter (·.2 = .success)).map (·.1)).Sublist s.acc :=
  (List.sublist_append_left _ _).trans (reach_inv h).sub

/-- Every step sees the tasks in the order of insertion, and no task twice. -/
theorem step_order {b : Bool} {n m : Nat} {s : St} (h : Reach b n m s) (k : Nat) :
    ((s.runs.filter (·.1 = k)).map (·.2)).Sublist s.acc ∧ ((s.runs.filter (·.1 = k)).map (·.2)).Nodup := by
  have h1 : (runsOf s.runs k).Sublist s.acc := (List.sublist_append_left _ _).trans (reach_ord h k)
  exact ⟨h1, h1.nodup (reach_inv h).nodup⟩

/-- The callback of a step runs for a task only when all steps before have succeeded for it, and it has never run for it before. -/
theorem step_after {b : Bool} {n m : Nat} {s s' : St} (h : Reach b n m s) (st : Step s s') (k : Nat) (x : Task) (hr : (k, x) ∈ s'.runs)
    (hn : (k, x) ∉ s.runs) : k < n ∧ ∀ j, j < k → (j, x) ∈ s.oks := by
  have S := reach_stage h
  have R' := reach_result (.step h st)
  refine ⟨R'.range _ hr, ?_⟩
  cases st with
  | @top i a h1 ha =>
    unfold top at hr
    split at hr
    · refine absurd ?_ hn
      have e : (exitStep s i a).runs = s.runs := by
        unfold exitStep
        cases a.slot <;> dsimp only <;> split <;> simp [abortAll_eq, finishTask]
      rw [e] at hr; exact hr
    · unfold fetch at hr
      split at hr
      · rename_i y hy
        rcases List.mem_append.1 hr with hr | hr
        · exact absurd hr hn
        · simp only [List.mem_singleton, Prod.mk.injEq] at hr
          obtain ⟨rfl, rfl⟩ := hr
          exact (S.pass k a h1).before x (by simp [content, hy])
      · split at hr
        · rename_i hi
          split at hr
          · rcases List.mem_append.1 hr with hr | hr
            · exact absurd hr hn
            · simp only [List.mem_singleton, Prod.mk.injEq] at hr
              intro j hj
              omega
          · exact absurd hr hn
        · exact absurd hr hn
  | callback ok h1 ha => exact absurd hr hn
  | @finish i a y ok h1 ha =>
    refine absurd ?_ hn
    have e : (finishStep s i a y ok).runs = s.runs := by
      rw [← (failure_oks s ok).2]
      unfold finishStep
      dsimp only
      split
      · rfl
      · unfold sendNext
        split
        · rfl
        · split
          · rfl
          · split <;> rfl
    rw [e] at hr; exact hr
  | resume h1 ha =>
    refine absurd ?_ hn
    unfold sendNext at hr
    split at hr
    · exact hr
    · split at hr
      · exact hr
      · split at hr <;> exact hr
  | spurious => exact absurd hr hn
  | spuriousU h1 => exact absurd hr hn
  | insert h1 hx => unfold insert at hr; split at hr <;> exact absurd hr hn
  | wait h1 => unfold wait at hr; split at hr <;> exact absurd hr hn
  | waitResume h1 => unfold wait at hr; split at hr <;> exact absurd hr hn
  | destroy h1 => exact absurd hr hn
  | destroyResume h1 =>
    unfold destroyWait join at hr
    split at hr
    · split at hr <;> exact absurd hr hn
    · exact absurd hr hn
  | joined h1 h2 h3 => unfold join at hr; split at hr <;> exact absurd hr hn

/-- A task finishes with success only when every step has succeeded for it. -/
theorem success_all_steps {b : Bool} {n m : Nat} {s : St} (h : Reach b n m s) (x : Task) (hx : (x, Res.success) ∈ s.fin) : ∀ j, j < n → (j, x) ∈ s.oks :=
  (reach_stage h).done x hx

/-- Two tasks pass two steps, the second while the first is in the next step. -/
def run1 : List Act := [.insert 0 5, .insert 0 3, .top 0, .callback 0 true, .finish 0, .top 1, .top 0, .callback 1 true, .callback 0 true,
  .finish 0, .finish 1, .top 1, .callback 1 true, .finish 1, .top 1, .top 0]

example : ∃ s, Reach false 2 1 s ∧ s.fin = [(5, .success), (3, .success)] ∧ s.runs = [(0, 5), (1, 5), (0, 3), (1, 3)] ∧ s.cnt = 0 :=
  ⟨(execAll (init false 2 1) run1).get rfl, execAll_reach (l := run1) .init rfl, rfl, rfl, rfl⟩

/-! ### C42 -/

/-- No thread can go on by itself: the threads of the steps sleep or have ended and the users sleep, wait for a thread that has not
ended, or do not use the pipeline. -/
def Quiet (s : St) : Prop :=
  (∀ (k : Nat) (a : Stp), s.steps[k]? = some a → a.pc = .sleepF ∨ (∃ x, a.pc = .sleepS x) ∨ a.pc = .dead) ∧
  (∀ u ∈ s.us, (∀ l, u ≠ .wWoken l) ∧ u ≠ .dWoken ∧ ∀ i, u = .dJoin i → ∃ a : Stp, s.steps[i]? = some a ∧ a.pc ≠ .dead)

/-- When it is not quiet, some thread can go on by itself. -/
theorem not_quiet {b : Bool} {n m : Nat} {s : St} (h : Reach b n m s) (hq : ¬Quiet s) :
    (∃ (k : Nat) (a : Stp), s.steps[k]? = some a ∧ (a.pc = .top ∨ (∃ x, a.pc = .run x) ∨ (∃ x ok, a.pc = .ret x ok) ∨ ∃ x, a.pc = .wokenS x)) ∨
    (∃ (j : Nat) (u : U), s.us[j]? = some u ∧ ((∃ l, u = .wWoken l) ∨ u = .dWoken ∨ ∃ i, u = .dJoin i ∧ deadAt s.steps i)) := by
  apply Classical.byContradiction
  intro hc
  simp only [not_or, not_exists, not_and] at hc
  obtain ⟨h1, h2⟩ := hc
  apply hq
  refine ⟨fun k a ha => ?_, fun u hu => ?_⟩
  · have := h1 k a ha
    obtain ⟨pc, slot⟩ := a
    cases pc <;> simp_all
  · obtain ⟨j, hj⟩ := List.getElem?_of_mem hu
    have h3 := h2 j u hj
    refine ⟨h3.1, h3.2.1, fun i hi => ?_⟩
    have hlt := ((reach_live h).users u hu).dJoin i hi
    have hlen := (reach_live h).len
    have hget : s.steps[i]? = some (s.steps[i]'(by omega)) := List.getElem?_eq_getElem _
    refine ⟨_, hget, fun hd => h3.2.2 i hi ⟨_, hget, hd⟩⟩

theorem all_finished {b : Bool} {n m : Nat} {s : St} (h : Reach b n m s) (h1 : line s.steps = []) (h2 : s.queue = []) :
    s.cnt = 0 ∧ ∀ x ∈ s.acc, Finished s x := by
  have I := reach_inv h
  refine ⟨by rw [I.cnt, h1, h2]; rfl, fun x hx => ?_⟩
  have h3 := I.count x
  rw [h1, h2] at h3
  have h4 : 0 < s.acc.count x := List.count_pos_iff.2 hx
  simp only [List.append_nil, List.count_nil] at h3
  obtain ⟨p, hp, rfl⟩ := List.mem_map.1 (List.count_pos_iff.1 (show 0 < (s.fin.map (·.1)).count x by omega))
  exact ⟨p.2, hp⟩

/-- While the pipeline is up, the threads stop only when every accepted task is finished, and nobody is left waiting. -/
theorem up_completes {b : Bool} {n m : Nat} {s : St} (h : Reach b n m s) (hn : 0 < n) (hu : s.status = true) (hq : Quiet s) :
    (∀ x ∈ s.acc, Finished s x) ∧ ∀ u ∈ s.us, u = .idle := by
  have L := reach_live h
  have hsleep : ∀ d k : Nat, k + d + 1 = n → ∀ a : Stp, s.steps[k]? = some a → a.pc = .sleepF ∧ a.slot = none := by
    intro d
    induction d with
    | zero =>
      intro k hk a ha
      have g := L.steps k a ha
      rcases hq.1 k a ha with e | ⟨x, e⟩ | e
      · exact ⟨e, (g.sleepF e).2.1⟩
      · have := (g.sleepS x e).1; omega
      · have := (g.dead e).1; rw [hu] at this; cases this
    | succ d ih =>
      intro k hk a ha
      have g := L.steps k a ha
      rcases hq.1 k a ha with e | ⟨x, e⟩ | e
      · exact ⟨e, (g.sleepF e).2.1⟩
      · obtain ⟨y, hy⟩ := (g.sleepS x e).2 hu
        unfold slotAt at hy
        cases e2 : s.steps[k + 1]? with
        | none => rw [e2] at hy; cases hy
        | some c =>
          rw [e2] at hy
          have := (ih (k + 1) (by omega) c e2).2
          simp [this] at hy
      · have := (g.dead e).1; rw [hu] at this; cases this
  have hlen := L.len
  have hline : line s.steps = [] := by
    apply line_nil
    intro k a ha
    have := hsleep (n - 1 - k) k (by have := lt_of_get ha; omega) a ha
    simp [content, this.1, this.2, hold]
  have hqueue : s.queue = [] := by
    have hget : s.steps[0]? = some (s.steps[0]'(by omega)) := List.getElem?_eq_getElem _
    exact ((L.steps 0 _ hget).sleepF (hsleep (n - 1) 0 (by omega) _ hget).1).2.2 rfl
  have hall := all_finished h hline hqueue
  refine ⟨hall.2, fun u hus => ?_⟩
  have g := L.users u hus
  have q := hq.2 u hus
  cases u with
  | idle => rfl
  | wSleep l => have := g.wSleep l rfl; omega
  | wWoken l => exact absurd rfl (q.1 l)
  | dSleep => have := (g.dSleep rfl).2; rw [hu] at this; cases this
  | dWoken => exact absurd rfl q.2.1
  | dJoin i => have := (g.dJoin i rfl).1; rw [hu] at this; cases this
  | dDone => have := ((reach_joined h _ hus).done rfl).1; rw [hu] at this; cases this

/-- After a shutdown, the threads stop only when every accepted task is finished, every thread has ended and every call has returned,
unless a step still waits to hand a task to the next step.  Missing: the last condition, which does fail, see `shutdown_blocks`. -/
theorem shutdown_completes_partial {b : Bool} {n m : Nat} {s : St} (h : Reach b n m s) (hn : 0 < n) (hd : s.status = false) (hq : Quiet s)
    (hs : ∀ (k : Nat) (a : Stp) (x : Task), s.steps[k]? = some a → a.pc ≠ .sleepS x) :
    (∀ x ∈ s.acc, Finished s x) ∧ (∀ a ∈ s.steps, a.pc = .dead) ∧ ∀ u ∈ s.us, u = .idle ∨ u = .dDone := by
  have L := reach_live h
  have hlen := L.len
  have hdead : ∀ (k : Nat) (a : Stp), s.steps[k]? = some a → a.pc = .dead := by
    intro k a ha
    rcases hq.1 k a ha with e | ⟨x, e⟩ | e
    · have := ((L.steps k a ha).sleepF e).1; rw [hd] at this; cases this
    · exact absurd e (hs k a x ha)
    · exact e
  have hline : line s.steps = [] := by
    apply line_nil
    intro k a ha
    have h1 := hdead k a ha
    simp [content, h1, hold, ((L.steps k a ha).dead h1).2.1]
  have hget : s.steps[0]? = some (s.steps[0]'(by omega)) := List.getElem?_eq_getElem _
  have hqueue : s.queue = [] := ((L.steps 0 _ hget).dead (hdead 0 _ hget)).2.2 rfl
  have hall := all_finished h hline hqueue
  refine ⟨hall.2, fun a ha => ?_, fun u hus => ?_⟩
  · obtain ⟨k, hk⟩ := List.getElem?_of_mem ha
    exact hdead k a hk
  · have g := L.users u hus
    have q := hq.2 u hus
    cases u with
    | idle => exact Or.inl rfl
    | wSleep l => have := g.wSleep l rfl; omega
    | wWoken l => exact absurd rfl (q.1 l)
    | dSleep => have := (g.dSleep rfl).1; omega
    | dWoken => exact absurd rfl q.2.1
    | dJoin i =>
      obtain ⟨a, h1, h2⟩ := q.2.2 i rfl
      exact absurd (hdead i a h1) h2
    | dDone => exact Or.inr rfl

/-- The shutdown of a pipeline with one step completes. -/
theorem shutdown_one_step_partial {b : Bool} {m : Nat} {s : St} (h : Reach b 1 m s) (hd : s.status = false) (hq : Quiet s) :
    (∀ x ∈ s.acc, Finished s x) ∧ (∀ a ∈ s.steps, a.pc = .dead) ∧ ∀ u ∈ s.us, u = .idle ∨ u = .dDone := by
  refine shutdown_completes_partial h (by omega) hd hq ?_
  intro k a x ha e
  have := (((reach_live h).steps k a ha).sleepS x e).1
  omega

/-- When `M_thread_pipeline_destroy` has returned, every accepted task is finished and every thread has ended, so that the pipeline can
be freed. -/
theorem destroy_returns {b : Bool} {n m : Nat} {s : St} (h : Reach b n m s) (hu : .dDone ∈ s.us) :
    (∀ x ∈ s.acc, Finished s x) ∧ ∀ a ∈ s.steps, a.pc = .dead := by
  obtain ⟨h1, h2, h3⟩ := (reach_joined h _ hu).done rfl
  have I := reach_inv h
  have hnil : line s.steps ++ s.queue = [] := List.length_eq_zero_iff.1 (by have := I.cnt; omega)
  have hnil := List.append_eq_nil_iff.1 hnil
  refine ⟨(all_finished h hnil.1 hnil.2).2, fun a ha => ?_⟩
  obtain ⟨k, hk⟩ := List.getElem?_of_mem ha
  obtain ⟨c, h4, h5⟩ := h3 k (by have := lt_of_get hk; have := (reach_live h).len; omega)
  rw [hk] at h4
  cases h4
  exact h5

/-- A schedule that ends with `M_thread_pipeline_destroy` returning while a task was queued. -/
def run2 : List Act := [.insert 0 5, .insert 0 3, .top 0, .destroy 0, .destroyResume 0, .callback 0 true, .finish 0, .top 0, .destroyResume 0, .joined 0]

example : ∃ s, Reach false 1 1 s ∧ s.us = [.dDone] ∧ s.fin = [(5, .success), (3, .abort)] ∧ s.status = false :=
  ⟨(execAll (init false 1 1) run2).get rfl, execAll_reach (l := run2) .init rfl, rfl, rfl, rfl⟩

/-- The first step has a task to hand over while the second has one waiting.  The shutdown wakes the first step, which finds the waiting
task still there and sleeps again; the second step ends and aborts its waiting task without waking the first step. -/
def run3 : List Act := [.insert 0 5, .insert 0 3, .insert 0 8, .top 0, .callback 0 true, .finish 0, .top 1, .top 0, .callback 0 true, .finish 0,
  .top 0, .callback 0 true, .finish 0, .destroy 0, .resume 0, .callback 1 true, .finish 1, .top 1, .destroyResume 0]

/-- Shutting a pipeline down can block for ever, with a task that is never finished. -/
theorem shutdown_blocks : ∃ s, Reach false 2 1 s ∧ s.status = false ∧ Quiet s ∧ s.us = [.dSleep] ∧ 8 ∈ s.acc ∧ ¬Finished s 8 := by
  refine ⟨(execAll (init false 2 1) run3).get rfl, execAll_reach (l := run3) .init rfl, rfl, ?_, rfl, ?_, ?_⟩
  · have e : ((execAll (init false 2 1) run3).get rfl).steps = [⟨.sleepS 8, none⟩, ⟨.dead, none⟩] := rfl
    have e2 : ((execAll (init false 2 1) run3).get rfl).us = [.dSleep] := rfl
    refine ⟨?_, ?_⟩
    · intro k a h
      rw [e] at h
      match k with
      | 0 => cases h; exact Or.inr (Or.inl ⟨8, rfl⟩)
      | 1 => cases h; exact Or.inr (Or.inr rfl)
      | k + 2 => cases h
    · intro u hu
      rw [e2] at hu
      rw [List.mem_singleton] at hu
      subst hu
      simp
  · have e : ((execAll (init false 2 1) run3).get rfl).acc = [5, 3, 8] := rfl
    rw [e]; simp
  · rintro ⟨r, hr⟩
    have e : ((execAll (init false 2 1) run3).get rfl).fin = [(5, .success), (3, .abort)] := rfl
    rw [e] at hr
    simp at hr

/-! ### C43 -/

/-- While the pipeline is up, FAIL is reported exactly for the tasks for which a callback has failed, and ABORT never.  When it is down,
FAIL and ABORT both occur.  Missing: which of the two, see `failure_reported_as_abort` and `abort_reported_as_failure`. -/
theorem results_partial {b : Bool} {n m : Nat} {s : St} (h : Reach b n m s) (x : Task) (r : Res) (hx : (x, r) ∈ s.fin) :
    (r = .success → ∀ k, ¬Failed s k x) ∧ (s.status = true → r ≠ .abort ∧ (r = .fail ↔ ∃ k, Failed s k x)) := by
  have R := reach_result h
  have h1 : r = .success → ∀ k, ¬Failed s k x := by
    rintro rfl k ⟨h1, h2⟩
    exact h2 ((reach_stage h).done x hx k (R.range _ h1))
  refine ⟨h1, fun hu => ⟨?_, ?_, ?_⟩⟩
  · rintro rfl
    have := R.abort x hx
    rw [hu] at this; cases this
  · rintro rfl
    rcases R.fail x hx with h2 | ⟨k, h2⟩
    · rw [hu] at h2; cases h2
    · exact ⟨k, h2⟩
  · rintro ⟨k, hk⟩
    cases r with
    | fail => rfl
    | success => exact absurd hk (h1 rfl k)
    | abort => have := R.abort x hx; rw [hu] at this; cases this

/-- With `M_THREAD_PIPELINE_FLAG_NOABORT` a task fails in the first step and the next one passes. -/
def run4 : List Act := [.insert 0 5, .insert 0 3, .top 0, .callback 0 false, .finish 0, .top 0, .callback 0 true, .finish 0, .top 1, .callback 1 true, .finish 1]

example : ∃ s, Reach true 2 1 s ∧ s.status = true ∧ s.fin = [(5, .fail), (3, .success)] ∧ Failed s 0 5 := by
  refine ⟨(execAll (init true 2 1) run4).get rfl, execAll_reach (l := run4) .init rfl, rfl, rfl, ?_⟩
  have e : ((execAll (init true 2 1) run4).get rfl).runs = [(0, 5), (0, 3), (1, 3)] := rfl
  have e2 : ((execAll (init true 2 1) run4).get rfl).oks = [(0, 3), (1, 3)] := rfl
  unfold Failed
  rw [e, e2]
  simp

/-- The task whose own callback fails is reported as aborted when the step is not the last one. -/
theorem failure_reported_as_abort : ∃ s, Reach false 2 1 s ∧ s.fin = [(5, .abort)] ∧ s.runs = [(0, 5)] ∧ s.oks = [] :=
  ⟨(execAll (init false 2 1) [.insert 0 5, .top 0, .callback 0 false, .finish 0]).get rfl,
    execAll_reach (l := [.insert 0 5, .top 0, .callback 0 false, .finish 0]) .init rfl, rfl, rfl, rfl⟩

/-- A task dropped by a shutdown after every callback called for it has succeeded is reported as failed. -/
def run5 : List Act := [.insert 0 5, .insert 0 3, .insert 0 8, .top 0, .callback 0 true, .finish 0, .top 1, .top 0, .callback 0 true, .finish 0,
  .top 0, .callback 0 true, .finish 0, .destroy 0, .callback 1 true, .finish 1, .top 1, .resume 0]

theorem abort_reported_as_failure : ∃ s, Reach false 2 1 s ∧ s.fin = [(5, .success), (3, .abort), (8, .fail)] ∧ ∀ k, ¬Failed s k 8 := by
  refine ⟨(execAll (init false 2 1) run5).get rfl, execAll_reach (l := run5) .init rfl, rfl, ?_⟩
  rintro k ⟨h1, h2⟩
  have e : ((execAll (init false 2 1) run5).get rfl).runs = [(0, 5), (1, 5), (0, 3), (0, 8)] := rfl
  have e2 : ((execAll (init false 2 1) run5).get rfl).oks = [(0, 5), (0, 3), (0, 8), (1, 5)] := rfl
  rw [e] at h1
  rw [e2] at h2
  simp at h1 h2
  omega

end Verif.Pipe
