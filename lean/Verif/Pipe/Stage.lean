import Verif.Pipe.Live
/-! The order in which the steps see the tasks, and the steps that a task has passed. -/
namespace Verif.Pipe

/-- The tasks for which the callback of step `k` has been called, in order. -/
def runsOf (runs : List (Nat × Task)) (k : Nat) : List Task := (runs.filter (·.1 = k)).map (·.2)

/-- The tasks in the steps that step `k` has still to see, in order. -/
def up (k : Nat) (steps : List Stp) : List Task := ((slotAt steps k).getD none).toList ++ line (steps.take k)

theorem line_congr {l l' : List Stp} (h : l.map content = l'.map content) : line l = line l' := by
  induction l generalizing l' with
  | nil => cases l' with
    | nil => rfl
    | cons b l' => simp at h
  | cons a l ih => cases l' with
    | nil => simp at h
    | cons b l' =>
      simp only [List.map_cons, List.cons.injEq] at h
      simp only [line, h.1, ih h.2]

theorem up_congr {steps steps' : List Stp} (h1 : ∀ k, slotAt steps' k = slotAt steps k) (h2 : steps'.map content = steps.map content) (k : Nat) :
    up k steps' = up k steps := by
  unfold up
  rw [h1, line_congr (l := steps'.take k) (l' := steps.take k) (by rw [List.map_take, List.map_take, h2])]

theorem map_set_same {α β : Type} {f : α → β} {l : List α} {k : Nat} {a b : α} (h : l[k]? = some a) (hf : f b = f a) : (l.set k b).map f = l.map f := by
  rw [List.map_set, hf]
  apply List.ext_getElem?
  intro i
  by_cases e : k = i
  · subst e
    rw [List.getElem?_set_self (by rw [List.length_map]; exact lt_of_get h), List.getElem?_map, h]
    rfl
  · rw [List.getElem?_set_ne e]

theorem map_content_signal (j : Nat) (steps : List Stp) : (signal j steps).map content = steps.map content := by
  apply List.ext_getElem?
  intro i
  rw [List.getElem?_map, List.getElem?_map, get_signal]
  split
  · rw [Option.map_map]
    congr 1
    funext a
    exact wake_content a
  · rfl

theorem up_signal (j : Nat) (steps : List Stp) (k : Nat) : up k (signal j steps) = up k steps :=
  up_congr (slotAt_signal j steps) (map_content_signal j steps) k

theorem up_signalPrev (j : Nat) (steps : List Stp) (k : Nat) : up k (signalPrev j steps) = up k steps := by
  unfold signalPrev
  split
  · exact up_signal _ _ _
  · rfl

theorem up_map (steps : List Stp) (k : Nat) : up k (steps.map wake) = up k steps := by
  apply up_congr (slotAt_map steps)
  rw [List.map_map]
  congr 1
  funext a
  exact wake_content a

theorem up_set_same {steps : List Stp} {i : Nat} {a b : Stp} (h : steps[i]? = some a) (hs : b.slot = a.slot) (hc : hold b.pc = hold a.pc) (k : Nat) :
    up k (steps.set i b) = up k steps :=
  up_congr (slotAt_set_same h hs) (map_set_same h (by simp [content, hs, hc])) k

theorem up_set_lt {steps : List Stp} {i k : Nat} {b : Stp} (h : k < i) : up k (steps.set i b) = up k steps := by
  unfold up
  rw [slotAt_set _ _ _ _ (by omega), List.take_set, List.set_eq_of_length_le (by rw [List.length_take]; omega)]

theorem up_self {steps : List Stp} {k : Nat} {a : Stp} (h : steps[k]? = some a) : up k steps = a.slot.toList ++ line (steps.take k) := by
  unfold up slotAt
  rw [h]
  rfl

theorem up_set_self {steps : List Stp} {k : Nat} {a b : Stp} (h : steps[k]? = some a) : up k (steps.set k b) = b.slot.toList ++ line (steps.take k) := by
  have h1 : (steps.set k b)[k]? = some b := List.getElem?_set_self (lt_of_get h)
  rw [up_self h1, List.take_set, List.set_eq_of_length_le (by rw [List.length_take]; omega)]

theorem take_get {steps : List Stp} {i k : Nat} {a : Stp} (h : steps[i]? = some a) (hk : i < k) : (steps.take k)[i]? = some a := by
  rw [List.getElem?_take_of_lt hk]; exact h

/-- A step that takes its waiting task. -/
theorem up_take {steps : List Stp} {k i : Nat} {a b : Stp} (h : steps[k]? = some a) (hc : content b = content a) (hi : i ≠ k) :
    up i (steps.set k b) = up i steps := by
  by_cases e : i < k
  · exact up_set_lt e
  · unfold up
    rw [slotAt_set _ _ _ _ (by omega), List.take_set, line_set_same (take_get h (by omega)) hc]

/-- A step that loses its first task. -/
theorem up_drop {steps : List Stp} {k i : Nat} {a b : Stp} {x : Task} (h : steps[k]? = some a) (hc : content a = x :: content b)
    (hs : b.slot = a.slot ∨ b.slot = none) : (up i (steps.set k b)).Sublist (up i steps) := by
  by_cases e : i < k
  · rw [up_set_lt e]
    exact List.Sublist.refl _
  · by_cases e2 : i = k
    · subst e2
      rw [up_set_self h, up_self h]
      rcases hs with hs | hs
      · rw [hs]; exact List.Sublist.refl _
      · rw [hs]; exact List.sublist_append_right _ _
    · unfold up
      rw [slotAt_set _ _ _ _ (by omega), List.take_set]
      obtain ⟨l1, l2, h1, h2⟩ := line_drop (take_get h (show k < i by omega)) hc
      rw [h1, h2]
      exact List.Sublist.append (List.Sublist.refl _) (List.Sublist.append (List.Sublist.refl _) (List.sublist_cons_self _ _))

/-- A task sent to the next step. -/
theorem up_send {steps : List Stp} {k i : Nat} {a b a' b' : Stp} {x : Task} (ha : steps[k]? = some a) (hb : steps[k + 1]? = some b)
    (hc : content a = x :: content a') (hd : content b' = content b ++ [x]) (hb0 : b.slot = none) (hb1 : b'.slot = some x) (hs : a'.slot = a.slot) :
    up i ((steps.set k a').set (k + 1) b') = up i steps := by
  have hlk := lt_of_get hb
  by_cases e : i < k + 1
  · rw [up_set_lt e]
    by_cases e2 : i < k
    · rw [up_set_lt e2]
    · have : i = k := by omega
      subst this
      rw [up_set_self ha, up_self ha, hs]
  · by_cases e2 : i = k + 1
    · subst e2
      have h1 : (steps.set k a')[k + 1]? = some b := by rw [List.getElem?_set_ne (by omega)]; exact hb
      rw [up_set_self h1, up_self hb, hb0, hb1, List.take_set]
      rw [line_last (steps := steps.take (k + 1)) (b := a') (take_get ha (by omega)) (by rw [List.length_take]; omega) hc]
      rfl
    · unfold up
      rw [slotAt_set _ _ _ _ (by omega), slotAt_set _ _ _ _ (by omega), List.take_set, List.take_set,
        line_send (take_get ha (by omega)) (take_get hb (by omega)) hc hd]

/-- The steps see the tasks in order. -/
def Ord (s : St) : Prop := ∀ i, (runsOf s.runs i ++ (up i s.steps ++ s.queue)).Sublist s.acc

theorem Ord.same {s s' : St} (O : Ord s) (h1 : s'.acc = s.acc) (h2 : s'.runs = s.runs) (h3 : ∀ i, (up i s'.steps).Sublist (up i s.steps))
    (h4 : s'.queue.Sublist s.queue) : Ord s' := by
  intro i
  rw [h1, h2]
  exact (List.Sublist.append (List.Sublist.refl _) (List.Sublist.append (h3 i) h4)).trans (O i)

theorem runsOf_append (runs : List (Nat × Task)) (k i : Nat) (x : Task) : runsOf (runs ++ [(k, x)]) i = runsOf runs i ++ if k = i then [x] else [] := by
  unfold runsOf
  rw [List.filter_append, List.map_append]
  congr 1
  by_cases h : k = i <;> simp [h]

theorem fetch_ord {s : St} {k : Nat} {a : Stp} (O : Ord s) (h : s.steps[k]? = some a) (ha : a.pc = .top) : Ord (fetch s k a) := by
  unfold fetch
  split
  · rename_i x hx
    intro i
    dsimp only
    rw [up_signalPrev, runsOf_append]
    by_cases e : k = i
    · subst e
      have := O k
      rw [up_self h, hx] at this
      rw [up_set_self h, if_pos rfl]
      simpa using this
    · rw [if_neg e, up_take h (by simp [content, ha, hx, hold]) (Ne.symm e), List.append_nil]
      exact O i
  · rename_i hx
    split
    · rename_i hk
      subst hk
      split
      · rename_i x q hq
        intro i
        dsimp only
        rw [runsOf_append]
        have := O i
        rw [hq] at this
        by_cases e : 0 = i
        · subst e
          rw [up_self h, hx] at this
          rw [up_set_self h, if_pos rfl]
          simpa [line] using this
        · rw [if_neg e, List.append_nil]
          unfold up at this ⊢
          rw [slotAt_set _ _ _ _ e, List.take_set, line_first (take_get h (by omega)) (x := x) (by simp [content, ha, hx, hold])]
          simpa using this
      · refine O.same rfl rfl (fun i => ?_) (List.Sublist.refl _)
        rw [up_set_same h hx.symm (by rw [ha]; rfl)]
        exact List.Sublist.refl _
    · refine O.same rfl rfl (fun i => ?_) (List.Sublist.refl _)
      dsimp only
      rw [up_signalPrev, up_set_same h hx.symm (by rw [ha]; rfl)]
      exact List.Sublist.refl _

theorem exitStep_ord {s : St} {k : Nat} {a : Stp} (O : Ord s) (h : s.steps[k]? = some a) (ha : a.pc = .top) : Ord (exitStep s k a) := by
  have e1 : (exitStep s k a).acc = s.acc ∧ (exitStep s k a).runs = s.runs ∧ (exitStep s k a).steps = s.steps.set k ⟨.dead, none⟩ ∧
      (exitStep s k a).queue.Sublist s.queue := by
    unfold exitStep
    cases a.slot <;> dsimp only <;> split <;> simp [abortAll_eq, finishTask]
  refine O.same e1.1 e1.2.1 (fun i => ?_) e1.2.2.2
  rw [e1.2.2.1]
  cases hs : a.slot with
  | none =>
    rw [up_set_same h hs.symm (by rw [ha]; rfl)]
    exact List.Sublist.refl _
  | some x => exact up_drop (x := x) h (by simp [content, ha, hs, hold]) (Or.inr rfl)

theorem sendNext_ord {s : St} {k : Nat} {a : Stp} {x : Task} (O : Ord s) (h : s.steps[k]? = some a) (ha : hold a.pc = [x]) : Ord (sendNext s k a x) := by
  have hc : content a = x :: content { a with pc := .top } := by simp [content, ha, show hold .top = [] from rfl]
  unfold sendNext
  split
  · exact O
  · rename_i b hb
    split
    · refine O.same rfl rfl (fun i => ?_) (List.Sublist.refl _)
      dsimp only
      rw [up_set_same (b := { a with pc := .sleepS x }) h rfl (by rw [ha]; rfl)]
      exact List.Sublist.refl _
    · rename_i hs
      have hbs : b.slot = none := Classical.byContradiction hs
      split
      · exact O.same rfl rfl (fun i => up_drop h hc (Or.inl rfl)) (List.Sublist.refl _)
      · refine O.same rfl rfl (fun i => ?_) (List.Sublist.refl _)
        dsimp only
        rw [up_signal, up_send h hb hc (by simp [content, hbs]) hbs rfl rfl]
        exact List.Sublist.refl _

theorem failure_ord {s : St} (O : Ord s) (ok : Bool) : Ord (failure s ok) := by
  unfold failure
  split
  · refine O.same rfl rfl (fun i => ?_) (List.Sublist.refl _)
    dsimp only
    rw [up_map]
    exact List.Sublist.refl _
  · exact O

theorem finishStep_ord {s : St} {k : Nat} {a : Stp} {x : Task} {ok : Bool} (O : Ord s) (h : s.steps[k]? = some a) (ha : a.pc = .ret x ok) :
    Ord (finishStep s k a x ok) := by
  have O1 := failure_ord O ok
  have h1 := failure_get (ok := ok) h ha
  have hc : content a = x :: content { a with pc := .top } := by simp [content, ha, hold]
  unfold finishStep
  dsimp only
  split
  · exact O1.same rfl rfl (fun i => up_drop h1 hc (Or.inl rfl)) (List.Sublist.refl _)
  · exact sendNext_ord O1 h1 (by rw [ha]; rfl)

theorem wait_ord {s : St} (O : Ord s) (j l : Nat) : Ord (wait s j l) := by
  unfold wait
  split <;> exact O.same rfl rfl (fun _ => List.Sublist.refl _) (List.Sublist.refl _)

theorem join_ord {s : St} (O : Ord s) (j i : Nat) : Ord (join s j i) := by
  unfold join
  split
  · refine O.same rfl rfl (fun i' => ?_) (List.Sublist.refl _)
    dsimp only
    rw [up_signal]
    exact List.Sublist.refl _
  · exact O.same rfl rfl (fun _ => List.Sublist.refl _) (List.Sublist.refl _)

theorem step_ord {s s' : St} (O : Ord s) (st : Step s s') : Ord s' := by
  cases st with
  | top h ha =>
    unfold top
    split
    · exact exitStep_ord O h ha
    · exact fetch_ord O h ha
  | @callback k a x ok h ha =>
    refine O.same rfl rfl (fun i => ?_) (List.Sublist.refl _)
    dsimp only
    rw [up_set_same (b := { a with pc := .ret x ok }) h rfl (by rw [ha]; rfl)]
    exact List.Sublist.refl _
  | finish h ha => exact finishStep_ord O h ha
  | resume h ha => exact sendNext_ord O h (by rw [ha]; rfl)
  | spurious =>
    refine O.same rfl rfl (fun i => ?_) (List.Sublist.refl _)
    dsimp only
    rw [up_signal]
    exact List.Sublist.refl _
  | spuriousU h => exact O.same rfl rfl (fun _ => List.Sublist.refl _) (List.Sublist.refl _)
  | @insert j x h hx =>
    unfold insert
    split
    · exact O
    · intro i
      dsimp only
      rw [up_signal, ← List.append_assoc, ← List.append_assoc]
      refine List.Sublist.append ?_ (List.Sublist.refl _)
      rw [List.append_assoc]
      exact O i
  | wait h => exact wait_ord O _ _
  | waitResume h => exact wait_ord O _ _
  | destroy h =>
    refine O.same rfl rfl (fun i => ?_) (List.Sublist.refl _)
    show List.Sublist (up i (s.steps.map wake)) _
    rw [up_map]
    exact List.Sublist.refl _
  | destroyResume h =>
    unfold destroyWait
    split
    · exact join_ord O _ _
    · exact O.same rfl rfl (fun _ => List.Sublist.refl _) (List.Sublist.refl _)
  | joined h h1 h2 => exact join_ord O _ _

theorem reach_ord {b : Bool} {n m : Nat} {s : St} (h : Reach b n m s) : Ord s := by
  induction h with
  | init =>
    intro i
    have hl : line ((List.replicate n (⟨.top, none⟩ : Stp)).take i) = [] := by
      apply line_nil
      intro k a h
      rw [List.take_replicate, List.getElem?_replicate] at h
      split at h
      · cases h; rfl
      · cases h
    have hs : (slotAt (List.replicate n (⟨.top, none⟩ : Stp)) i).getD none = none := by
      unfold slotAt
      rw [List.getElem?_replicate]
      split <;> rfl
    simp only [init, up, hl, hs, runsOf]
    simp
  | step _ st ih => exact step_ord ih st

/-- The steps that the tasks of step `k` have passed. -/
structure Pass (oks runs : List (Nat × Task)) (k : Nat) (a : Stp) : Prop where
  before : ∀ x ∈ content a, ∀ j, j < k → (j, x) ∈ oks
  here : ∀ x, (a.pc = .ret x true ∨ a.pc = .sleepS x ∨ a.pc = .wokenS x) → (k, x) ∈ oks
  runs : ∀ x, a.pc = .run x → (k, x) ∈ runs

/-- The invariant about the steps passed. -/
structure Stage (n : Nat) (s : St) : Prop where
  pass : ∀ (k : Nat) (a : Stp), s.steps[k]? = some a → Pass s.oks s.runs k a
  done : ∀ x, (x, Res.success) ∈ s.fin → ∀ j, j < n → (j, x) ∈ s.oks
  called : ∀ p ∈ s.oks, p ∈ s.runs

theorem Pass.wake {oks runs : List (Nat × Task)} {k : Nat} {a : Stp} (p : Pass oks runs k a) : Pass oks runs k (wake a) := by
  obtain ⟨h1, h2, h3⟩ := p
  refine ⟨by rw [wake_content]; exact h1, ?_, ?_⟩ <;> obtain ⟨pc, slot⟩ := a <;> cases pc <;> simp_all [Verif.Pipe.wake]

theorem Pass.mono {oks oks' runs runs' : List (Nat × Task)} {k : Nat} {a : Stp} (p : Pass oks runs k a) (h1 : ∀ q ∈ oks, q ∈ oks')
    (h2 : ∀ q ∈ runs, q ∈ runs') : Pass oks' runs' k a :=
  ⟨fun x hx j hj => h1 _ (p.before x hx j hj), fun x h => h1 _ (p.here x h), fun x h => h2 _ (p.runs x h)⟩

theorem pass_set {oks runs : List (Nat × Task)} {steps : List Stp} {i : Nat} {b : Stp} (p : ∀ (k : Nat) (a : Stp), steps[k]? = some a → Pass oks runs k a)
    (hb : Pass oks runs i b) : ∀ (k : Nat) (a : Stp), (steps.set i b)[k]? = some a → Pass oks runs k a := by
  intro k a h
  by_cases e : i = k
  · subst e
    have hl := lt_of_get h
    rw [List.length_set] at hl
    rw [List.getElem?_set_self hl] at h
    cases h
    exact hb
  · rw [List.getElem?_set_ne e] at h
    exact p k a h

theorem pass_signal {oks runs : List (Nat × Task)} {steps : List Stp} (i : Nat) (p : ∀ (k : Nat) (a : Stp), steps[k]? = some a → Pass oks runs k a) :
    ∀ (k : Nat) (a : Stp), (signal i steps)[k]? = some a → Pass oks runs k a := by
  intro k a h
  rw [get_signal] at h
  split at h
  · cases e : steps[k]? with
    | none => rw [e] at h; cases h
    | some c =>
      rw [e] at h
      cases h
      exact (p k c e).wake
  · exact p k a h

theorem pass_signalPrev {oks runs : List (Nat × Task)} {steps : List Stp} (i : Nat) (p : ∀ (k : Nat) (a : Stp), steps[k]? = some a → Pass oks runs k a) :
    ∀ (k : Nat) (a : Stp), (signalPrev i steps)[k]? = some a → Pass oks runs k a := by
  unfold signalPrev
  split
  · exact pass_signal _ p
  · exact p

theorem pass_map {oks runs : List (Nat × Task)} {steps : List Stp} (p : ∀ (k : Nat) (a : Stp), steps[k]? = some a → Pass oks runs k a) :
    ∀ (k : Nat) (a : Stp), (steps.map wake)[k]? = some a → Pass oks runs k a := by
  intro k a h
  rw [List.getElem?_map] at h
  cases e : steps[k]? with
  | none => rw [e] at h; cases h
  | some c =>
    rw [e] at h
    cases h
    exact (p k c e).wake

theorem finishTask_stage {n : Nat} {s : St} (S : Stage n s) {x : Task} {r : Res} (h : r = .success → ∀ j, j < n → (j, x) ∈ s.oks) :
    Stage n (finishTask s x r) := by
  refine ⟨S.pass, ?_, S.called⟩
  intro y hy
  simp only [finishTask, List.mem_append, List.mem_singleton, Prod.mk.injEq] at hy
  rcases hy with hy | ⟨rfl, rfl⟩
  · exact S.done y hy
  · exact h rfl

theorem set_stage {n : Nat} {s : St} (S : Stage n s) {k : Nat} {b : Stp} (hb : Pass s.oks s.runs k b) : Stage n { s with steps := s.steps.set k b } :=
  ⟨pass_set S.pass hb, S.done, S.called⟩

theorem fetch_stage {n : Nat} {s : St} {k : Nat} {a : Stp} (S : Stage n s) (h : s.steps[k]? = some a) : Stage n (fetch s k a) := by
  obtain ⟨p, d, c⟩ := S
  have hrun : ∀ (x : Task), (∀ j, j < k → (j, x) ∈ s.oks) → Pass s.oks (s.runs ++ [(k, x)]) k ⟨.run x, none⟩ := by
    intro x hx
    refine ⟨fun y hy => ?_, by simp, fun y hy => ?_⟩
    · simp [content, hold] at hy
      rw [hy]; exact hx
    · cases hy; simp
  have hmono : ∀ (x : Task), ∀ (i : Nat) (b : Stp), s.steps[i]? = some b → Pass s.oks (s.runs ++ [(k, x)]) i b := fun x i b hb =>
    (p i b hb).mono (fun _ h => h) (fun _ h => List.mem_append_left _ h)
  unfold fetch
  split
  · rename_i x hx
    refine ⟨?_, d, fun q hq => List.mem_append_left _ (c q hq)⟩
    exact pass_signalPrev k (pass_set (hmono x) (hrun x ((p k a h).before x (by simp [content, hx]))))
  · rename_i hx
    have hsleep : Pass s.oks s.runs k ⟨.sleepF, none⟩ := ⟨by simp [content, hold], by simp, by simp⟩
    split
    · rename_i hk
      subst hk
      split
      · rename_i x q hq
        exact ⟨pass_set (hmono x) (hrun x (by omega)), d, fun q hq => List.mem_append_left _ (c q hq)⟩
      · exact ⟨pass_set p hsleep, d, c⟩
    · exact ⟨pass_signalPrev k (pass_set p hsleep), d, c⟩

theorem exitStep_stage {n : Nat} {s : St} {k : Nat} {a : Stp} (S : Stage n s) : Stage n (exitStep s k a) := by
  have hdead : Pass s.oks s.runs k ⟨.dead, none⟩ := ⟨by simp [content, hold], by simp, by simp⟩
  have key : ∀ s1 : St, Stage n s1 → s1.oks = s.oks → s1.runs = s.runs →
      Stage n { (if k = 0 then abortAll s1 s1.queue else s1) with steps := (if k = 0 then abortAll s1 s1.queue else s1).steps.set k ⟨.dead, none⟩ } := by
    intro s1 S1 e1 e2
    rw [← e1, ← e2] at hdead
    split
    · rw [abortAll_eq]
      refine ⟨pass_set S1.pass hdead, ?_, S1.called⟩
      intro x hx
      simp only [List.mem_append, List.mem_map, Prod.mk.injEq] at hx
      rcases hx with hx | ⟨y, _, _, hy⟩
      · exact S1.done x hx
      · cases hy
    · exact set_stage S1 hdead
  obtain ⟨pc, slot⟩ := a
  cases slot with
  | none => exact key s S rfl rfl
  | some x => exact key (finishTask s x .abort) (finishTask_stage S (by simp)) rfl rfl

theorem sendNext_stage {n : Nat} {s : St} {k : Nat} {a : Stp} {x : Task} (S : Stage n s) (h : s.steps[k]? = some a) (ha : hold a.pc = [x])
    (hx : (k, x) ∈ s.oks) : Stage n (sendNext s k a x) := by
  have pa := S.pass k a h
  have hbef : ∀ y ∈ a.slot.toList, ∀ j, j < k → (j, y) ∈ s.oks := fun y hy => pa.before y (by simp only [content, List.mem_append]; exact Or.inr hy)
  have hxb : ∀ j, j < k → (j, x) ∈ s.oks := pa.before x (by simp [content, ha])
  have ptop : Pass s.oks s.runs k { a with pc := .top } := ⟨by simpa [content, hold] using hbef, by simp, by simp⟩
  unfold sendNext
  split
  · exact S
  · rename_i b hb
    split
    · refine set_stage S ⟨?_, ?_, by simp⟩
      · intro y hy
        simp only [content, hold, List.mem_append, List.mem_singleton] at hy
        rcases hy with rfl | hy
        · exact hxb
        · exact hbef y hy
      · intro y hy
        simp at hy
        rw [← hy]; exact hx
    · rename_i hs
      split
      · exact finishTask_stage (set_stage S ptop) (by simp)
      · refine ⟨pass_signal _ (pass_set (pass_set S.pass ptop) ?_), S.done, S.called⟩
        have pb := S.pass (k + 1) b hb
        refine ⟨?_, pb.here, pb.runs⟩
        intro y hy
        simp only [content, List.mem_append, Option.toList, List.mem_singleton] at hy
        rcases hy with hy | rfl
        · exact pb.before y (by simp [content, hy])
        · intro j hj
          by_cases e : j = k
          · rw [e]; exact hx
          · exact hxb j (by omega)

theorem failure_stage {n : Nat} {s : St} (S : Stage n s) (ok : Bool) : Stage n (failure s ok) := by
  unfold failure
  split
  · exact ⟨pass_map S.pass, S.done, S.called⟩
  · exact S

theorem failure_oks (s : St) (ok : Bool) : (failure s ok).oks = s.oks ∧ (failure s ok).runs = s.runs := by
  unfold failure
  split <;> exact ⟨rfl, rfl⟩

theorem result_success {s : St} {k : Nat} {ok : Bool} (h : result s k ok = .success) : ok = true := by
  unfold result at h
  split at h
  · cases h
  · cases ok
    · cases h
    · rfl

theorem finishStep_stage {n : Nat} {s : St} {k : Nat} {a : Stp} {x : Task} {ok : Bool} (S : Stage n s) (hl : s.steps.length = n)
    (h : s.steps[k]? = some a) (ha : a.pc = .ret x ok) : Stage n (finishStep s k a x ok) := by
  have S1 := failure_stage S ok
  have h1 := failure_get (ok := ok) h ha
  have hlt := lt_of_get h
  have pa := S1.pass k a h1
  have hbef : ∀ y ∈ a.slot.toList, ∀ j, j < k → (j, y) ∈ (failure s ok).oks := fun y hy =>
    pa.before y (by simp only [content, List.mem_append]; exact Or.inr hy)
  have hxb : ∀ j, j < k → (j, x) ∈ (failure s ok).oks := pa.before x (by simp [content, ha, hold])
  unfold finishStep
  dsimp only
  split
  · rename_i hc
    refine finishTask_stage (set_stage S1 ⟨by simpa [content, hold] using hbef, by simp, by simp⟩) ?_
    intro hr j hj
    have hok := result_success hr
    have hk : k = s.steps.length - 1 := by
      rcases hc with hc | hc
      · exact absurd hr hc
      · exact hc
    subst hok
    dsimp only
    by_cases e : j = k
    · rw [e]; exact pa.here x (Or.inl ha)
    · exact hxb j (by omega)
  · rename_i hc
    have hr : result (failure s ok) k ok = .success := Classical.byContradiction fun hn => hc (Or.inl hn)
    have hok := result_success hr
    subst hok
    exact sendNext_stage S1 h1 (by rw [ha]; rfl) (pa.here x (Or.inl ha))

theorem wait_stage {n : Nat} {s : St} (S : Stage n s) (j l : Nat) : Stage n (wait s j l) := by
  unfold wait
  split <;> exact ⟨S.pass, S.done, S.called⟩

theorem join_stage {n : Nat} {s : St} (S : Stage n s) (j i : Nat) : Stage n (join s j i) := by
  unfold join
  split
  · exact ⟨pass_signal _ S.pass, S.done, S.called⟩
  · exact ⟨S.pass, S.done, S.called⟩

theorem step_stage {n : Nat} {s s' : St} (S : Stage n s) (hl : s.steps.length = n) (st : Step s s') : Stage n s' := by
  cases st with
  | top h ha =>
    unfold top
    split
    · exact exitStep_stage S
    · exact fetch_stage S h
  | @callback k a x ok h ha =>
    have pa := S.pass _ _ h
    have hmem : ∀ q ∈ s.oks, q ∈ (if ok then s.oks ++ [(k, x)] else s.oks) := fun q hq => by
      split
      · exact List.mem_append_left _ hq
      · exact hq
    refine ⟨pass_set (fun i b hb => (S.pass i b hb).mono hmem (fun _ h => h)) ?_, fun y hy j hj => hmem _ (S.done y hy j hj), ?_⟩
    · refine ⟨fun y hy j hj => hmem _ (pa.before y ?_ j hj), fun y hy => ?_, by simp⟩
      · simpa [content, ha, hold] using hy
      · simp only [PC.ret.injEq, reduceCtorEq, or_false] at hy
        obtain ⟨rfl, rfl⟩ := hy
        simp
    · intro q hq
      dsimp only at hq ⊢
      split at hq
      · rcases List.mem_append.1 hq with hq | hq
        · exact S.called q hq
        · rw [List.mem_singleton] at hq
          rw [hq]
          exact pa.runs x ha
      · exact S.called q hq
  | finish h ha => exact finishStep_stage S hl h ha
  | @resume _ a x h ha => exact sendNext_stage S h (by rw [ha]; rfl) ((S.pass _ _ h).here _ (Or.inr (Or.inr ha)))
  | spurious => exact ⟨pass_signal _ S.pass, S.done, S.called⟩
  | spuriousU h => exact ⟨S.pass, S.done, S.called⟩
  | insert h hx =>
    unfold insert
    split
    · exact S
    · exact ⟨pass_signal _ S.pass, S.done, S.called⟩
  | wait h => exact wait_stage S _ _
  | waitResume h => exact wait_stage S _ _
  | destroy h => exact ⟨pass_map S.pass, S.done, S.called⟩
  | destroyResume h =>
    unfold destroyWait
    split
    · exact join_stage S _ _
    · exact ⟨S.pass, S.done, S.called⟩
  | joined h h1 h2 => exact join_stage S _ _

theorem reach_stage {b : Bool} {n m : Nat} {s : St} (h : Reach b n m s) : Stage n s := by
  induction h with
  | init =>
    refine ⟨?_, by simp [init], by simp [init]⟩
    intro k a h
    simp only [init, List.getElem?_replicate] at h
    split at h
    · cases h; exact ⟨by simp [content, hold], by simp, by simp⟩
    · cases h
  | step r st ih => exact step_stage ih (reach_live r).len st

end Verif.Pipe
