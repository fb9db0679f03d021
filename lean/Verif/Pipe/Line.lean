import Verif.Pipe.Model
/-! The tasks in a pipeline, in order. -/
namespace Verif.Pipe

/-- The task that the thread of a step works on. -/
def hold : PC → List Task
  | .run x => [x] | .ret x _ => [x] | .sleepS x => [x] | .wokenS x => [x] | _ => []

/-- The tasks of a step, the one it works on first. -/
def content (a : Stp) : List Task := hold a.pc ++ a.slot.toList

/-- The tasks in the steps, those that have come farthest first. -/
def line : List Stp → List Task
  | [] => []
  | a :: rest => line rest ++ content a

theorem wake_content (a : Stp) : content (wake a) = content a := by
  obtain ⟨pc, slot⟩ := a
  cases pc <;> rfl

theorem wake_slot (a : Stp) : (wake a).slot = a.slot := by
  obtain ⟨pc, slot⟩ := a
  cases pc <;> rfl

theorem line_set_same {steps : List Stp} {k : Nat} {a b : Stp} (h : steps[k]? = some a) (hc : content b = content a) :
    line (steps.set k b) = line steps := by
  induction steps generalizing k with
  | nil => rfl
  | cons c rest ih =>
    cases k with
    | zero =>
      simp at h; subst h
      simp only [List.set_cons_zero, line, hc]
    | succ k =>
      simp only [List.getElem?_cons_succ] at h
      simp only [List.set_cons_succ, line, ih h]

theorem line_map (steps : List Stp) : line (steps.map wake) = line steps := by
  induction steps with
  | nil => rfl
  | cons c rest ih => simp only [List.map_cons, line, ih, wake_content]

theorem line_signal (k : Nat) (steps : List Stp) : line (signal k steps) = line steps := by
  unfold signal
  induction steps generalizing k with
  | nil => simp
  | cons c rest ih =>
    cases k with
    | zero => simp only [List.modify_zero_cons, line, wake_content]
    | succ k => simp only [List.modify_succ_cons, line, ih]

theorem line_signalPrev (k : Nat) (steps : List Stp) : line (signalPrev k steps) = line steps := by
  unfold signalPrev
  split
  · exact line_signal _ _
  · rfl

/-- A task leaves a step. -/
theorem line_drop {steps : List Stp} {k : Nat} {a b : Stp} {x : Task} (h : steps[k]? = some a) (hc : content a = x :: content b) :
    ∃ l1 l2, line steps = l1 ++ x :: l2 ∧ line (steps.set k b) = l1 ++ l2 := by
  induction steps generalizing k with
  | nil => simp at h
  | cons c rest ih =>
    cases k with
    | zero =>
      simp at h; subst h
      exact ⟨line rest, content b, by simp only [line, hc], by simp only [List.set_cons_zero, line]⟩
    | succ k =>
      simp only [List.getElem?_cons_succ] at h
      obtain ⟨l1, l2, h1, h2⟩ := ih h
      exact ⟨l1, l2 ++ content c, by simp only [line, h1]; simp, by simp only [List.set_cons_succ, line, h2]; simp⟩

/-- The task of the last step is the first. -/
theorem line_last {steps : List Stp} {k : Nat} {a b : Stp} {x : Task} (h : steps[k]? = some a) (hk : k = steps.length - 1)
    (hc : content a = x :: content b) : line steps = x :: line (steps.set k b) := by
  induction steps generalizing k with
  | nil => simp at h
  | cons c rest ih =>
    cases k with
    | zero =>
      simp at h; subst h
      have : rest = [] := by
        cases rest with
        | nil => rfl
        | cons _ _ => simp at hk
      subst this
      simp [line, hc]
    | succ k =>
      simp only [List.getElem?_cons_succ] at h
      have := ih h (by simp at hk; omega)
      simp only [List.set_cons_succ, line, this]
      rfl

/-- A task goes to the next step. -/
theorem line_send {steps : List Stp} {k : Nat} {a b a' b' : Stp} {x : Task} (ha : steps[k]? = some a) (hb : steps[k + 1]? = some b)
    (hc : content a = x :: content a') (hd : content b' = content b ++ [x]) :
    line ((steps.set k a').set (k + 1) b') = line steps := by
  induction steps generalizing k with
  | nil => simp at ha
  | cons c rest ih =>
    cases k with
    | zero =>
      simp at ha; subst ha
      cases rest with
      | nil => simp at hb
      | cons d rest =>
        simp at hb; subst hb
        simp [line, hc, hd]
    | succ k =>
      simp only [List.getElem?_cons_succ] at ha hb
      have := ih ha hb
      simp only [List.set_cons_succ, line, this]

/-- A task comes into the first step. -/
theorem line_first {steps : List Stp} {a b : Stp} {x : Task} (h : steps[0]? = some a) (hc : content b = content a ++ [x]) :
    line (steps.set 0 b) = line steps ++ [x] := by
  cases steps with
  | nil => simp at h
  | cons c rest =>
    simp at h; subst h
    simp [line, hc]

theorem mem_line {steps : List Stp} {k : Nat} {a : Stp} {x : Task} (h : steps[k]? = some a) (hx : x ∈ content a) : x ∈ line steps := by
  induction steps generalizing k with
  | nil => simp at h
  | cons c rest ih =>
    cases k with
    | zero =>
      simp at h; subst h
      simp [line, hx]
    | succ k =>
      simp only [List.getElem?_cons_succ] at h
      simp [line, ih h]

theorem line_mem {steps : List Stp} {x : Task} (h : x ∈ line steps) : ∃ (k : Nat) (a : Stp), steps[k]? = some a ∧ x ∈ content a := by
  induction steps with
  | nil => simp [line] at h
  | cons c rest ih =>
    simp only [line, List.mem_append] at h
    rcases h with h | h
    · obtain ⟨k, a, h1, h2⟩ := ih h
      exact ⟨k + 1, a, h1, h2⟩
    · exact ⟨0, c, rfl, h⟩

theorem line_nil {steps : List Stp} (h : ∀ (k : Nat) (a : Stp), steps[k]? = some a → content a = []) : line steps = [] := by
  cases e : line steps with
  | nil => rfl
  | cons x l =>
    obtain ⟨k, a, h1, h2⟩ := line_mem (steps := steps) (x := x) (by rw [e]; simp)
    rw [h k a h1] at h2; simp at h2

/-- The tasks finished with success. -/
def succs (fin : List (Task × Res)) : List Task := (fin.filter (·.2 = .success)).map (·.1)

/-- The invariant about the tasks. -/
structure Inv (s : St) : Prop where
  nodup : s.acc.Nodup
  sub : (succs s.fin ++ (line s.steps ++ s.queue)).Sublist s.acc
  count : ∀ x, s.acc.count x = (s.fin.map (·.1)).count x + (line s.steps ++ s.queue).count x
  cnt : s.cnt = (line s.steps ++ s.queue).length

theorem init_inv (b : Bool) (n m : Nat) : Inv (init b n m) := by
  have : line (List.replicate n ⟨.top, none⟩) = [] := by
    apply line_nil
    intro k a h
    rw [List.getElem?_replicate] at h
    split at h
    · cases h; rfl
    · cases h
  constructor <;> simp [init, this, succs]

theorem Inv.same {s s' : St} (I : Inv s) (h1 : s'.acc = s.acc) (h2 : s'.fin = s.fin) (h3 : line s'.steps ++ s'.queue = line s.steps ++ s.queue)
    (h4 : s'.cnt = s.cnt) : Inv s' := by
  constructor
  · rw [h1]; exact I.nodup
  · rw [h1, h2, h3]; exact I.sub
  · rw [h1, h2, h3]; exact I.count
  · rw [h3, h4]; exact I.cnt

/-- A task leaves without success. -/
theorem Inv.drop {s s' : St} (I : Inv s) {x : Task} {r : Res} (hr : r ≠ .success) {l1 l2 : List Task} (h1 : s'.acc = s.acc) (h2 : s'.fin = s.fin ++ [(x, r)])
    (h3 : line s.steps ++ s.queue = l1 ++ x :: l2) (h3' : line s'.steps ++ s'.queue = l1 ++ l2) (h4 : s'.cnt = s.cnt - 1) : Inv s' := by
  constructor
  · rw [h1]; exact I.nodup
  · rw [h1, h2, h3']
    refine List.Sublist.trans ?_ I.sub
    rw [h3]
    have : succs (s.fin ++ [(x, r)]) = succs s.fin := by
      simp [succs, hr]
    rw [this]
    exact List.Sublist.append_left (List.Sublist.append_left (List.sublist_cons_self _ _) _) _
  · intro y
    have := I.count y
    rw [h3] at this
    rw [h1, h2, h3', this]
    simp only [List.map_append, List.map_cons, List.map_nil, List.count_append, List.count_cons, List.count_nil]
    omega
  · have := I.cnt
    rw [h3] at this
    rw [h3', h4, this]
    simp only [List.length_append, List.length_cons]
    omega

/-- The first task is finished with success. -/
theorem Inv.succeed {s s' : St} (I : Inv s) {x : Task} (h1 : s'.acc = s.acc) (h2 : s'.fin = s.fin ++ [(x, .success)])
    (h3 : line s.steps ++ s.queue = x :: (line s'.steps ++ s'.queue)) (h4 : s'.cnt = s.cnt - 1) : Inv s' := by
  constructor
  · rw [h1]; exact I.nodup
  · rw [h1, h2]
    have := I.sub
    rw [h3] at this
    have e : succs (s.fin ++ [(x, .success)]) = succs s.fin ++ [x] := by simp [succs]
    rw [e]
    simpa using this
  · intro y
    have := I.count y
    rw [h3] at this
    rw [h1, h2, this]
    simp only [List.map_append, List.map_cons, List.map_nil, List.count_append, List.count_cons, List.count_nil]
    omega
  · have := I.cnt
    rw [h3] at this
    rw [h4, this]
    simp only [List.length_cons]
    omega

theorem fetch_inv {s : St} {k : Nat} {a : Stp} (I : Inv s) (h : s.steps[k]? = some a) (ha : a.pc = .top) : Inv (fetch s k a) := by
  have hc : content a = a.slot.toList := by simp [content, ha, hold]
  unfold fetch
  split
  · rename_i x hx
    refine I.same rfl rfl ?_ rfl
    dsimp only
    rw [line_signalPrev, line_set_same h (by rw [hc, hx]; rfl)]
  · rename_i hx
    rw [hx] at hc
    split
    · rename_i hk
      subst hk
      split
      · rename_i x q hq
        refine I.same rfl rfl ?_ rfl
        dsimp only
        rw [line_first h (x := x) (by rw [hc]; rfl), hq]
        simp
      · refine I.same rfl rfl ?_ rfl
        dsimp only
        rw [line_set_same h (by rw [hc]; rfl)]
    · refine I.same rfl rfl ?_ rfl
      dsimp only
      rw [line_signalPrev, line_set_same h (by rw [hc]; rfl)]

theorem abortAll_eq (s : St) (q : List Task) : abortAll s q =
    { s with fin := s.fin ++ q.map (·, .abort), cnt := s.cnt - q.length, us := if q = [] then s.us else s.us.map wakeU, queue := [] } := by
  induction q generalizing s with
  | nil => simp [abortAll]
  | cons x q ih =>
    rw [abortAll, ih]
    have hw : ∀ us : List U, (us.map wakeU).map wakeU = us.map wakeU := by
      intro us
      rw [List.map_map]
      congr 1
      funext u
      cases u <;> rfl
    simp only [finishTask, List.length_cons, hw]
    congr 1
    all_goals first | omega | simp

theorem succs_abort (fin : List (Task × Res)) (q : List Task) : succs (fin ++ q.map (·, .abort)) = succs fin := by
  simp [succs, List.filter_map]

theorem abortAll_inv {s : St} (I : Inv s) : Inv (abortAll s s.queue) := by
  rw [abortAll_eq]
  constructor
  · exact I.nodup
  · dsimp only
    rw [succs_abort]
    refine List.Sublist.trans ?_ I.sub
    exact List.Sublist.append_left (List.Sublist.append_left (List.nil_sublist _) _) _
  · intro x
    have := I.count x
    dsimp only
    simp only [List.map_append, List.map_map, List.count_append, List.count_nil] at this ⊢
    have e : List.map ((fun p : Task × Res => p.1) ∘ fun x => (x, Res.abort)) s.queue = s.queue := by
      rw [show ((fun p : Task × Res => p.1) ∘ fun x => (x, Res.abort)) = id from rfl, List.map_id]
    rw [e]
    omega
  · have := I.cnt
    dsimp only
    simp only [List.length_append, List.length_nil] at this ⊢
    omega

theorem exitStep_inv {s : St} {k : Nat} {a : Stp} (I : Inv s) (h : s.steps[k]? = some a) (ha : a.pc = .top) : Inv (exitStep s k a) := by
  have hc : content a = a.slot.toList := by simp [content, ha, hold]
  -- the order of the two updates does not matter
  have key : exitStep s k a = (let s1 := match a.slot with
      | some x => finishTask { s with steps := s.steps.set k ⟨.dead, none⟩ } x .abort
      | none => { s with steps := s.steps.set k ⟨.dead, none⟩ }
    if k = 0 then abortAll s1 s1.queue else s1) := by
    unfold exitStep
    cases a.slot <;> dsimp only <;> split <;> simp only [abortAll_eq, finishTask]
  rw [key]
  have I1 : Inv (match a.slot with
      | some x => finishTask { s with steps := s.steps.set k ⟨.dead, none⟩ } x .abort
      | none => { s with steps := s.steps.set k ⟨.dead, none⟩ }) := by
    split
    · rename_i x hx
      obtain ⟨l1, l2, h1, h2⟩ := line_drop (b := ⟨.dead, none⟩) (x := x) h (by rw [hc, hx]; rfl)
      refine I.drop (x := x) (r := .abort) (l1 := l1) (l2 := l2 ++ s.queue) (by simp) rfl rfl ?_ ?_ rfl
      · rw [h1]; simp
      · show line (s.steps.set k ⟨.dead, none⟩) ++ s.queue = _
        rw [h2]; simp
    · rename_i hx
      refine I.same rfl rfl ?_ rfl
      dsimp only
      rw [line_set_same h (by rw [hc, hx]; rfl)]
  dsimp only
  split
  · exact abortAll_inv I1
  · exact I1

theorem sendNext_inv {s : St} {k : Nat} {a : Stp} {x : Task} (I : Inv s) (h : s.steps[k]? = some a) (ha : hold a.pc = [x]) : Inv (sendNext s k a x) := by
  have hc : content a = x :: a.slot.toList := by simp [content, ha]
  unfold sendNext
  split
  · exact I
  · rename_i b hb
    split
    · refine I.same rfl rfl ?_ rfl
      dsimp only
      rw [line_set_same h (by rw [hc]; rfl)]
    · rename_i hbs
      split
      · obtain ⟨l1, l2, h1, h2⟩ := line_drop (b := { a with pc := .top }) (x := x) h (by rw [hc]; rfl)
        refine I.drop (x := x) (r := .fail) (l1 := l1) (l2 := l2 ++ s.queue) (by simp) rfl rfl ?_ ?_ rfl
        · rw [h1]; simp
        · show line (s.steps.set k { a with pc := .top }) ++ s.queue = _
          rw [h2]; simp
      · have hbs' : b.slot = none := by
          apply Classical.byContradiction; exact hbs
        refine I.same rfl rfl ?_ rfl
        dsimp only
        rw [line_signal, line_send h hb (x := x) (by rw [hc]; rfl) (by simp [content, hbs'])]

theorem failure_inv {s : St} (I : Inv s) (ok : Bool) : Inv (failure s ok) := by
  unfold failure
  split
  · refine I.same rfl rfl ?_ rfl
    dsimp only
    rw [line_map]
  · exact I

theorem getElem?_map_wake {steps : List Stp} {k : Nat} {a : Stp} (h : steps[k]? = some a) : (steps.map wake)[k]? = some (wake a) := by
  rw [List.getElem?_map, h]; rfl

theorem failure_get {s : St} {k : Nat} {a : Stp} {x : Task} {ok b : Bool} (h : s.steps[k]? = some a) (ha : a.pc = .ret x b) :
    (failure s ok).steps[k]? = some a := by
  unfold failure
  split
  · have := getElem?_map_wake h
    rw [show wake a = a by obtain ⟨pc, slot⟩ := a; cases ha; rfl] at this
    exact this
  · exact h

theorem failure_length (s : St) (ok : Bool) : (failure s ok).steps.length = s.steps.length := by
  unfold failure
  split
  · simp
  · rfl

theorem finishStep_inv {s : St} {k : Nat} {a : Stp} {x : Task} {ok : Bool} (I : Inv s) (h : s.steps[k]? = some a) (ha : a.pc = .ret x ok) :
    Inv (finishStep s k a x ok) := by
  have I1 := failure_inv I ok
  have h1 := failure_get (ok := ok) h ha
  have hc : content a = x :: content { a with pc := .top } := by simp [content, ha, hold]
  unfold finishStep
  dsimp only
  split
  · rename_i hcond
    by_cases hr : result (failure s ok) k ok = .success
    · have hk : k = s.steps.length - 1 := by
        rcases hcond with h2 | h2
        · exact absurd hr h2
        · exact h2
      rw [hr]
      refine I1.succeed (x := x) rfl rfl ?_ rfl
      have := line_last h1 (by rw [failure_length]; exact hk) hc
      rw [this]; rfl
    · obtain ⟨l1, l2, e1, e2⟩ := line_drop (b := { a with pc := .top }) (x := x) h1 hc
      refine I1.drop (x := x) hr (l1 := l1) (l2 := l2 ++ (failure s ok).queue) rfl rfl ?_ ?_ rfl
      · rw [e1]; simp
      · show line ((failure s ok).steps.set k { a with pc := .top }) ++ (failure s ok).queue = _
        rw [e2]; simp
  · exact sendNext_inv I1 h1 (by rw [ha]; rfl)

theorem step_inv {s s' : St} (I : Inv s) (st : Step s s') : Inv s' := by
  cases st with
  | top h ha =>
    unfold top
    split
    · exact exitStep_inv I h ha
    · exact fetch_inv I h ha
  | callback ok h ha =>
    refine I.same rfl rfl ?_ rfl
    dsimp only
    rw [line_set_same h (by simp [content, ha, hold])]
  | finish h ha => exact finishStep_inv I h ha
  | resume h ha => exact sendNext_inv I h (by rw [ha]; rfl)
  | spurious =>
    refine I.same rfl rfl ?_ rfl
    dsimp only
    rw [line_signal]
  | spuriousU h => exact I.same rfl rfl rfl rfl
  | @insert j x h hx =>
    unfold insert
    split
    · exact I
    · constructor
      · dsimp only
        rw [List.nodup_append]
        refine ⟨I.nodup, by simp, ?_⟩
        intro a h1 b h2 e
        simp at h2
        subst h2; subst e
        exact hx h1
      · dsimp only
        rw [line_signal]
        have := I.sub
        have := List.Sublist.append_right this [x]
        simpa using this
      · intro y
        have := I.count y
        dsimp only
        rw [line_signal]
        simp only [List.count_append] at this ⊢
        omega
      · have := I.cnt
        dsimp only
        rw [line_signal]
        simp only [List.length_append, List.length_cons, List.length_nil] at this ⊢
        omega
  | wait h => unfold wait; split <;> exact I.same rfl rfl rfl rfl
  | waitResume h => unfold wait; split <;> exact I.same rfl rfl rfl rfl
  | destroy h =>
    refine I.same rfl rfl ?_ rfl
    show line (s.steps.map wake) ++ _ = _
    rw [line_map]
    rfl
  | destroyResume h =>
    unfold destroyWait join
    split
    · split
      · refine I.same rfl rfl ?_ rfl
        dsimp only
        rw [line_signal]
      · exact I.same rfl rfl rfl rfl
    · exact I.same rfl rfl rfl rfl
  | joined h h1 h2 =>
    unfold join
    split
    · refine I.same rfl rfl ?_ rfl
      dsimp only
      rw [line_signal]
    · exact I.same rfl rfl rfl rfl

theorem reach_inv {b : Bool} {n m : Nat} {s : St} (h : Reach b n m s) : Inv s := by
  induction h with
  | init => exact init_inv b n m
  | step _ st ih => exact step_inv ih st

end Verif.Pipe
