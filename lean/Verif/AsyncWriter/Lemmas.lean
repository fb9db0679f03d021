import Verif.AsyncWriter.Model
/-! Lemmas on the asynchronous writer, and the specification by what is seen from outside. -/
namespace Verif.AsyncWriter

/-! ### What is seen from outside -/

/-- The messages for which writing returned `M_TRUE`. -/
def accepted1 : Ev → List Msg
  | .write m .added => [m]
  | _ => []

def accepted (es : List Ev) : List Msg := es.flatMap accepted1

/-- The messages that were too big. -/
def tooBig1 : Ev → Nat
  | .write _ .tooBig => 1
  | _ => 0

def tooBig (es : List Ev) : Nat := (es.map tooBig1).sum

/-- The messages that the callback took. -/
def consumed1 : Ev → List Msg
  | .cb (some m) _ true => [m]
  | _ => []

def consumed (es : List Ev) : List Msg := es.flatMap consumed1

/-- The numbers of dropped messages that the callback took. -/
def reported1 : Ev → Nat
  | .notice n _ true => n
  | _ => 0

def reported (es : List Ev) : Nat := (es.map reported1).sum

/-- The callback took all it was given. -/
def Takes : Ev → Prop
  | .cb _ _ ans => ans = true
  | .notice _ _ ans => ans = true
  | _ => True

/-- Number of bytes. -/
def bytes (q : List Msg) : Nat := (q.map List.length).sum

/-! ### Lemmas -/

@[simp] theorem wakeUp_q (s : St) : (wakeUp s).q = s.q := by unfold wakeUp; split <;> rfl
@[simp] theorem wakeUp_max (s : St) : (wakeUp s).max = s.max := by unfold wakeUp; split <;> rfl
@[simp] theorem wakeUp_cmd (s : St) : (wakeUp s).cmd = s.cmd := by unfold wakeUp; split <;> rfl
@[simp] theorem wakeUp_stored (s : St) : (wakeUp s).stored = s.stored := by unfold wakeUp; split <;> rfl
@[simp] theorem wakeUp_dropped (s : St) : (wakeUp s).dropped = s.dropped := by unfold wakeUp; split <;> rfl
@[simp] theorem wakeUp_mode (s : St) : (wakeUp s).mode = s.mode := by unfold wakeUp; split <;> rfl
@[simp] theorem wakeUp_done (s : St) : (wakeUp s).done = s.done := by unfold wakeUp; split <;> rfl
@[simp] theorem wakeUp_cmdDone (s : St) : (wakeUp s).cmdDone = s.cmdDone := by unfold wakeUp; split <;> rfl
@[simp] theorem wakeUp_cmdWait (s : St) : (wakeUp s).cmdWait = s.cmdWait := by unfold wakeUp; split <;> rfl
@[simp] theorem wakeUp_stopWait (s : St) : (wakeUp s).stopWait = s.stopWait := by unfold wakeUp; split <;> rfl
@[simp] theorem wakeUp_killWait (s : St) : (wakeUp s).killWait = s.killWait := by unfold wakeUp; split <;> rfl
@[simp] theorem wakeUp_locked (s : St) : (wakeUp s).locked = s.locked := by unfold wakeUp; split <;> rfl
@[simp] theorem wakeUp_freed (s : St) : (wakeUp s).freed = s.freed := by unfold wakeUp; split <;> rfl
@[simp] theorem wakeUp_force (s : St) : (wakeUp s).force = s.force := by unfold wakeUp; split <;> rfl

theorem wakeUp_pc (s : St) : (wakeUp s).pc = match s.pc with
    | .wait _ => .wait true
    | p => p := by
  unfold wakeUp
  split
  · rename_i h; simp [h]
  · rename_i h
    cases hp : s.pc <;> simp_all

theorem step_act {s s' : St} {e : Ev} (h : step s e = .to s') : act s e = .to s' ∧ s.freed = false ∧ possible s e = true ∧ (s.locked = true → lockFree e = true) := by
  unfold step at h
  split at h
  · cases h
  · split at h
    · cases h
    · split at h
      · cases h
      · refine ⟨h, ?_, ?_, ?_⟩ <;> simp_all

theorem run_append {s : St} (es es' : List Ev) : run s (es ++ es') = (run s es).bind fun s' => run s' es' := by
  induction es generalizing s with
  | nil => rfl
  | cons e es ih =>
    simp only [List.cons_append, run]
    split
    · exact ih
    · rfl

/-- To show an invariant on what was seen: show it for each step. -/
theorem run_ind {P : List Ev → St → Prop} (hs : ∀ pre s e s', P pre s → act s e = .to s' → s.freed = false → P (pre ++ [e]) s') :
    ∀ (es pre : List Ev) (s s' : St), P pre s → run s es = some s' → P (pre ++ es) s' := by
  intro es
  induction es with
  | nil => intro pre s s' h hr; simp only [run, Option.some.injEq] at hr; subst hr; simpa using h
  | cons e es ih =>
    intro pre s s' h hr
    simp only [run] at hr
    split at hr
    · rename_i s1 h1
      obtain ⟨ha, hf, _⟩ := step_act h1
      have := ih (pre ++ [e]) s1 s' (hs pre s e s1 h ha hf) hr
      simpa using this
    · cases hr

theorem trim_spec {max : Nat} : ∀ {q : List Msg} {st d : Nat} {q' : List Msg} {st' d' : Nat}, trim max q st d = some (q', st', d') → bytes q ≤ st →
    q' <:+ q ∧ st' ≤ max ∧ d' + q'.length = d + q.length ∧ bytes q' ≤ st' ∧ st' + bytes q = st + bytes q' := by
  intro q
  induction q with
  | nil =>
    intro st d q' st' d' h hb
    unfold trim at h
    split at h
    · cases h
    · simp only [Option.some.injEq, Prod.mk.injEq] at h
      obtain ⟨rfl, rfl, rfl⟩ := h
      exact ⟨List.suffix_rfl, by omega, rfl, hb, rfl⟩
  | cons o q ih =>
    intro st d q' st' d' h hb
    have hbo : bytes (o :: q) = o.length + bytes q := by simp [bytes]
    rw [hbo] at hb ⊢
    unfold trim at h
    split at h
    · obtain ⟨h1, h2, h3, h4, h5⟩ := ih h (by omega)
      refine ⟨h1.trans (List.suffix_cons o q), h2, ?_, h4, by omega⟩
      rw [h3, List.length_cons]; omega
    · simp only [Option.some.injEq, Prod.mk.injEq] at h
      obtain ⟨rfl, rfl, rfl⟩ := h
      exact ⟨List.suffix_rfl, by omega, rfl, by rw [hbo]; exact hb, by rw [hbo]⟩

/-- Dropping comes to an end if the queue holds what is counted, but for an allowed rest. -/
theorem trim_total {max : Nat} : ∀ {q : List Msg} {st d : Nat}, st ≤ bytes q + max → ∃ r, trim max q st d = some r := by
  intro q
  induction q with
  | nil =>
    intro st d h
    unfold trim
    rw [if_neg (by simp [bytes] at h; omega)]
    exact ⟨_, rfl⟩
  | cons o q ih =>
    intro st d h
    unfold trim
    split
    · exact ih (by simp [bytes] at h ⊢; omega)
    · exact ⟨_, rfl⟩

theorem trim_hang {max : Nat} : ∀ {q : List Msg} {st d : Nat}, bytes q + max < st → trim max q st d = none := by
  intro q
  induction q with
  | nil => intro st d h; unfold trim; rw [if_pos (by simp [bytes] at h; omega)]
  | cons o q ih =>
    intro st d h
    have hbo : bytes (o :: q) = o.length + bytes q := by simp [bytes]
    unfold trim
    rw [if_pos (by omega)]
    exact ih (by omega)

/-- What writing does. -/
theorem write_cases {s s' : St} {m : Msg} {r : WRes} (h : write s m = some (r, s')) :
    (r = .refused ∧ s' = s ∧ (m = [] ∨ inFlush s = true)) ∨ (r = .tooBig ∧ s' = { s with dropped := s.dropped + 1 } ∧ s.max < m.length ∧ inFlush s = false ∧ m ≠ []) ∨
    (r = .added ∧ m ≠ [] ∧ inFlush s = false ∧ ∃ q st d, trim s.max (s.q ++ [m]) (s.stored + m.length) s.dropped = some (q, st, d) ∧ s' = wakeUp { s with q := q, stored := st, dropped := d }) := by
  unfold write at h
  split at h
  · rename_i h1
    cases h
    exact Or.inl ⟨rfl, rfl, Or.inl (List.eq_nil_of_length_eq_zero h1)⟩
  · rename_i hm
    have hm : m ≠ [] := fun h => hm (by simp [h])
    split at h
    · cases h; exact Or.inl ⟨rfl, rfl, Or.inr ‹_›⟩
    · rename_i hf
      simp only [Bool.not_eq_true] at hf
      split at h
      · cases h; exact Or.inr (Or.inl ⟨rfl, rfl, by omega, hf, hm⟩)
      · right; right
        cases ht : trim s.max (s.q ++ [m]) (s.stored + m.length) s.dropped with
        | none => rw [ht] at h; cases h
        | some x =>
          obtain ⟨q, st, d⟩ := x
          rw [ht] at h
          cases h
          exact ⟨rfl, hm, hf, q, st, d, rfl, rfl⟩

theorem afterPop_some (m : Msg) (c : BitVec 64) (n : Nat) : afterPop (some m) c n = if n > 0 then .notice (some m) c n else .call (some m) c n := by
  unfold afterPop; split <;> simp

/-- What taking a message does. -/
theorem pop_cases (s : St) :
    (s.q = [] ∧ s.mode = .running ∧ (s.force = false ∨ s.cmd = 0) ∧ pop s = { s with pc := .wait false }) ∨
    ((s.mode = .destroying ∨ (inFlush s = true ∧ s.q = [])) ∧ pop s = { s with pc := if s.dropped + s.q.length > 0 then .notice none 0 (s.dropped + s.q.length) else .stopCb }) ∨
    (s.mode = .stopped ∧ pop s = { s with pc := .stopCb }) ∨
    ((s.mode = .running ∨ inFlush s = true) ∧ ∃ o q, s.q = o :: q ∧
      pop s = { s with q := q, stored := s.stored - o.length, dropped := 0, cmd := 0, pc := if s.dropped > 0 then .notice (some o) s.cmd s.dropped else .call (some o) s.cmd s.dropped }) ∨
    (s.mode = .running ∧ s.q = [] ∧ s.force = true ∧ s.cmd ≠ 0 ∧ pop s = { s with cmd := 0, pc := .call none s.cmd 0 }) := by
  unfold pop
  split
  · rename_i h
    left
    simp only [mustWait, Bool.and_eq_true, beq_iff_eq, Bool.or_eq_true, Bool.not_eq_true'] at h
    exact ⟨List.eq_nil_of_length_eq_zero h.1.1, h.1.2, h.2, rfl⟩
  · rename_i h
    split
    · rename_i h1
      by_cases hs : s.mode = .stopped
      · right; right; left
        refine ⟨hs, ?_⟩
        rw [if_pos hs]; rfl
      · right; left
        refine ⟨?_, ?_⟩
        · rcases h1 with h1 | h1 | h1
          · exact Or.inl h1
          · exact absurd h1 hs
          · exact Or.inr ⟨h1.1, List.eq_nil_of_length_eq_zero h1.2⟩
        · rw [if_neg hs]; unfold afterPop
          split <;> simp
    · rename_i h1
      right; right; right
      have hmode : s.mode = .running ∨ inFlush s = true := by
        cases hm : s.mode <;> simp_all [inFlush]
      split
      · rename_i o q hq
        left
        refine ⟨hmode, o, q, hq, ?_⟩
        rw [afterPop_some]
      · rename_i hq
        right
        have hr : s.mode = .running := by
          rcases hmode with hm | hm
          · exact hm
          · exact absurd (Or.inr (Or.inr ⟨hm, by rw [hq]; rfl⟩)) h1
        simp only [mustWait, hq, hr, List.length_nil, beq_self_eq_true, Bool.true_and, Bool.or_eq_true, Bool.not_eq_true', beq_iff_eq, not_or, Bool.not_eq_false] at h
        refine ⟨hr, hq, h.1, h.2, ?_⟩
        unfold afterPop
        rw [if_neg (by omega), if_neg fun hh => h.2 hh.2]

end Verif.AsyncWriter
