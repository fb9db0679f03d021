import Verif.AsyncWriter.Lemmas
/-! C81: messages of the asynchronous writer. -/
namespace Verif.AsyncWriter

/-- The message that the thread has taken and not yet passed on. -/
def hand : Pc → List Msg
  | .notice (some m) _ _ | .call (some m) _ _ | .signal (some m) _ false | .putBack m _ => [m]
  | _ => []

@[simp] theorem hand_wakeUp (s : St) : hand (wakeUp s).pc = hand s.pc := by
  rw [wakeUp_pc]
  cases s.pc <;> rfl

theorem hand_afterCb (m : Option Msg) (n : Nat) (ans : Bool) : hand (afterCb m n ans) = hand (.signal m n ans) := by
  cases m <;> cases ans <;> rfl

theorem hand_pop (s : St) : hand (pop s).pc ++ (pop s).q = s.q := by
  rcases pop_cases s with ⟨_, _, _, e⟩ | ⟨_, e⟩ | ⟨_, e⟩ | ⟨_, o, q, hq, e⟩ | ⟨_, _, _, _, e⟩
  · rw [e]; rfl
  · rw [e]
    simp only
    split <;> rfl
  · rw [e]; rfl
  · rw [e, hq]
    simp only
    split <;> rfl
  · rw [e]; rfl

theorem replace_cases (s : St) (m : Msg) (n : Nat) :
    (m = [] ∧ replace s m n = { s with pc := .top }) ∨
    (m ≠ [] ∧ s.dropped = 0 ∧ s.stored + m.length ≤ s.max ∧ s.q = [] ∧ replace s m n = { s with stored := s.stored + m.length, dropped := n, pc := .top }) ∨
    (m ≠ [] ∧ s.dropped = 0 ∧ s.stored + m.length ≤ s.max ∧ s.q ≠ [] ∧ replace s m n = { s with q := m :: s.q, stored := s.stored + m.length, dropped := n, pc := .top }) ∨
    (m ≠ [] ∧ (s.dropped ≠ 0 ∨ s.max < s.stored + m.length) ∧ replace s m n = { s with dropped := s.dropped + 1 + n, pc := .top }) := by
  unfold replace
  split
  · rename_i h
    exact Or.inl ⟨List.eq_nil_of_length_eq_zero h, rfl⟩
  · rename_i h
    have hm : m ≠ [] := fun h1 => h (by simp [h1])
    right
    simp only
    split
    · rename_i h1
      by_cases hq : s.q = []
      · left
        refine ⟨hm, h1.1, h1.2, hq, ?_⟩
        rw [if_pos hq]
        simp [h1.1, hq]
      · right; left
        refine ⟨hm, h1.1, h1.2, hq, ?_⟩
        rw [if_neg hq]
        simp [h1.1]
    · rename_i h1
      right; right
      refine ⟨hm, ?_, rfl⟩
      by_cases hd : s.dropped = 0
      · exact Or.inr (by
          have := fun h2 => h1 ⟨hd, h2⟩
          omega)
      · exact Or.inl hd

/-- The bytes of the queue are counted. -/
theorem bytes_step {s s' : St} {e : Ev} (h : act s e = .to s') (hb : bytes s.q ≤ s.stored) : bytes s'.q ≤ s'.stored := by
  have hpop : bytes (pop s).q ≤ (pop s).stored := by
    rcases pop_cases s with ⟨_, _, _, e⟩ | ⟨_, e⟩ | ⟨_, e⟩ | ⟨_, o, q, hq, e⟩ | ⟨_, _, _, _, e⟩
    · rw [e]; exact hb
    · rw [e]; exact hb
    · rw [e]; exact hb
    · rw [e]
      rw [hq] at hb
      simp [bytes] at hb ⊢
      omega
    · rw [e]; exact hb
  cases e with
  | write m r =>
    simp only [act] at h
    split at h
    · rename_i r' s1 hw
      split at h
      · cases h
        rcases write_cases hw with ⟨_, rfl, _⟩ | ⟨_, rfl, _⟩ | ⟨_, _, _, q, st, d, ht, rfl⟩
        · exact hb
        · exact hb
        · have hb2 : bytes (s.q ++ [m]) ≤ s.stored + m.length := by simp [bytes] at hb ⊢; omega
          simpa using (trim_spec ht hb2).2.2.2.1
      · cases h
    · cases h
  | putBack =>
    simp only [act] at h
    split at h
    · rename_i m n _
      cases h
      rcases replace_cases s m n with ⟨_, e⟩ | ⟨_, _, _, hq, e⟩ | ⟨_, _, _, hq, e⟩ | ⟨_, _, e⟩
      · rw [e]; exact hb
      · rw [e]; simp only; omega
      · rw [e]; simp [bytes] at hb ⊢; omega
      · rw [e]; exact hb
    · cases h
  | pop => simp only [act] at h; split at h <;> cases h; exact hpop
  | wake => simp only [act] at h; split at h <;> cases h; exact hpop
  | spurious => simp only [act] at h; split at h <;> cases h; exact hpop
  | _ =>
    simp only [act] at h
    repeat' split at h
    all_goals first
      | cases h; done
      | (cases h; first | exact hb | simpa using hb)

theorem order_step {s s' : St} {e : Ev} (h : act s e = .to s') {C A : List Msg} (hb : bytes s.q ≤ s.stored) (ho : (C ++ hand s.pc ++ s.q).Sublist A) :
    (C ++ consumed1 e ++ hand s'.pc ++ s'.q).Sublist (A ++ accepted1 e) := by
  have up : ∀ {X : List Msg} {m : List Msg}, X.Sublist A → X.Sublist (A ++ m) := fun h => h.trans (List.sublist_append_left _ _)
  have hpop : hand s.pc = [] → (C ++ [] ++ hand (pop s).pc ++ (pop s).q).Sublist (A ++ []) := by
    intro h1
    have := hand_pop s
    rw [List.append_nil, List.append_nil, List.append_assoc, this]
    rw [h1, List.append_nil] at ho
    exact ho
  cases e with
  | write m r =>
    simp only [act] at h
    split at h
    · rename_i r' s1 hw
      split at h
      · rename_i hr
        subst hr
        cases h
        rcases write_cases hw with ⟨hr, rfl, _⟩ | ⟨hr, rfl, _⟩ | ⟨hr, _, _, q, st, d, ht, rfl⟩
        · subst hr
          simpa [consumed1, accepted1] using ho
        · subst hr
          simpa [consumed1, accepted1] using ho
        · subst hr
          have hb2 : bytes (s.q ++ [m]) ≤ s.stored + m.length := by simp [bytes] at hb ⊢; omega
          have hsuf := (trim_spec ht hb2).1.sublist
          simp only [consumed1, accepted1, List.append_nil, hand_wakeUp, wakeUp_q]
          have h1 : (C ++ hand s.pc ++ q).Sublist (C ++ hand s.pc ++ (s.q ++ [m])) := (List.Sublist.refl _).append hsuf
          refine h1.trans ?_
          rw [← List.append_assoc]
          exact ho.append (List.Sublist.refl _)
      · cases h
    · cases h
  | pop =>
    simp only [act] at h
    split at h
    · rename_i hp
      cases h
      exact hpop (by rw [hp]; rfl)
    · cases h
  | wake =>
    simp only [act] at h
    split at h
    · rename_i hp
      cases h
      exact hpop (by rw [hp]; rfl)
    · cases h
  | spurious =>
    simp only [act] at h
    split at h
    · rename_i hp
      cases h
      exact hpop (by rw [hp]; rfl)
    · cases h
  | notice n sh ans =>
    simp only [act] at h
    split at h
    · rename_i m c k hp
      split at h
      · cases h
        rw [hp] at ho
        simp only [consumed1, accepted1, List.append_nil]
        split
        · rename_i hm
          rw [hm.1] at ho
          exact ho
        · split
          · cases m <;> exact ho
          · rw [hand_afterCb]; cases m <;> exact ho
      · cases h
    · cases h
  | cb m c ans =>
    simp only [act] at h
    split at h
    · rename_i m' c' n hp
      split at h
      · rename_i hmc
        cases h
        obtain ⟨rfl, rfl⟩ := hmc
        rw [hp] at ho
        have : hand (if c ≠ 0 then .signal m n ans else afterCb m n ans) = hand (.signal m n ans) := by
          split
          · rfl
          · exact hand_afterCb ..
        simp only
        rw [this]
        cases m <;> cases ans <;> simpa [consumed1, accepted1, hand] using ho
      · cases h
    · cases h
  | signal =>
    simp only [act] at h
    split at h
    · rename_i m n ans hp
      cases h
      simp only [hand_afterCb]
      rw [hp] at ho
      simpa [consumed1, accepted1] using ho
    · cases h
  | putBack =>
    simp only [act] at h
    split at h
    · rename_i m n hp
      cases h
      rw [hp] at ho
      simp only [consumed1, accepted1, List.append_nil]
      have hdrop : (C ++ s.q).Sublist A := by
        refine List.Sublist.trans ?_ ho
        exact (List.sublist_append_left C _).append (List.Sublist.refl _)
      rcases replace_cases s m n with ⟨_, e⟩ | ⟨_, _, _, hq, e⟩ | ⟨_, _, _, hq, e⟩ | ⟨_, _, e⟩
      · rw [e]; simpa [hand] using hdrop
      · rw [e]; simpa [hand] using hdrop
      · rw [e]; simpa [hand] using ho
      · rw [e]; simpa [hand] using hdrop
    · cases h
  | stopCb =>
    simp only [act] at h
    split at h
    · rename_i hp
      cases h
      rw [hp] at ho
      simpa [consumed1, accepted1, hand] using ho
    · cases h
  | fin =>
    simp only [act] at h
    split at h
    · rename_i hp
      cases h
      rw [hp] at ho
      simp only [consumed1, accepted1, List.append_nil]
      have : ∀ m : Mode, hand (if m = .destroying then .free else .gone) = [] := by intro m; split <;> rfl
      rw [this]
      simpa [hand] using ho
    · cases h
  | free =>
    simp only [act] at h
    split at h
    · rename_i hp
      cases h
      rw [hp] at ho
      simpa [consumed1, accepted1, hand] using ho
    · cases h
  | start created ok =>
    simp only [act] at h
    split at h
    · split at h
      · cases h; simpa [consumed1, accepted1] using ho
      · cases h
    · split at h
      · split at h
        · split at h
          · rename_i hp
            cases h
            rw [hp] at ho
            simpa [consumed1, accepted1, hand] using ho
          · cases h
        · cases h
      · split at h
        · cases h
        · cases h; simpa [consumed1, accepted1] using ho
  | _ =>
    simp only [act] at h
    repeat' split at h
    all_goals first
      | cases h; done
      | (cases h; simpa [consumed1, accepted1] using ho)

/-- C81: the callback takes messages in the order in which they were accepted, and each at most once. -/
theorem in_order {max : Nat} {es : List Ev} {s : St} (h : run (create max) es = some s) : (consumed es).Sublist (accepted es) := by
  have := run_ind (P := fun pre s => bytes s.q ≤ s.stored ∧ (consumed pre ++ hand s.pc ++ s.q).Sublist (accepted pre)) ?_ es [] (create max) s ⟨by simp [create, bytes], by simp [create, hand, consumed, accepted]⟩ h
  · have := this.2
    simp only [List.nil_append] at this
    refine List.Sublist.trans ?_ this
    rw [List.append_assoc]
    exact List.sublist_append_left _ _
  · intro pre s e s' ⟨h1, h2⟩ ha _
    refine ⟨bytes_step ha h1, ?_⟩
    have := order_step ha h1 h2
    simpa [consumed, accepted] using this

/-- C81: after a message was accepted, the queue holds at most the allowed number of bytes. -/
theorem limit {max : Nat} {es : List Ev} {s s' : St} {m : Msg} (h : run (create max) es = some s) (hw : step s (.write m .added) = .to s') : bytes s'.q ≤ s'.max := by
  have hb : bytes s.q ≤ s.stored :=
    run_ind (P := fun _ s => bytes s.q ≤ s.stored) (fun _ _ _ _ h1 ha _ => bytes_step ha h1) es [] (create max) s (by simp [create, bytes]) h
  obtain ⟨ha, _⟩ := step_act hw
  simp only [act] at ha
  split at ha
  · rename_i r' s1 hw
    split at ha
    · rename_i hr
      subst hr
      cases ha
      rcases write_cases hw with ⟨hr, _⟩ | ⟨hr, _⟩ | ⟨_, _, _, q, st, d, ht, rfl⟩
      · cases hr
      · cases hr
      · have hb2 : bytes (s.q ++ [m]) ≤ s.stored + m.length := by simp [bytes] at hb ⊢; omega
        obtain ⟨_, h2, _, h4, _⟩ := trim_spec ht hb2
        simp only [wakeUp_q, wakeUp_max]
        omega
    · cases ha
  · cases ha

/-- C81: nothing else lets the queue grow above the allowed number of bytes. -/
theorem limit_step {max : Nat} {es : List Ev} {s s' : St} {e : Ev} (h : run (create max) es = some s) (hw : step s e = .to s') : bytes s'.q ≤ bytes s.q ∨ bytes s'.q ≤ s'.max := by
  have hb : bytes s.q ≤ s.stored :=
    run_ind (P := fun _ s => bytes s.q ≤ s.stored) (fun _ _ _ _ h1 ha _ => bytes_step ha h1) es [] (create max) s (by simp [create, bytes]) h
  obtain ⟨ha, _⟩ := step_act hw
  have hpop : bytes (pop s).q ≤ bytes s.q := by
    have := congrArg bytes (hand_pop s)
    simp only [bytes, List.map_append, List.sum_append] at this ⊢
    omega
  cases e with
  | write m r =>
    cases r with
    | added => exact Or.inr (limit h hw)
    | _ =>
      left
      simp only [act] at ha
      split at ha
      · rename_i r' s1 hw
        split at ha
        · rename_i hr
          subst hr
          cases ha
          rcases write_cases hw with ⟨_, rfl, _⟩ | ⟨_, rfl, _⟩ | ⟨hr, _⟩
          · exact Nat.le_refl _
          · exact Nat.le_refl _
          · cases hr
        · cases ha
      · cases ha
  | putBack =>
    simp only [act] at ha
    split at ha
    · rename_i m n _
      cases ha
      rcases replace_cases s m n with ⟨_, e⟩ | ⟨_, _, _, hq, e⟩ | ⟨_, _, _, hq, e⟩ | ⟨_, _, e⟩
      · rw [e]; exact Or.inl (Nat.le_refl _)
      · rw [e]; exact Or.inl (Nat.le_refl _)
      · rw [e]; right; simp [bytes] at hb ⊢; omega
      · rw [e]; exact Or.inl (Nat.le_refl _)
    · cases ha
  | pop => simp only [act] at ha; split at ha <;> cases ha; exact Or.inl hpop
  | wake => simp only [act] at ha; split at ha <;> cases ha; exact Or.inl hpop
  | spurious => simp only [act] at ha; split at ha <;> cases ha; exact Or.inl hpop
  | _ =>
    left
    simp only [act] at ha
    repeat' split at ha
    all_goals first
      | cases ha; done
      | (cases ha; first | exact Nat.le_refl _ | simp)

end Verif.AsyncWriter
