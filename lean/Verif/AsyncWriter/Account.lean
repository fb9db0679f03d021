import Verif.AsyncWriter.Polite
/-! C81: no message is lost without being counted.  C83: what happens when the writer is destroyed. -/
namespace Verif.AsyncWriter

/-- The numbers of dropped messages that the callback took while the writer was running, and when it was shut down. -/
def live1 : Ev → Nat
  | .notice n false true => n
  | _ => 0

def shut1 : Ev → Nat
  | .notice n true true => n
  | _ => 0

def live (es : List Ev) : Nat := (es.map live1).sum
def shut (es : List Ev) : Nat := (es.map shut1).sum

theorem reported_split (es : List Ev) : reported es = live es + shut es := by
  induction es with
  | nil => rfl
  | cons e es ih =>
    simp only [reported, live, shut, List.map_cons, List.sum_cons] at ih ⊢
    have : reported1 e = live1 e + shut1 e := by
      cases e <;> try rfl
      rename_i n sh ans
      cases sh <;> cases ans <;> simp [reported1, live1, shut1]
    omega

/-- Messages and numbers of dropped messages that the thread has taken. -/
def held : Pc → Nat
  | .notice (some _) _ n => 1 + n
  | .call (some _) _ _ | .signal (some _) _ false | .putBack _ _ => 1
  | _ => 0

/-- Places where the thread can be as long as the callback takes everything. -/
def fine : Pc → Bool
  | .putBack _ _ | .signal _ _ false => false
  | .notice none c _ => c == 0
  | _ => true

@[simp] theorem held_wakeUp (s : St) : held (wakeUp s).pc = held s.pc := by rw [wakeUp_pc]; cases s.pc <;> rfl
@[simp] theorem fine_wakeUp (s : St) : fine (wakeUp s).pc = fine s.pc := by rw [wakeUp_pc]; cases s.pc <;> rfl

structure Acc (pre : List Ev) (s : St) : Prop where
  stored : s.stored = bytes s.q
  sum : (accepted pre).length + tooBig pre = (consumed pre).length + live pre + held s.pc + s.q.length + s.dropped
  fine : fine s.pc = true

theorem sum_snoc (pre : List Ev) (e : Ev) : (accepted (pre ++ [e])).length = (accepted pre).length + (accepted1 e).length ∧ tooBig (pre ++ [e]) = tooBig pre + tooBig1 e ∧
    (consumed (pre ++ [e])).length = (consumed pre).length + (consumed1 e).length ∧ live (pre ++ [e]) = live pre + live1 e ∧ shut (pre ++ [e]) = shut pre + shut1 e := by
  simp [accepted, tooBig, consumed, live, shut]

theorem acc_frame {pre : List Ev} {s s' : St} {e : Ev} (h : Acc pre s) (h1 : s'.stored = s.stored) (h2 : s'.q = s.q) (h3 : s'.dropped = s.dropped) (h4 : fine s'.pc = true)
    (h5 : (accepted1 e).length = 0) (h6 : tooBig1 e = 0) (h7 : held s.pc = (consumed1 e).length + live1 e + held s'.pc) : Acc (pre ++ [e]) s' := by
  obtain ⟨a, b, c, d, _⟩ := sum_snoc pre e
  refine ⟨by rw [h1, h2]; exact h.stored, ?_, h4⟩
  have := h.sum
  rw [a, b, c, d, h2, h3]
  omega

theorem acc_pop {pre : List Ev} {s : St} {e : Ev} (h : Acc pre s) (hp : s.pc = .top ∨ ∃ w, s.pc = .wait w) (h5 : accepted1 e = []) (h6 : tooBig1 e = 0) (h7 : consumed1 e = []) (h8 : live1 e = 0) :
    Acc (pre ++ [e]) (pop s) := by
  have hh : held s.pc = 0 := by rcases hp with hp | ⟨w, hp⟩ <;> rw [hp] <;> rfl
  rcases pop_cases s with ⟨_, _, _, e⟩ | ⟨_, e⟩ | ⟨_, e⟩ | ⟨_, o, q, hq, e⟩ | ⟨_, _, _, _, e⟩
  · rw [e]; exact acc_frame h rfl rfl rfl rfl (by rw [h5]; rfl) h6 (by rw [h7, h8, hh]; rfl)
  · rw [e]
    refine acc_frame h rfl rfl rfl ?_ (by rw [h5]; rfl) h6 ?_
    · simp only; split <;> rfl
    · rw [h7, h8, hh]; simp only; split <;> rfl
  · rw [e]; exact acc_frame h rfl rfl rfl rfl (by rw [h5]; rfl) h6 (by rw [h7, h8, hh]; rfl)
  · obtain ⟨a, b, c, d, _⟩ := sum_snoc pre ‹Ev›
    have h1 := h.stored
    have h2 := h.sum
    rw [e]
    refine ⟨?_, ?_, ?_⟩
    · rw [hq] at h1
      simp [bytes] at h1 ⊢
      omega
    · rw [a, b, c, d, h5, h6, h7, h8]
      rw [hq, hh] at h2
      simp only [List.length_cons, List.length_nil] at h2 ⊢
      have : held (if s.dropped > 0 then .notice (some o) s.cmd s.dropped else .call (some o) s.cmd s.dropped) = 1 + s.dropped := by
        split
        · rfl
        · show 1 = _; omega
      rw [this]
      omega
    · simp only; split <;> rfl
  · rw [e]; exact acc_frame h rfl rfl rfl rfl (by rw [h5]; rfl) h6 (by rw [h7, h8, hh]; rfl)

theorem acc_step {pre : List Ev} {s s' : St} {e : Ev} (h : Acc pre s) (ht : Takes e) (hs : act s e = .to s') : Acc (pre ++ [e]) s' := by
  have hfine := h.fine
  cases e with
  | write m r =>
    simp only [act] at hs
    split at hs
    · rename_i r' s1 hw
      split at hs
      · rename_i hr
        subst hr
        cases hs
        obtain ⟨a, b, c, d, _⟩ := sum_snoc pre (.write m r)
        have h1 := h.stored
        have h2 := h.sum
        rcases write_cases hw with ⟨hr, rfl, _⟩ | ⟨hr, rfl, _⟩ | ⟨hr, _, _, q, st, d', htr, rfl⟩
        · subst hr; exact acc_frame h rfl rfl rfl hfine rfl rfl (by simp [consumed1, live1])
        · subst hr
          refine ⟨h1, ?_, hfine⟩
          rw [a, b, c, d]
          simp only [accepted1, tooBig1, consumed1, live1, List.length_nil]
          omega
        · subst hr
          have hb2 : bytes (s.q ++ [m]) = s.stored + m.length := by rw [h1]; simp [bytes]
          obtain ⟨_, _, h5, _, h7⟩ := trim_spec htr (by omega)
          refine ⟨?_, ?_, by simpa using hfine⟩
          · simp only [wakeUp_stored, wakeUp_q]; omega
          · rw [a, b, c, d]
            simp only [accepted1, tooBig1, consumed1, live1, List.length_nil, List.length_singleton, held_wakeUp, wakeUp_q, wakeUp_dropped]
            simp only [List.length_append, List.length_singleton] at h5
            omega
      · cases hs
    · cases hs
  | pop => simp only [act] at hs; split at hs <;> cases hs; exact acc_pop h (Or.inl ‹_›) rfl rfl rfl rfl
  | wake => simp only [act] at hs; split at hs <;> cases hs; exact acc_pop h (Or.inr ⟨_, ‹_›⟩) rfl rfl rfl rfl
  | spurious => simp only [act] at hs; split at hs <;> cases hs; exact acc_pop h (Or.inr ⟨_, ‹_›⟩) rfl rfl rfl rfl
  | putBack =>
    simp only [act] at hs
    split at hs
    · rename_i hp
      rw [hp] at hfine; cases hfine
    · cases hs
  | notice n sh ans =>
    simp only [Takes] at ht
    subst ht
    simp only [act] at hs
    split at hs
    · rename_i m c k hp
      split at hs
      · rename_i hn
        obtain ⟨rfl, rfl⟩ := hn
        cases hs
        rw [hp] at hfine
        cases m with
        | none =>
          have hc : c = 0 := by simpa [fine] using hfine
          subst hc
          exact acc_frame h rfl rfl rfl rfl rfl rfl (by rw [hp]; rfl)
        | some m =>
          refine acc_frame h rfl rfl rfl (by simp [fine]) rfl rfl ?_
          rw [hp]
          simp [held, consumed1, live1]
          omega
      · cases hs
    · cases hs
  | cb m c ans =>
    simp only [Takes] at ht
    subst ht
    simp only [act] at hs
    split at hs
    · rename_i m' c' n hp
      split at hs
      · rename_i hn
        obtain ⟨rfl, rfl⟩ := hn
        cases hs
        refine acc_frame h rfl rfl rfl ?_ rfl rfl ?_
        · simp only
          split
          · rfl
          · cases m <;> rfl
        · rw [hp]
          simp only
          split
          · cases m <;> rfl
          · cases m <;> rfl
      · cases hs
    · cases hs
  | signal =>
    simp only [act] at hs
    split at hs
    · rename_i m n ans hp
      cases hs
      rw [hp] at hfine
      cases ans with
      | false => cases hfine
      | true => refine acc_frame h rfl rfl rfl ?_ rfl rfl ?_ <;> cases m <;> first | rfl | (rw [hp]; rfl)
    · cases hs
  | stopCb =>
    simp only [act] at hs
    split at hs
    · rename_i hp
      cases hs
      exact acc_frame h rfl rfl rfl rfl rfl rfl (by rw [hp]; rfl)
    · cases hs
  | fin =>
    simp only [act] at hs
    split at hs
    · rename_i hp
      cases hs
      refine acc_frame h rfl rfl rfl ?_ rfl rfl ?_
      · simp only; repeat' split
        all_goals rfl
      · rw [hp]; simp only; repeat' split
        all_goals rfl
    · cases hs
  | free =>
    simp only [act] at hs
    split at hs
    · rename_i hp
      cases hs
      exact acc_frame h rfl rfl rfl rfl rfl rfl (by rw [hp]; rfl)
    · cases hs
  | start created ok =>
    simp only [act] at hs
    split at hs
    · split at hs
      · cases hs; exact acc_frame h rfl rfl rfl hfine rfl rfl (by simp [consumed1, live1])
      · cases hs
    · split at hs
      · split at hs
        · split at hs
          · rename_i hp
            cases hs
            exact acc_frame h rfl rfl rfl rfl rfl rfl (by rw [hp]; rfl)
          · cases hs
        · cases hs
      · split at hs
        · cases hs
        · cases hs; exact acc_frame h rfl rfl rfl hfine rfl rfl (by simp [consumed1, live1])
  | _ =>
    simp only [act] at hs
    repeat' split at hs
    all_goals first
      | cases hs; done
      | (cases hs; exact acc_frame h (by simp) (by simp) (by simp) (by simpa using hfine) rfl rfl (by simp [consumed1, live1]))

theorem acc_run {max : Nat} {es : List Ev} {s : St} (h : run (create max) es = some s) (ht : ∀ e ∈ es, Takes e) : Acc es s := by
  have := run_ind (P := fun pre s => (∀ e ∈ pre, Takes e) → Acc pre s)
    (fun pre s e s' h1 ha _ ht => acc_step (h1 fun e he => ht e (List.mem_append_left _ he)) (ht e (by simp)) ha) es [] (create max) s
    (fun _ => ⟨rfl, rfl, rfl⟩) h
  exact this ht

end Verif.AsyncWriter
