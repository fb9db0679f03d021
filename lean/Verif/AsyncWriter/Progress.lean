import Verif.AsyncWriter.Ending
/-! C81, C83: calls come back and the thread gets its work done. -/
namespace Verif.AsyncWriter

theorem trim_needed {max : Nat} : ∀ {q : List Msg} {d : Nat} {q' : List Msg} {st' d' : Nat}, trim max q (bytes q) d = some (q', st', d') →
    ∀ q'', q'' <:+ q → bytes q'' ≤ max → q'' <:+ q' := by
  intro q
  induction q with
  | nil =>
    intro d q' st' d' h q'' hs _
    rw [List.suffix_nil.1 hs]
    exact List.nil_suffix
  | cons o q ih =>
    intro d q' st' d' h q'' hs hb
    unfold trim at h
    split at h
    · rename_i hgt
      have hst : bytes (o :: q) - o.length = bytes q := by simp [bytes]
      rw [hst] at h
      rcases List.suffix_cons_iff.1 hs with rfl | hs
      · omega
      · exact ih h q'' hs hb
    · simp only [Option.some.injEq, Prod.mk.injEq] at h
      obtain ⟨rfl, _, _⟩ := h
      exact hs

/-- C81: as long as the callback takes all it is given, a write comes back. -/
theorem write_returns_partial {max : Nat} {es : List Ev} {s : St} (h : run (create max) es = some s) (ht : ∀ e ∈ es, Takes e) (m : Msg) : ∀ s', step s (.writeHang m) ≠ .to s' := by
  intro s' hs
  have ha := acc_run h ht
  obtain ⟨hs, _⟩ := step_act hs
  simp only [act] at hs
  split at hs
  · cases hs
  · rename_i hw
    unfold write at hw
    split at hw
    · cases hw
    · split at hw
      · cases hw
      · split at hw
        · cases hw
        · obtain ⟨r, hr⟩ := trim_total (max := s.max) (q := s.q ++ [m]) (st := s.stored + m.length) (d := s.dropped) (by rw [ha.stored]; simp [bytes])
          rw [hr] at hw
          cases hw

/-- C81: as long as the callback takes all it is given, a message that is accepted makes only the oldest ones be dropped, and no more than needed: the queue keeps the longest rest that
fits, and the new message is always kept. -/
theorem drop_oldest_partial {max : Nat} {es : List Ev} {s s' : St} {m : Msg} (h : run (create max) es = some s) (ht : ∀ e ∈ es, Takes e) (hw : step s (.write m .added) = .to s') :
    s'.q <:+ s.q ++ [m] ∧ (∀ q, q <:+ s.q ++ [m] → bytes q ≤ s.max → q <:+ s'.q) ∧ [m] <:+ s'.q ∧ s'.dropped + s'.q.length = s.dropped + s.q.length + 1 := by
  have ha := acc_run h ht
  obtain ⟨hs, _⟩ := step_act hw
  simp only [act] at hs
  split at hs
  · rename_i r s1 hw
    split at hs
    · rename_i hr
      subst hr
      cases hs
      have hlen : ¬ m.length > s.max := by
        intro hgt
        unfold write at hw
        split at hw
        · cases hw
        · split at hw
          · cases hw
          · first | (cases hw; done) | (rw [if_pos hgt] at hw; cases hw)
      rcases write_cases hw with ⟨hr, _⟩ | ⟨hr, _⟩ | ⟨_, _, _, q, st, d, htr, rfl⟩
      · cases hr
      · cases hr
      · have hb : s.stored + m.length = bytes (s.q ++ [m]) := by rw [ha.stored]; simp [bytes]
        rw [hb] at htr
        have hn := trim_needed htr
        obtain ⟨h1, _, h3, _⟩ := trim_spec htr (Nat.le_refl _)
        simp only [wakeUp_q, wakeUp_dropped]
        refine ⟨h1, hn, hn _ (List.suffix_append _ _) (by simp [bytes]; omega), ?_⟩
        simp only [List.length_append, List.length_singleton] at h3
        omega
    · cases hs
  · cases hs

/-! ### The thread gets its work done -/

/-- What the thread does by itself, apart from waking up for no reason. -/
def worker : Ev → Bool
  | .pop | .wake | .notice .. | .cb .. | .signal | .putBack | .stopCb | .fin | .free => true
  | _ => false

def rank : Pc → Nat
  | .gone => 0
  | .free => 1
  | .fin => 2
  | .stopCb => 3
  | .notice none c _ => if c = 0 then 4 else 9
  | .wait false => 5
  | .top | .wait true => 6
  | .signal .. | .putBack .. => 7
  | .call .. => 8
  | .notice (some _) _ _ => 9

def mu (s : St) : Nat := 5 * s.q.length + (if s.cmd = 0 then 0 else 5) + rank s.pc

theorem mu_pop {s : St} (hp : rank s.pc = 6) : mu (pop s) < mu s := by
  unfold mu
  rw [hp]
  rcases pop_cases s with ⟨_, _, _, e⟩ | ⟨_, e⟩ | ⟨_, e⟩ | ⟨_, o, q, hq, e⟩ | ⟨_, _, _, hc, e⟩
  · rw [e]; simp [rank]
  · have : rank (if s.dropped + s.q.length > 0 then .notice none 0 (s.dropped + s.q.length) else .stopCb) ≤ 4 := by split <;> simp [rank]
    rw [e]; simp only; omega
  · rw [e]; simp [rank]
  · have : rank (if s.dropped > 0 then .notice (some o) s.cmd s.dropped else .call (some o) s.cmd s.dropped) ≤ 9 := by split <;> simp [rank]
    rw [e, hq]; simp only [List.length_cons, if_true]; omega
  · rw [e]; simp only [rank, hc, if_true, if_false]; omega

theorem mu_step {s s' : St} {e : Ev} (hf : fine s.pc = true) (hw : worker e = true) (ht : Takes e) (hs : act s e = .to s') : mu s' < mu s := by
  cases e <;> simp only [worker] at hw <;> try (cases hw; done)
  all_goals simp only [act] at hs
  · split at hs <;> cases hs; exact mu_pop (by rw [‹s.pc = _›]; rfl)
  · split at hs <;> cases hs; exact mu_pop (by rw [‹s.pc = _›]; rfl)
  · simp only [Takes] at ht
    subst ht
    split at hs
    · rename_i m c k hp
      split at hs
      · cases hs
        rw [hp] at hf
        unfold mu
        rw [hp]
        cases m with
        | none =>
          have hc : c = 0 := by simpa [fine] using hf
          subst hc
          simp [rank]
        | some m => simp [rank]
      · cases hs
    · cases hs
  · simp only [Takes] at ht
    subst ht
    split at hs
    · rename_i m c k hp
      split at hs
      · cases hs
        rename_i m' c' _ _
        have : rank (if c' ≠ 0 then .signal m' k true else afterCb m' k true) ≤ 7 := by split <;> cases m' <;> simp [rank, afterCb]
        unfold mu
        rw [hp]
        have h8 : rank (.call m c k) = 8 := rfl
        rw [h8]
        simp only
        omega
      · cases hs
    · cases hs
  · split at hs
    · rename_i m n ans hp
      cases hs
      rw [hp] at hf
      cases ans with
      | false => cases hf
      | true => unfold mu; rw [hp]; cases m <;> simp [rank, afterCb]
    · cases hs
  · split at hs
    · rename_i hp
      rw [hp] at hf; cases hf
    · cases hs
  · split at hs <;> cases hs; unfold mu; rw [‹s.pc = _›]; simp [rank]
  · split at hs
    · rename_i hp
      cases hs
      unfold mu; rw [hp]; simp only; (repeat' split) <;> simp [rank]
    · cases hs
  · split at hs <;> cases hs; unfold mu; rw [‹s.pc = _›]; simp [rank]

theorem worker_run : ∀ {es pre : List Ev} {s s' : St}, Acc pre s → run s es = some s' → (∀ e ∈ es, worker e = true ∧ Takes e) → es.length + mu s' ≤ mu s := by
  intro es
  induction es with
  | nil =>
    intro pre s s' _ h _
    simp only [run, Option.some.injEq] at h
    subst h
    simp
  | cons e es ih =>
    intro pre s s' ha h hw
    simp only [run] at h
    split at h
    · rename_i s1 h1
      obtain ⟨hact, _⟩ := step_act h1
      obtain ⟨hw1, ht1⟩ := hw e (by simp)
      have := ih (acc_step ha ht1 hact) h fun e he => hw e (List.mem_cons_of_mem _ he)
      have := mu_step ha.fine hw1 ht1 hact
      simp only [List.length_cons]
      omega
    · cases h

/-- C83: as long as the callback takes all it is given, the thread does not go on for ever by itself: without new calls it takes a limited number of steps. -/
theorem rests_partial {max : Nat} {es : List Ev} {s : St} (h : run (create max) es = some s) (ht : ∀ e ∈ es, Takes e) :
    ∃ bound, ∀ es' s', run s es' = some s' → (∀ e ∈ es', worker e = true ∧ Takes e) → es'.length ≤ bound :=
  ⟨mu s, fun _ _ h' hw => Nat.le_trans (Nat.le_add_right _ _) (worker_run (acc_run h ht) h' hw)⟩

/-- C83: when it can do nothing more, it has ended, or it sleeps, the writer is running, and the queue is empty. -/
theorem rests_when_done {max : Nat} {es : List Ev} {s : St} (hp : Polite es) (h : run (create max) es = some s) (hl : s.locked = false)
    (hn : ∀ e s', worker e = true → Takes e → step s e ≠ .to s') : s.pc = .gone ∨ (s.pc = .wait false ∧ s.q = [] ∧ s.mode = .running) := by
  have hgood : ∃ d, Good d s := by
    unfold Polite at hp
    cases hd : polite calm es with
    | none => rw [hd] at hp; cases hp
    | some d => exact ⟨d, good_run hd h⟩
  obtain ⟨d, g⟩ := hgood
  have go : ∀ e s', worker e = true → Takes e → act s e = .to s' → s.pc = .gone := by
    intro e s' hw ht ha
    refine Classical.byContradiction fun hg => hn e s' hw ht ?_
    have hf : s.freed = false := by
      cases hf : s.freed with
      | false => rfl
      | true => exact absurd (g.freed hf).1 hg
    have hpo : possible s e = true := by cases e <;> simp only [worker] at hw <;> first | (cases hw; done) | (dsimp only [possible]; simp [hg])
    unfold step
    rw [if_neg (by rw [hpo]; simp), if_neg (by rw [hf]; simp), if_neg (by rw [hl]; simp)]
    exact ha
  cases hpc : s.pc with
  | gone => exact Or.inl rfl
  | top => left; rw [← hpc]; exact go .pop _ rfl trivial (by simp only [act]; rw [if_pos hpc])
  | wait w =>
    cases w with
    | true => left; rw [← hpc]; exact go .wake _ rfl trivial (by simp only [act]; rw [if_pos hpc])
    | false => right; exact ⟨rfl, (g.wait hpc).2, (g.wait hpc).1⟩
  | notice m c n => left; rw [← hpc]; exact go (.notice n (decide (m = none ∧ c = 0)) true) _ rfl rfl (by simp only [act, hpc, true_and, if_true]; rfl)
  | call m c n => left; rw [← hpc]; exact go (.cb m c true) _ rfl rfl (by simp only [act, hpc, and_self, if_true]; rfl)
  | signal m n a => left; rw [← hpc]; exact go .signal _ rfl trivial (by simp only [act, hpc]; rfl)
  | putBack m n => left; rw [← hpc]; exact go .putBack _ rfl trivial (by simp only [act, hpc]; rfl)
  | stopCb => left; rw [← hpc]; exact go .stopCb _ rfl trivial (by simp only [act]; rw [if_pos hpc])
  | fin => left; rw [← hpc]; exact go .fin _ rfl trivial (by simp only [act]; rw [if_pos hpc])
  | free => left; rw [← hpc]; exact go .free _ rfl trivial (by simp only [act]; rw [if_pos hpc])

/-- C83: and then those who wait for it to stop, for it to be destroyed, or, after it ended, for a command, come back. -/
theorem waiters_return {max : Nat} {es : List Ev} {s : St} (hp : Polite es) (h : run (create max) es = some s) (hl : s.locked = false) (hf : s.freed = false) (hg : s.pc = .gone) :
    (s.stopWait > 0 → ∃ s', step s .stopRet = .to s') ∧ (s.killWait = true → ∃ s', step s (.killRet true) = .to s') := by
  have hgood : ∃ d, Good d s := by
    unfold Polite at hp
    cases hd : polite calm es with
    | none => rw [hd] at hp; cases hp
    | some d => exact ⟨d, good_run hd h⟩
  obtain ⟨d, g⟩ := hgood
  refine ⟨fun hw => ?_, fun hw => ?_⟩
  · have hd := g.over hg (Or.inl hw)
    refine ⟨{ s with stopWait := s.stopWait - 1 }, ?_⟩
    unfold step
    rw [if_neg (by dsimp only [possible]; simp [hw]), if_neg (by rw [hf]; simp), if_neg (by rw [hl]; simp)]
    simp only [act]
    rw [if_pos ⟨hw, hd⟩]
  · have hd := g.over hg (Or.inr hw)
    refine ⟨{ s with freed := true, killWait := false }, ?_⟩
    unfold step
    rw [if_neg (by dsimp only [possible]; simp [hw]), if_neg (by rw [hf]; simp), if_neg (by rw [hl]; simp)]
    simp only [act]
    rw [if_neg (by simp [hw, hd]), if_pos trivial]

end Verif.AsyncWriter
