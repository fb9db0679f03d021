import Verif.AsyncWriter.Account
/-! C81, C83: what the callback is told at the end. -/
namespace Verif.AsyncWriter

/-- The writer was destroyed so that what is in the queue is written first, and the caller did not give up waiting. -/
def flushing (es : List Ev) : Prop := (.destroy true ∈ es ∨ .kill true true ∈ es) ∧ .killRet false ∉ es

/-- The writer was destroyed. -/
def destroyed (es : List Ev) : Prop := (∃ f, .destroy f ∈ es) ∨ ∃ f w, .kill f w ∈ es

/-- The writer was destroyed with waiting for the thread but without writing what is in the queue. -/
def rude (es : List Ev) : Prop := .kill false true ∈ es

/-- The thread has not come to its end. -/
def working : Pc → Bool
  | .stopCb | .fin | .free | .gone => false
  | _ => true

@[simp] theorem working_wakeUp (s : St) : working (wakeUp s).pc = working s.pc := by rw [wakeUp_pc]; cases s.pc <;> rfl
@[simp] theorem working_afterCb (m : Option Msg) (n : Nat) (ans : Bool) : working (afterCb m n ans) = true := by cases m <;> cases ans <;> rfl
@[simp] theorem wakeUp_stopCb (s : St) : (wakeUp s).pc = .stopCb ↔ s.pc = .stopCb := by rw [wakeUp_pc]; cases s.pc <;> simp
@[simp] theorem wakeUp_notice (s : St) (m : Option Msg) (c : BitVec 64) (n : Nat) : (wakeUp s).pc = .notice m c n ↔ s.pc = .notice m c n := by rw [wakeUp_pc]; cases s.pc <;> simp
theorem afterCb_pc2 (m : Option Msg) (n : Nat) (ans : Bool) : afterCb m n ans ≠ .stopCb ∧ (∀ m' c k, afterCb m n ans ≠ .notice m' c k) := by
  cases m <;> cases ans <;> simp [afterCb]

structure End (D F R : Prop) (T : Nat) (d : Disc) (s : St) : Prop where
  e0 : d.ended = false → T = 0
  e1 : working s.pc = true → T = 0
  e2 : ∀ n, s.pc = .notice none 0 n → n = s.dropped + s.q.length ∧ d.ended = true
  e3 : d.ended = true → ¬ R → s.pc = .stopCb → T = s.dropped + s.q.length
  e4 : d.ended = true → ¬ R → s.pc ≠ .gone → s.mode ≠ .stopped
  e5 : d.ended = true → F → s.pc ≠ .gone → s.pc ≠ .free → s.mode = .flushDestroy ∨ s.mode = .flushStop
  e6 : d.ended = true → F → leaving s.pc = true → s.q = []
  e7 : D → d.ended = true
  e8 : d.ended = true → s.pc ≠ .gone → s.mode ≠ .running
  e9 : F → D
  e10 : R → D
  e11 : F → ¬ R

abbrev EndOf (pre : List Ev) : Disc → St → Prop := End (destroyed pre) (flushing pre) (rude pre) (shut pre)

theorem shut_snoc (pre : List Ev) (e : Ev) : shut (pre ++ [e]) = shut pre + shut1 e := (sum_snoc pre e).2.2.2.2

theorem ghost_other {pre : List Ev} {e : Ev} (h : ∀ f, e ≠ .destroy f) (h1 : ∀ f w, e ≠ .kill f w) (h2 : e ≠ .killRet false) :
    destroyed (pre ++ [e]) = destroyed pre ∧ flushing (pre ++ [e]) = flushing pre ∧ rude (pre ++ [e]) = rude pre := by
  have a : ∀ f, Ev.destroy f ∈ pre ++ [e] ↔ Ev.destroy f ∈ pre := fun f => by simp [(h f).symm]
  have b : ∀ f w, Ev.kill f w ∈ pre ++ [e] ↔ Ev.kill f w ∈ pre := fun f w => by simp [(h1 f w).symm]
  have c : Ev.killRet false ∈ pre ++ [e] ↔ Ev.killRet false ∈ pre := by simp [h2.symm]
  simp only [destroyed, flushing, rude, a, b, c, and_self]

macro "end_tac" ha:ident hs:ident : tactic => `(tactic| (
    simp only [act] at $hs:ident
    dsimp only [allow] at $ha:ident
    repeat' split at $hs:ident
    all_goals first
      | cases $hs:ident; done
      | skip
    all_goals (try (split at $ha:ident)) <;> cases $ha:ident <;> cases $hs:ident <;> constructor <;>
      (try simp only [ne_eq, wakeUp_gone, wakeUp_free, wakeUp_mode, wakeUp_done, wakeUp_cmdWait, wakeUp_stopWait, wakeUp_killWait, wakeUp_freed, wakeUp_q, wakeUp_leaving, wakeUp_dropped, working_wakeUp, wakeUp_stopCb, wakeUp_notice]) <;>
      grind [afterCb_pc, afterCb_pc2, wakeUp_wait, inFlush, leaving, leaving_afterCb, working, working_afterCb]))

section
variable {D F R : Prop} {T : Nat} {d d' : Disc} {s s' : St}

theorem end_start {created ok} (h : End D F R T d s) (g : Good d s) (ha : allow d (.start created ok) = some d') (hs : act s (.start created ok) = .to s') : End D F R T d' s' := by
  obtain ⟨h0, h1, h2, h3, h4, h5, h6, h7, h8, h9, h10, h11⟩ := h
  obtain ⟨g1, g2, g3, g4, g5, g6, g7, g8, g9, g10, g11, g12, g13, g14, g15⟩ := g
  end_tac ha hs

theorem end_stop {entered} (h : End D F R T d s) (g : Good d s) (ha : allow d (.stop entered) = some d') (hs : act s (.stop entered) = .to s') : End D F R T d' s' := by
  obtain ⟨h0, h1, h2, h3, h4, h5, h6, h7, h8, h9, h10, h11⟩ := h
  obtain ⟨g1, g2, g3, g4, g5, g6, g7, g8, g9, g10, g11, g12, g13, g14, g15⟩ := g
  end_tac ha hs

theorem end_destroy {f} (h : End D F R T d s) (g : Good d s) (ha : allow d (.destroy f) = some d') (hs : act s (.destroy f) = .to s') :
    End True (f = true ∧ X) False T d' s' := by
  obtain ⟨h0, h1, h2, h3, h4, h5, h6, h7, h8, h9, h10, h11⟩ := h
  obtain ⟨g1, g2, g3, g4, g5, g6, g7, g8, g9, g10, g11, g12, g13, g14, g15⟩ := g
  end_tac ha hs

theorem end_kill {f w} (h : End D F R T d s) (g : Good d s) (ha : allow d (.kill f w) = some d') (hs : act s (.kill f w) = .to s') :
    End True (f = true ∧ w = true ∧ X) (f = false ∧ w = true) T d' s' := by
  obtain ⟨h0, h1, h2, h3, h4, h5, h6, h7, h8, h9, h10, h11⟩ := h
  obtain ⟨g1, g2, g3, g4, g5, g6, g7, g8, g9, g10, g11, g12, g13, g14, g15⟩ := g
  end_tac ha hs

theorem end_killRet {dn} (h : End D F R T d s) (g : Good d s) (ha : allow d (.killRet dn) = some d') (hs : act s (.killRet dn) = .to s') : End D (F ∧ dn = true) R T d' s' := by
  obtain ⟨h0, h1, h2, h3, h4, h5, h6, h7, h8, h9, h10, h11⟩ := h
  obtain ⟨g1, g2, g3, g4, g5, g6, g7, g8, g9, g10, g11, g12, g13, g14, g15⟩ := g
  end_tac ha hs

theorem end_fin (h : End D F R T d s) (g : Good d s) (ha : allow d .fin = some d') (hs : act s .fin = .to s') : End D F R T d' s' := by
  obtain ⟨h0, h1, h2, h3, h4, h5, h6, h7, h8, h9, h10, h11⟩ := h
  obtain ⟨g1, g2, g3, g4, g5, g6, g7, g8, g9, g10, g11, g12, g13, g14, g15⟩ := g
  have hm : s.mode = .stopped ∨ s.mode = .running ∨ s.mode = .flushStop ∨ s.mode = .flushDestroy ∨ s.mode = .destroying := by cases s.mode <;> simp
  end_tac ha hs

theorem end_notice {n sh} (h : End D F R T d s) (ha : allow d (.notice n sh true) = some d') (hs : act s (.notice n sh true) = .to s') : End D F R (T + shut1 (.notice n sh true)) d' s' := by
  obtain ⟨h0, h1, h2, h3, h4, h5, h6, h7, h8, h9, h10, h11⟩ := h
  simp only [act] at hs
  dsimp only [allow] at ha
  cases ha
  split at hs
  · rename_i m c k hp
    split at hs
    · rename_i hn
      obtain ⟨rfl, rfl⟩ := hn
      cases hs
      by_cases hmc : m = none ∧ c = 0
      · obtain ⟨rfl, rfl⟩ := hmc
        obtain ⟨he, hd⟩ := h2 _ hp
        have hT : T = 0 := h1 (by rw [hp]; rfl)
        have hl : leaving s.pc = true := by rw [hp]; simp [leaving]
        have hg : s.pc ≠ .gone := by rw [hp]; simp
        have hfr : s.pc ≠ .free := by rw [hp]; simp
        have hsh : shut1 (.notice n (decide ((none : Option Msg) = none ∧ (0 : BitVec 64) = 0)) true) = n := by simp [shut1]
        rw [hsh, hT, if_pos ⟨rfl, rfl⟩]
        constructor <;> (try simp [working, leaving]) <;> grind
      · rw [if_neg hmc, if_pos trivial, decide_eq_false hmc]
        have hT : T = 0 := h1 (by rw [hp]; rfl)
        have hg : s.pc ≠ .gone := by rw [hp]; simp
        have hfr : s.pc ≠ .free := by rw [hp]; simp
        constructor <;> (try simp [working, leaving, shut1]) <;> grind
    · cases hs
  · cases hs

theorem end_pop (h : End D F R T d s) (g : Good d s) (hp : s.pc = .top ∨ ∃ w, s.pc = .wait w) : End D F R T d (pop s) := by
  obtain ⟨h0, h1, h2, h3, h4, h5, h6, h7, h8, h9, h10, h11⟩ := h
  have hg : s.pc ≠ .gone := by rcases hp with hp | ⟨w, hp⟩ <;> rw [hp] <;> simp
  have hfr : s.pc ≠ .free := by rcases hp with hp | ⟨w, hp⟩ <;> rw [hp] <;> simp
  have hT : T = 0 := h1 (by rcases hp with hp | ⟨w, hp⟩ <;> rw [hp] <;> rfl)
  have hend : s.mode ≠ .running → s.mode ≠ .stopped → d.ended = true := by
    intro a b
    cases hd : d.ended with
    | true => rfl
    | false => rcases g.live hd with h | h <;> contradiction
  rcases pop_cases s with ⟨hq, hm, _, e⟩ | ⟨hm, e⟩ | ⟨hm, e⟩ | ⟨hm, o, q, hq, e⟩ | ⟨hm, _, _, hc, e⟩
  · rw [e]; constructor <;> grind [working, leaving]
  · rw [e]
    have hd : d.ended = true := by apply hend <;> grind [inFlush]
    by_cases hz : s.dropped + s.q.length > 0
    · simp only [hz, if_true]; constructor <;> (try simp only [working, leaving]) <;> grind [inFlush]
    · simp only [hz, if_false]; constructor <;> (try simp only [working, leaving]) <;> grind [inFlush]
  · rw [e]; constructor <;> (try simp only [working, leaving]) <;> grind
  · rw [e]; by_cases hz : s.dropped > 0
    · simp only [hz, if_true]; constructor <;> (try simp only [working, leaving]) <;> grind [inFlush]
    · simp only [hz, if_false]; constructor <;> (try simp only [working, leaving]) <;> grind [inFlush]
  · rw [e]; constructor <;> (try simp only [working, leaving]) <;> grind

theorem end_write {m r} (h : End D F R T d s) (g : Good d s) (ha : allow d (.write m r) = some d') (hs : act s (.write m r) = .to s') : End D F R T d' s' := by
  obtain ⟨h0, h1, h2, h3, h4, h5, h6, h7, h8, h9, h10, h11⟩ := h
  simp only [act] at hs
  dsimp only [allow] at ha
  split at ha
  · cases ha
  · rename_i hen
    cases ha
    simp only [Bool.not_eq_true] at hen
    split at hs
    · rename_i r' s1 hw
      split at hs
      · cases hs
        have hn : ∀ n, s.pc ≠ .notice none 0 n := by
          intro n hn
          have := (h2 n hn).2
          rw [hen] at this; cases this
        rcases write_cases hw with ⟨_, rfl, _⟩ | ⟨_, rfl, _⟩ | ⟨_, _, _, q, st, d', _, rfl⟩
        all_goals constructor <;> (try simp only [wakeUp_notice, working_wakeUp, wakeUp_leaving]) <;> grind
      · cases hs
    · cases hs

theorem end_putBack (h : End D F R T d s) (hs : act s .putBack = .to s') : End D F R T d s' := by
  obtain ⟨h0, h1, h2, h3, h4, h5, h6, h7, h8, h9, h10, h11⟩ := h
  simp only [act] at hs
  split at hs
  · rename_i m n hp
    cases hs
    have hT : T = 0 := h1 (by rw [hp]; rfl)
    have hg : s.pc ≠ .gone := by rw [hp]; simp
    have hfr : s.pc ≠ .free := by rw [hp]; simp
    rcases replace_cases s m n with ⟨_, e⟩ | ⟨_, _, _, hq, e⟩ | ⟨_, _, _, hq, e⟩ | ⟨_, _, e⟩ <;> rw [e] <;>
    constructor <;> (try simp only [working, leaving]) <;> grind
  · cases hs

theorem end_other {e : Ev} (h : End D F R T d s) (g : Good d s) (ha : allow d e = some d') (hs : act s e = .to s')
    (he : (∃ n, e = .setMax n) ∨ (∃ m, e = .writeHang m) ∨ (∃ c f ok, e = .setCmd c f ok) ∨ (∃ c ok, e = .block c ok) ∨ e = .blockRet ∨ e = .stopRet ∨ (∃ m c a, e = .cb m c a) ∨ e = .signal ∨ e = .stopCb ∨ e = .free) :
    End D F R T d' s' := by
  obtain ⟨h0, h1, h2, h3, h4, h5, h6, h7, h8, h9, h10, h11⟩ := h
  rcases he with ⟨n, rfl⟩ | ⟨m, rfl⟩ | ⟨c, f, ok, rfl⟩ | ⟨c, ok, rfl⟩ | rfl | rfl | ⟨m, c, a, rfl⟩ | rfl | rfl | rfl <;> end_tac ha hs

end

theorem end_step {pre : List Ev} {d d' : Disc} {s s' : St} {e : Ev} (h : EndOf pre d s) (g : Good d s) (ht : Takes e) (ha : allow d e = some d') (hs : act s e = .to s') :
    EndOf (pre ++ [e]) d' s' := by
  have other : (∀ f, e ≠ .destroy f) → (∀ f w, e ≠ .kill f w) → e ≠ .killRet false → shut1 e = 0 → End (destroyed pre) (flushing pre) (rude pre) (shut pre) d' s' → EndOf (pre ++ [e]) d' s' := by
    intro a b c z hh
    obtain ⟨x1, x2, x3⟩ := ghost_other (pre := pre) a b c
    unfold EndOf
    rw [x1, x2, x3, shut_snoc, z]
    exact hh
  cases e with
  | write m r => exact other (by simp) (by simp) (by simp) rfl (end_write h g ha hs)
  | start a b => exact other (by simp) (by simp) (by simp) rfl (end_start h g ha hs)
  | stop a => exact other (by simp) (by simp) (by simp) rfl (end_stop h g ha hs)
  | fin => exact other (by simp) (by simp) (by simp) rfl (end_fin h g ha hs)
  | putBack => exact other (by simp) (by simp) (by simp) rfl (by dsimp only [allow] at ha; cases ha; exact end_putBack h hs)
  | pop => exact other (by simp) (by simp) (by simp) rfl (by dsimp only [allow] at ha; cases ha; simp only [act] at hs; split at hs <;> cases hs; exact end_pop h g (Or.inl ‹_›))
  | wake => exact other (by simp) (by simp) (by simp) rfl (by dsimp only [allow] at ha; cases ha; simp only [act] at hs; split at hs <;> cases hs; exact end_pop h g (Or.inr ⟨_, ‹_›⟩))
  | spurious => exact other (by simp) (by simp) (by simp) rfl (by dsimp only [allow] at ha; cases ha; simp only [act] at hs; split at hs <;> cases hs; exact end_pop h g (Or.inr ⟨_, ‹_›⟩))
  | notice n sh a =>
    simp only [Takes] at ht
    subst ht
    have := end_notice h ha hs
    obtain ⟨x1, x2, x3⟩ := ghost_other (pre := pre) (e := .notice n sh true) (by simp) (by simp) (by simp)
    unfold EndOf
    rw [x1, x2, x3, shut_snoc]
    exact this
  | destroy f =>
    have hd : ¬ destroyed pre := by
      intro hd
      have := h.e7 hd
      dsimp only [allow] at ha
      rw [this] at ha
      simp at ha
    have x1 : destroyed (pre ++ [.destroy f]) = True := eq_true (Or.inl ⟨f, by simp⟩)
    have x2 : flushing (pre ++ [.destroy f]) = (f = true ∧ .killRet false ∉ pre) := by
      apply propext
      have a : ∀ f, Ev.destroy f ∉ pre := fun f hf => hd (Or.inl ⟨f, hf⟩)
      have b : ∀ f w, Ev.kill f w ∉ pre := fun f w hf => hd (Or.inr ⟨f, w, hf⟩)
      simp [flushing, a, b, eq_comm]
    have x3 : rude (pre ++ [.destroy f]) = False := by
      apply eq_false
      have b : ∀ f w, Ev.kill f w ∉ pre := fun f w hf => hd (Or.inr ⟨f, w, hf⟩)
      simp [rude, b]
    unfold EndOf
    rw [x1, x2, x3, shut_snoc]
    exact end_destroy h g ha hs
  | kill f w =>
    have hd : ¬ destroyed pre := by
      intro hd
      have := h.e7 hd
      dsimp only [allow] at ha
      rw [this] at ha
      simp at ha
    have a : ∀ f, Ev.destroy f ∉ pre := fun f hf => hd (Or.inl ⟨f, hf⟩)
    have b : ∀ f w, Ev.kill f w ∉ pre := fun f w hf => hd (Or.inr ⟨f, w, hf⟩)
    have x1 : destroyed (pre ++ [.kill f w]) = True := eq_true (Or.inr ⟨f, w, by simp⟩)
    have x2 : flushing (pre ++ [.kill f w]) = (f = true ∧ w = true ∧ .killRet false ∉ pre) := by
      apply propext
      simp [flushing, a, b, eq_comm, and_assoc]
    have x3 : rude (pre ++ [.kill f w]) = (f = false ∧ w = true) := by
      apply propext
      simp [rude, b, eq_comm]
    unfold EndOf
    rw [x1, x2, x3, shut_snoc]
    exact end_kill h g ha hs
  | killRet dn =>
    have x1 : destroyed (pre ++ [.killRet dn]) = destroyed pre := by simp [destroyed]
    have x2 : flushing (pre ++ [.killRet dn]) = (flushing pre ∧ dn = true) := by
      apply propext
      simp [flushing, and_assoc]
    have x3 : rude (pre ++ [.killRet dn]) = rude pre := by simp [rude]
    unfold EndOf
    rw [x1, x2, x3, shut_snoc]
    exact end_killRet h g ha hs
  | _ => exact other (by simp) (by simp) (by simp) rfl (end_other h g ha hs (by simp))

theorem end_run {max : Nat} {es : List Ev} {s : St} {d : Disc} (hp : polite calm es = some d) (h : run (create max) es = some s) (ht : ∀ e ∈ es, Takes e) : EndOf es d s := by
  have := polite_ind (P := fun pre d s => Good d s ∧ ((∀ e ∈ pre, Takes e) → EndOf pre d s))
    (fun pre d s e d' s' h1 ha hs hf _ => ⟨good_step h1.1 ha hs hf, fun ht => end_step (h1.2 fun e he => ht e (List.mem_append_left _ he)) h1.1 (ht e (by simp)) ha hs⟩)
    es [] calm (create max) s d ⟨good_create max, fun _ => by constructor <;> simp [create, calm, shut, working, leaving, destroyed, flushing, rude]⟩ hp h
  exact this.2 ht

theorem before_stopCb {max : Nat} {es : List Ev} {s : St} (hp : Polite (es ++ [.stopCb])) (h : run (create max) (es ++ [.stopCb]) = some s) :
    ∃ s1 d, polite calm es = some d ∧ run (create max) es = some s1 ∧ s1.pc = .stopCb ∧ s.q = s1.q := by
  unfold Polite at hp
  rw [polite_append] at hp
  rw [run_append] at h
  cases hd : polite calm es with
  | none => rw [hd] at hp; cases hp
  | some d =>
    cases hr : run (create max) es with
    | none => rw [hr] at h; cases h
    | some s1 =>
      rw [hr] at h
      simp only [Option.bind_some, run] at h
      split at h
      · rename_i s2 h2
        simp only [Option.some.injEq] at h
        subst h
        obtain ⟨ha, _⟩ := step_act h2
        simp only [act] at ha
        split at ha
        · rename_i hpc
          cases ha
          exact ⟨s1, d, rfl, rfl, hpc, rfl⟩
        · cases ha
      · cases h

/-- C81: as long as the callback takes all it is given, by the time the writer that was destroyed calls the stop callback each message that was accepted, or was too big, was either taken or
reported as dropped.  Missing is the way of destroying that waits for the thread but does not write what is in the queue, which reports nothing, and a callback that refuses. -/
theorem shutdown_account_partial {max : Nat} {es : List Ev} {s : St} (hp : Polite (es ++ [.stopCb])) (h : run (create max) (es ++ [.stopCb]) = some s) (ht : ∀ e ∈ es, Takes e)
    (hd : destroyed es) (hr : ¬ rude es) : (accepted es).length + tooBig es = (consumed es).length + reported es := by
  obtain ⟨s1, d, hd1, h1, hpc, _⟩ := before_stopCb hp h
  have ha := acc_run h1 ht
  have he := end_run hd1 h1 ht
  have := ha.sum
  rw [hpc] at this
  simp only [held] at this
  have h3 := he.e3 (he.e7 hd) hr hpc
  rw [reported_split]
  omega

/-- C81: if it was destroyed so that the queue is written first, and the caller did not give up waiting, then the queue is empty, what was not taken was dropped before, and if nothing was dropped
then all messages that were accepted were taken, in the order in which they were accepted. -/
theorem flush_partial {max : Nat} {es : List Ev} {s : St} (hp : Polite (es ++ [.stopCb])) (h : run (create max) (es ++ [.stopCb]) = some s) (ht : ∀ e ∈ es, Takes e)
    (hf : flushing es) : s.q = [] ∧ (accepted es).length + tooBig es = (consumed es).length + reported es ∧ (reported es = tooBig es → consumed es = accepted es) := by
  obtain ⟨s1, d, hd1, h1, hpc, hq⟩ := before_stopCb hp h
  have he := end_run hd1 h1 ht
  have hs := shutdown_account_partial hp h ht (he.e9 hf) (he.e11 hf)
  refine ⟨by rw [hq]; exact he.e6 (he.e7 (he.e9 hf)) hf (by rw [hpc]; rfl), hs, fun hr => (in_order h1).eq_of_length (by omega)⟩

end Verif.AsyncWriter
