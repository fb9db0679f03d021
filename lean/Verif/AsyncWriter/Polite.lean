import Verif.AsyncWriter.Order
/-! C83: starting, stopping and destroying the asynchronous writer. -/
namespace Verif.AsyncWriter

/-! ### What callers must keep to -/

/-- What is going on outside: the number of calls of stop that have not come back, whether a call that waits for a command has not, and
whether the writer was destroyed. -/
structure Disc where
  inStop : Nat
  inBlock : Bool
  ended : Bool
deriving DecidableEq

/-- The writer is not started while it is being stopped, it is destroyed while no other call is going on, and it is not used afterwards. -/
def allow (d : Disc) : Ev → Option Disc
  | .write .. | .writeHang .. | .setMax .. | .setCmd .. => if d.ended then none else some d
  | .block _ ok => if d.ended then none else some { d with inBlock := d.inBlock || ok }
  | .blockRet => some { d with inBlock := false }
  | .start .. => if d.ended ∨ d.inStop > 0 then none else some d
  | .stop entered => if d.ended then none else some { d with inStop := if entered then d.inStop + 1 else d.inStop }
  | .stopRet => some { d with inStop := d.inStop - 1 }
  | .destroy _ | .kill .. => if d.ended ∨ d.inStop > 0 ∨ d.inBlock then none else some { d with ended := true }
  | _ => some d

def polite : Disc → List Ev → Option Disc
  | d, [] => some d
  | d, e :: es => (allow d e).bind fun d' => polite d' es

def calm : Disc := ⟨0, false, false⟩

/-- The callers keep to the rules. -/
def Polite (es : List Ev) : Prop := (polite calm es).isSome

theorem polite_append (d : Disc) (es es' : List Ev) : polite d (es ++ es') = (polite d es).bind fun d' => polite d' es' := by
  induction es generalizing d with
  | nil => rfl
  | cons e es ih =>
    simp only [List.cons_append, polite]
    cases allow d e with
    | none => rfl
    | some d' => exact ih d'

/-- Invariants along a polite run. -/
theorem polite_ind {P : List Ev → Disc → St → Prop}
    (hs : ∀ pre d s e d' s', P pre d s → allow d e = some d' → act s e = .to s' → s.freed = false → possible s e = true → P (pre ++ [e]) d' s') :
    ∀ (es pre : List Ev) (d : Disc) (s s' : St) (d' : Disc), P pre d s → polite d es = some d' → run s es = some s' → P (pre ++ es) d' s' := by
  intro es
  induction es with
  | nil =>
    intro pre d s s' d' h hp hr
    simp only [run, polite, Option.some.injEq] at hr hp
    subst hr hp
    simpa using h
  | cons e es ih =>
    intro pre d s s' d' h hp hr
    simp only [run] at hr
    simp only [polite] at hp
    cases ha : allow d e with
    | none => rw [ha] at hp; cases hp
    | some d1 =>
      rw [ha] at hp
      split at hr
      · rename_i s1 h1
        obtain ⟨hac, hf, hpo, _⟩ := step_act h1
        have := ih (pre ++ [e]) d1 s1 s' d' (hs pre d s e d1 s1 h ha hac hf hpo) hp hr
        simpa using this
      · cases hr

/-- The thread is about to end. -/
def leaving : Pc → Bool
  | .stopCb | .fin => true
  | .notice m c _ => decide (m = none ∧ c = 0)
  | _ => false

/-- What holds along a polite run. -/
structure Good (d : Disc) (s : St) : Prop where
  stop : d.inStop = s.stopWait
  block : d.inBlock = s.cmdWait
  killEnd : s.killWait = true → d.ended = true
  live : d.ended = false → s.mode = .stopped ∨ s.mode = .running
  freed : s.freed = true → s.pc = .gone ∧ s.stopWait = 0 ∧ s.cmdWait = false ∧ s.killWait = false ∧ d.ended = true
  quiet : d.ended = true → s.stopWait = 0 ∧ s.cmdWait = false
  gone : s.pc = .gone → s.freed = false → s.mode = .stopped
  stopped : s.mode = .stopped → s.pc ≠ .gone → s.stopWait > 0 ∨ s.killWait = true
  done : s.done = true → s.pc = .gone ∨ s.pc = .free
  over : s.pc = .gone → s.stopWait > 0 ∨ s.killWait = true → s.done = true
  kill : s.killWait = true → s.mode = .flushStop ∨ s.mode = .stopped
  flushStop : s.mode = .flushStop → s.killWait = true
  free : s.pc = .free → s.mode = .destroying
  wait : s.pc = .wait false → s.mode = .running ∧ s.q = []
  bye : leaving s.pc = true → s.mode ≠ .running

theorem good_create (max : Nat) : Good calm (create max) := by
  constructor <;> simp [create, calm, leaving]

@[simp] theorem wakeUp_gone (s : St) : (wakeUp s).pc = .gone ↔ s.pc = .gone := by rw [wakeUp_pc]; cases s.pc <;> simp
@[simp] theorem wakeUp_free (s : St) : (wakeUp s).pc = .free ↔ s.pc = .free := by rw [wakeUp_pc]; cases s.pc <;> simp
@[simp] theorem wakeUp_wait (s : St) : (wakeUp s).pc ≠ .wait false := by rw [wakeUp_pc]; cases s.pc <;> simp

@[simp] theorem wakeUp_leaving (s : St) : leaving (wakeUp s).pc = leaving s.pc := by rw [wakeUp_pc]; cases s.pc <;> simp [leaving]
@[simp] theorem leaving_afterCb (m : Option Msg) (n : Nat) (ans : Bool) : leaving (afterCb m n ans) = false := by cases m <;> cases ans <;> rfl

theorem afterCb_pc (m : Option Msg) (n : Nat) (ans : Bool) : afterCb m n ans ≠ .gone ∧ afterCb m n ans ≠ .free ∧ afterCb m n ans ≠ .wait false := by
  cases m <;> cases ans <;> simp [afterCb]

theorem good_pop {d : Disc} {s : St} (h : Good d s) (hf : s.freed = false) (hp : s.pc = .top ∨ ∃ w, s.pc = .wait w) : Good d (pop s) := by
  have hg : s.pc ≠ .gone := by rcases hp with hp | ⟨w, hp⟩ <;> rw [hp] <;> simp
  have hfr : s.pc ≠ .free := by rcases hp with hp | ⟨w, hp⟩ <;> rw [hp] <;> simp
  have hd : s.done = false := by
    cases hd : s.done with
    | false => rfl
    | true => rcases h.done hd with h1 | h1 <;> contradiction
  have key : ∀ (s' : St), s'.pc ≠ .gone → s'.pc ≠ .free → (s'.pc = .wait false → s'.mode = .running ∧ s'.q = []) → s'.mode = s.mode → s'.done = s.done → s'.cmdWait = s.cmdWait → s'.stopWait = s.stopWait →
      s'.killWait = s.killWait → s'.freed = s.freed → (leaving s'.pc = true → s.mode ≠ .running) → Good d s' := by
    intro s' h1 h2 h3 h4 h5 h6 h7 h8 h9 h10
    refine ⟨by rw [h7]; exact h.stop, by rw [h6]; exact h.block, by rw [h8]; exact h.killEnd, by rw [h4]; exact h.live, (by rw [h9, hf]; intro h; cases h), by rw [h6, h7]; exact h.quiet,
      fun h => absurd h h1, ?_, (by rw [h5, hd]; intro h; cases h), fun h => absurd h h1, by rw [h8, h4]; exact h.kill, by rw [h4, h8]; exact h.flushStop, fun h => absurd h h2, h3, by rw [h4]; exact h10⟩
    rw [h4, h7, h8]
    exact fun h0 _ => h.stopped h0 hg
  rcases pop_cases s with ⟨hq, hm, _, e⟩ | ⟨hm, e⟩ | ⟨hm, e⟩ | ⟨_, o, q, hq, e⟩ | ⟨_, _, _, hc, e⟩
  · rw [e]; exact key _ (by simp) (by simp) (fun _ => ⟨hm, hq⟩) rfl rfl rfl rfl rfl rfl (by simp [leaving])
  · rw [e]
    refine key _ ?_ ?_ ?_ rfl rfl rfl rfl rfl rfl ?_
    · simp only; split <;> simp
    · simp only; split <;> simp
    · simp only; split <;> simp
    · intro _ h1
      rcases hm with hm | hm
      · rw [hm] at h1; cases h1
      · simp [inFlush, h1] at hm
  · rw [e]; exact key _ (by simp) (by simp) (by simp) rfl rfl rfl rfl rfl rfl (by rw [hm]; simp)
  · rw [e]; refine key _ ?_ ?_ ?_ rfl rfl rfl rfl rfl rfl ?_ <;> simp only <;> split <;> simp [leaving]
  · rw [e]; exact key _ (by simp) (by simp) (by simp) rfl rfl rfl rfl rfl rfl (by simp [leaving])

macro "good_tac" ha:ident hs:ident : tactic => `(tactic| (
    simp only [act] at $hs:ident
    dsimp only [allow] at $ha:ident
    repeat' split at $hs:ident
    all_goals first
      | cases $hs:ident; done
      | skip
    all_goals (try (split at $ha:ident)) <;> cases $ha:ident <;> cases $hs:ident <;> constructor <;>
      (try simp only [ne_eq, wakeUp_gone, wakeUp_free, wakeUp_mode, wakeUp_done, wakeUp_cmdWait, wakeUp_stopWait, wakeUp_killWait, wakeUp_freed, wakeUp_q, wakeUp_leaving]) <;>
      grind [afterCb_pc, wakeUp_wait, inFlush, leaving, leaving_afterCb]))

theorem good_setMax {d d' : Disc} {s s' : St} {n} (h : Good d s) (ha : allow d (.setMax n) = some d') (hs : act s (.setMax n) = .to s') (hf : s.freed = false) : Good d' s' := by
  obtain ⟨h1, h2, h3, h4, h5, h6, h7, h8, h9, h10, h11, h12, h13, h14, h15⟩ := h
  good_tac ha hs

theorem good_setCmd {d d' : Disc} {s s' : St} {c f ok} (h : Good d s) (ha : allow d (.setCmd c f ok) = some d') (hs : act s (.setCmd c f ok) = .to s') (hf : s.freed = false) : Good d' s' := by
  obtain ⟨h1, h2, h3, h4, h5, h6, h7, h8, h9, h10, h11, h12, h13, h14, h15⟩ := h
  good_tac ha hs

theorem good_block {d d' : Disc} {s s' : St} {c ok} (h : Good d s) (ha : allow d (.block c ok) = some d') (hs : act s (.block c ok) = .to s') (hf : s.freed = false) : Good d' s' := by
  obtain ⟨h1, h2, h3, h4, h5, h6, h7, h8, h9, h10, h11, h12, h13, h14, h15⟩ := h
  good_tac ha hs

theorem good_blockRet {d d' : Disc} {s s' : St}  (h : Good d s) (ha : allow d .blockRet = some d') (hs : act s .blockRet = .to s') (hf : s.freed = false) : Good d' s' := by
  obtain ⟨h1, h2, h3, h4, h5, h6, h7, h8, h9, h10, h11, h12, h13, h14, h15⟩ := h
  good_tac ha hs

theorem good_start {d d' : Disc} {s s' : St} {created ok} (h : Good d s) (ha : allow d (.start created ok) = some d') (hs : act s (.start created ok) = .to s') (hf : s.freed = false) : Good d' s' := by
  obtain ⟨h1, h2, h3, h4, h5, h6, h7, h8, h9, h10, h11, h12, h13, h14, h15⟩ := h
  good_tac ha hs

theorem good_stop {d d' : Disc} {s s' : St} {entered} (h : Good d s) (ha : allow d (.stop entered) = some d') (hs : act s (.stop entered) = .to s') (hf : s.freed = false) : Good d' s' := by
  obtain ⟨h1, h2, h3, h4, h5, h6, h7, h8, h9, h10, h11, h12, h13, h14, h15⟩ := h
  good_tac ha hs

theorem good_stopRet {d d' : Disc} {s s' : St}  (h : Good d s) (ha : allow d .stopRet = some d') (hs : act s .stopRet = .to s') (hf : s.freed = false) : Good d' s' := by
  obtain ⟨h1, h2, h3, h4, h5, h6, h7, h8, h9, h10, h11, h12, h13, h14, h15⟩ := h
  good_tac ha hs

theorem good_destroy {d d' : Disc} {s s' : St} {flush} (h : Good d s) (ha : allow d (.destroy flush) = some d') (hs : act s (.destroy flush) = .to s') (hf : s.freed = false) : Good d' s' := by
  obtain ⟨h1, h2, h3, h4, h5, h6, h7, h8, h9, h10, h11, h12, h13, h14, h15⟩ := h
  good_tac ha hs

theorem good_kill {d d' : Disc} {s s' : St} {flush entered} (h : Good d s) (ha : allow d (.kill flush entered) = some d') (hs : act s (.kill flush entered) = .to s') (hf : s.freed = false) : Good d' s' := by
  obtain ⟨h1, h2, h3, h4, h5, h6, h7, h8, h9, h10, h11, h12, h13, h14, h15⟩ := h
  good_tac ha hs

theorem good_killRet {d d' : Disc} {s s' : St} {dn} (h : Good d s) (ha : allow d (.killRet dn) = some d') (hs : act s (.killRet dn) = .to s') (hf : s.freed = false) : Good d' s' := by
  obtain ⟨h1, h2, h3, h4, h5, h6, h7, h8, h9, h10, h11, h12, h13, h14, h15⟩ := h
  good_tac ha hs

theorem good_notice {d d' : Disc} {s s' : St} {n sh ans} (h : Good d s) (ha : allow d (.notice n sh ans) = some d') (hs : act s (.notice n sh ans) = .to s') (hf : s.freed = false) : Good d' s' := by
  obtain ⟨h1, h2, h3, h4, h5, h6, h7, h8, h9, h10, h11, h12, h13, h14, h15⟩ := h
  good_tac ha hs

theorem good_cb {d d' : Disc} {s s' : St} {m c ans} (h : Good d s) (ha : allow d (.cb m c ans) = some d') (hs : act s (.cb m c ans) = .to s') (hf : s.freed = false) : Good d' s' := by
  obtain ⟨h1, h2, h3, h4, h5, h6, h7, h8, h9, h10, h11, h12, h13, h14, h15⟩ := h
  good_tac ha hs

theorem good_signal {d d' : Disc} {s s' : St}  (h : Good d s) (ha : allow d .signal = some d') (hs : act s .signal = .to s') (hf : s.freed = false) : Good d' s' := by
  obtain ⟨h1, h2, h3, h4, h5, h6, h7, h8, h9, h10, h11, h12, h13, h14, h15⟩ := h
  good_tac ha hs

theorem good_stopCb {d d' : Disc} {s s' : St}  (h : Good d s) (ha : allow d .stopCb = some d') (hs : act s .stopCb = .to s') (hf : s.freed = false) : Good d' s' := by
  obtain ⟨h1, h2, h3, h4, h5, h6, h7, h8, h9, h10, h11, h12, h13, h14, h15⟩ := h
  good_tac ha hs

theorem good_fin {d d' : Disc} {s s' : St}  (h : Good d s) (ha : allow d .fin = some d') (hs : act s .fin = .to s') (hf : s.freed = false) : Good d' s' := by
  obtain ⟨h1, h2, h3, h4, h5, h6, h7, h8, h9, h10, h11, h12, h13, h14, h15⟩ := h
  have hm : s.mode = .stopped ∨ s.mode = .running ∨ s.mode = .flushStop ∨ s.mode = .flushDestroy ∨ s.mode = .destroying := by cases s.mode <;> simp
  good_tac ha hs

theorem good_free {d d' : Disc} {s s' : St}  (h : Good d s) (ha : allow d .free = some d') (hs : act s .free = .to s') (hf : s.freed = false) : Good d' s' := by
  obtain ⟨h1, h2, h3, h4, h5, h6, h7, h8, h9, h10, h11, h12, h13, h14, h15⟩ := h
  good_tac ha hs

theorem good_writeHang {d d' : Disc} {s s' : St} {m} (h : Good d s) (ha : allow d (.writeHang m) = some d') (hs : act s (.writeHang m) = .to s') (hf : s.freed = false) : Good d' s' := by
  obtain ⟨h1, h2, h3, h4, h5, h6, h7, h8, h9, h10, h11, h12, h13, h14, h15⟩ := h
  good_tac ha hs

theorem good_step {d d' : Disc} {s s' : St} {e : Ev} (h : Good d s) (ha : allow d e = some d') (hs : act s e = .to s') (hf : s.freed = false) : Good d' s' := by
  have h0 := h
  have hpop := fun hp => good_pop h hf hp
  obtain ⟨h1, h2, h3, h4, h5, h6, h7, h8, h9, h10, h11, h12, h13, h14, h15⟩ := h
  cases e with
  | write m r =>
    simp only [act] at hs
    dsimp only [allow] at ha
    split at ha
    · cases ha
    · cases ha
      split at hs
      · rename_i r' s1 hw
        split at hs
        · cases hs
          rcases write_cases hw with ⟨_, rfl, _⟩ | ⟨_, rfl, _⟩ | ⟨_, _, _, q, st, d, ht, rfl⟩
          · exact ⟨h1, h2, h3, h4, h5, h6, h7, h8, h9, h10, h11, h12, h13, h14, h15⟩
          · exact ⟨h1, h2, h3, h4, h5, h6, h7, h8, h9, h10, h11, h12, h13, h14, h15⟩
          · constructor <;> simp only [ne_eq, wakeUp_gone, wakeUp_free, wakeUp_mode, wakeUp_done, wakeUp_cmdWait, wakeUp_stopWait, wakeUp_killWait, wakeUp_freed, wakeUp_q, wakeUp_leaving] <;> grind [wakeUp_wait, leaving]
        · cases hs
      · cases hs
  | pop =>
    simp only [act] at hs
    split at hs <;> cases hs
    cases ha
    exact hpop (Or.inl ‹_›)
  | wake =>
    simp only [act] at hs
    split at hs <;> cases hs
    cases ha
    exact hpop (Or.inr ⟨_, ‹_›⟩)
  | spurious =>
    simp only [act] at hs
    split at hs <;> cases hs
    cases ha
    exact hpop (Or.inr ⟨_, ‹_›⟩)
  | putBack =>
    simp only [act] at hs
    split at hs
    · rename_i m n hp
      cases hs
      cases ha
      rcases replace_cases s m n with ⟨_, e⟩ | ⟨_, _, _, hq, e⟩ | ⟨_, _, _, hq, e⟩ | ⟨_, _, e⟩ <;> rw [e] <;> constructor <;> simp only [ne_eq, wakeUp_gone, wakeUp_free, wakeUp_mode, wakeUp_done, wakeUp_cmdWait, wakeUp_stopWait, wakeUp_killWait, wakeUp_freed, wakeUp_q, wakeUp_leaving] <;> grind [wakeUp_wait, leaving]
    · cases hs
  | setMax n => exact good_setMax h0 ha hs hf
  | setCmd c f ok => exact good_setCmd h0 ha hs hf
  | block c ok => exact good_block h0 ha hs hf
  | blockRet  => exact good_blockRet h0 ha hs hf
  | start created ok => exact good_start h0 ha hs hf
  | stop entered => exact good_stop h0 ha hs hf
  | stopRet  => exact good_stopRet h0 ha hs hf
  | destroy flush => exact good_destroy h0 ha hs hf
  | kill flush entered => exact good_kill h0 ha hs hf
  | killRet dn => exact good_killRet h0 ha hs hf
  | notice n sh ans => exact good_notice h0 ha hs hf
  | cb m c ans => exact good_cb h0 ha hs hf
  | signal  => exact good_signal h0 ha hs hf
  | stopCb  => exact good_stopCb h0 ha hs hf
  | fin  => exact good_fin h0 ha hs hf
  | free  => exact good_free h0 ha hs hf
  | writeHang m => exact good_writeHang h0 ha hs hf

theorem good_run {max : Nat} {es : List Ev} {s : St} {d : Disc} (hp : polite calm es = some d) (h : run (create max) es = some s) : Good d s :=
  polite_ind (P := fun _ d s => Good d s) (fun _ _ _ _ _ _ h1 ha hs hf _ => good_step h1 ha hs hf) es [] calm (create max) s d (good_create max) hp h

/-! ### C83 -/

/-- C83: while the callers keep to the rules, memory that was given back is never used and there are never two internal threads. -/
theorem safe {max : Nat} {es : List Ev} {s : St} {e : Ev} (hp : Polite (es ++ [e])) (h : run (create max) es = some s) : step s e ≠ .ub ∧ step s e ≠ .two := by
  unfold Polite at hp
  rw [polite_append] at hp
  cases hd : polite calm es with
  | none => rw [hd] at hp; cases hp
  | some d =>
    rw [hd] at hp
    have hg := good_run hd h
    have ha : ∃ d', allow d e = some d' := by
      dsimp only [Option.bind_some, polite] at hp
      cases hx : allow d e with
      | none => rw [hx] at hp; cases hp
      | some d' => exact ⟨d', rfl⟩
    obtain ⟨d', ha⟩ := ha
    unfold step
    split
    · exact ⟨by simp, by simp⟩
    · rename_i hpo
      split
      · rename_i hf
        exfalso
        obtain ⟨h1, h2, h3, h4, h5⟩ := hg.freed hf
        cases e <;> first | (dsimp only [allow] at ha; simp [h5] at ha; done) | (dsimp only [possible] at hpo; simp [h1, h2, h3, h4] at hpo; done)
      · split
        · exact ⟨by simp, by simp⟩
        · rename_i hf _
          simp only [Bool.not_eq_true] at hf
          refine ⟨?_, ?_⟩
          · intro hs
            cases e <;> simp only [act] at hs <;> (repeat' split at hs) <;> cases hs
          · intro hs
            cases e with
            | start created ok =>
              simp only [act] at hs
              dsimp only [allow] at ha
              split at ha
              · cases ha
              · rename_i hen
                split at hs
                · split at hs <;> cases hs
                · rename_i hm
                  have hm : s.mode = .stopped := Classical.byContradiction hm
                  split at hs
                  · split at hs
                    · split at hs
                      · cases hs
                      · rename_i hpc
                        rcases hg.stopped hm hpc with h1 | h1
                        · have := hg.stop; omega
                        · exact hen (Or.inl (hg.killEnd h1))
                    · cases hs
                  · split at hs <;> cases hs
            | _ => simp only [act] at hs; (repeat' split at hs) <;> cases hs

/-- C83: after the writer was destroyed nothing more happens: no callback is called and it is not destroyed again. -/
theorem silent {max : Nat} {es : List Ev} {s : St} {e : Ev} (hp : Polite (es ++ [e])) (h : run (create max) es = some s) (hf : s.freed = true) : step s e = .no := by
  have h1 := (safe hp h).1
  unfold step at h1 ⊢
  split
  · rfl
  · rename_i hpo
    rw [if_neg hpo, if_pos hf] at h1
    exact absurd rfl h1

/-- C83: no wake-up is lost: a thread that sleeps has nothing to do. -/
theorem asleep {max : Nat} {es : List Ev} {s : St} (hp : Polite es) (h : run (create max) es = some s) (hw : s.pc = .wait false) : s.q = [] ∧ s.mode = .running := by
  unfold Polite at hp
  cases hd : polite calm es with
  | none => rw [hd] at hp; cases hp
  | some d => exact (good_run hd h).wait hw |>.symm

end Verif.AsyncWriter
