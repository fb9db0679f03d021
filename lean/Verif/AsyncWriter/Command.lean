import Verif.AsyncWriter.Progress
/-! C82: commands. -/
namespace Verif.AsyncWriter

/-- The commands that were accepted, and those that the callback was given. -/
def asked1 : Ev → BitVec 64
  | .setCmd c _ true => c
  | .block c true => c
  | _ => 0

def given1 : Ev → BitVec 64
  | .cb _ c _ => c
  | _ => 0

def asked (es : List Ev) : BitVec 64 := es.foldl (fun a e => a ||| asked1 e) 0
def given (es : List Ev) : BitVec 64 := es.foldl (fun a e => a ||| given1 e) 0

/-- The callback does not refuse to hear that messages were dropped. -/
def Hears : Ev → Prop
  | .notice _ _ ans => ans = true
  | _ => True

/-- The commands the thread has taken and not yet given to the callback. -/
def pcCmd : Pc → BitVec 64
  | .notice _ c _ | .call _ c _ => c
  | _ => 0

theorem asked_snoc (pre : List Ev) (e : Ev) : asked (pre ++ [e]) = asked pre ||| asked1 e := by simp [asked]
theorem given_snoc (pre : List Ev) (e : Ev) : given (pre ++ [e]) = given pre ||| given1 e := by simp [given]

@[simp] theorem pcCmd_wakeUp (s : St) : pcCmd (wakeUp s).pc = pcCmd s.pc := by rw [wakeUp_pc]; cases s.pc <;> rfl
@[simp] theorem pcCmd_afterCb (m : Option Msg) (n : Nat) (ans : Bool) : pcCmd (afterCb m n ans) = 0 := by cases m <;> cases ans <;> rfl

theorem pcCmd_pop {s : St} (hp : pcCmd s.pc = 0) : (pop s).cmd ||| pcCmd (pop s).pc = s.cmd ||| pcCmd s.pc := by
  rw [hp]
  rcases pop_cases s with ⟨_, _, _, e⟩ | ⟨_, e⟩ | ⟨_, e⟩ | ⟨_, o, q, hq, e⟩ | ⟨_, _, _, hc, e⟩
  · rw [e]; rfl
  · rw [e]; simp only; split <;> rfl
  · rw [e]; rfl
  · rw [e]; simp only; split <;> simp [pcCmd]
  · rw [e]; simp [pcCmd]

theorem replace_cmd (s : St) (m : Msg) (n : Nat) : (replace s m n).cmd = s.cmd ∧ (replace s m n).pc = .top := by
  rcases replace_cases s m n with ⟨_, e⟩ | ⟨_, _, _, hq, e⟩ | ⟨_, _, _, hq, e⟩ | ⟨_, _, e⟩ <;> rw [e] <;> exact ⟨rfl, rfl⟩

/-- What a step does to commands: those that are waiting, in the hand of the thread, or given. -/
theorem cmd_step {s s' : St} {e : Ev} (hs : act s e = .to s') (hh : Hears e) : s.cmd ||| pcCmd s.pc ||| asked1 e = s'.cmd ||| pcCmd s'.pc ||| given1 e := by
  cases e with
  | write m r =>
    simp only [act] at hs
    split at hs
    · rename_i r' s1 hw
      split at hs
      · cases hs
        rcases write_cases hw with ⟨_, rfl, _⟩ | ⟨_, rfl, _⟩ | ⟨_, _, _, q, st, d', _, rfl⟩
        · rfl
        · rfl
        · simp [asked1, given1]
      · cases hs
    · cases hs
  | pop => simp only [act] at hs; split at hs <;> cases hs; simp only [asked1, given1]; rw [pcCmd_pop (by rw [‹s.pc = _›]; rfl)]
  | wake => simp only [act] at hs; split at hs <;> cases hs; simp only [asked1, given1]; rw [pcCmd_pop (by rw [‹s.pc = _›]; rfl)]
  | spurious => simp only [act] at hs; split at hs <;> cases hs; simp only [asked1, given1]; rw [pcCmd_pop (by rw [‹s.pc = _›]; rfl)]
  | putBack =>
    simp only [act] at hs
    split at hs
    · rename_i m n hp
      cases hs
      rw [(replace_cmd s m n).1, (replace_cmd s m n).2, hp]; rfl
    · cases hs
  | notice n sh ans =>
    simp only [Hears] at hh
    subst hh
    simp only [act] at hs
    split at hs
    · rename_i m c k hp
      split at hs
      · cases hs
        rw [hp]
        by_cases hmc : m = none ∧ c = 0
        · simp [hmc, pcCmd, asked1, given1]
        · simp only [hmc, if_false, if_true]; rfl
      · cases hs
    · cases hs
  | cb m c ans =>
    simp only [act] at hs
    split at hs
    · rename_i m' c' n hp
      split at hs
      · rename_i hn
        obtain ⟨rfl, rfl⟩ := hn
        cases hs
        rw [hp]
        have : pcCmd (if c ≠ 0 then .signal m n ans else afterCb m n ans) = 0 := by
          split
          · rfl
          · exact pcCmd_afterCb _ _ _
        simp only [this]
        simp [pcCmd, asked1, given1]
      · cases hs
    · cases hs
  | signal =>
    simp only [act] at hs
    split at hs
    · rename_i m n ans hp
      cases hs
      rw [hp]; simp only [pcCmd_afterCb]; rfl
    · cases hs
  | fin =>
    simp only [act] at hs
    split at hs
    · rename_i hp
      cases hs
      rw [hp]
      simp only
      repeat' split
      all_goals simp [pcCmd, asked1, given1]
    · cases hs
  | start created ok =>
    simp only [act] at hs
    repeat' split at hs
    all_goals first
      | cases hs; done
      | (cases hs; simp_all [pcCmd, asked1, given1]; done)
  | setCmd c f ok =>
    simp only [act] at hs
    repeat' split at hs
    all_goals first
      | cases hs; done
      | (cases hs; simp_all [asked1, given1, BitVec.or_assoc, BitVec.or_comm]; done)
      | (cases hs; simp_all [asked1, given1]; rw [BitVec.or_assoc, BitVec.or_assoc, BitVec.or_comm (pcCmd s.pc)])
  | block c ok =>
    simp only [act] at hs
    repeat' split at hs
    all_goals first
      | cases hs; done
      | (cases hs; simp_all [asked1, given1, BitVec.or_assoc, BitVec.or_comm]; done)
      | (cases hs; simp_all [asked1, given1]; rw [BitVec.or_assoc, BitVec.or_assoc, BitVec.or_comm (pcCmd s.pc)])
  | _ =>
    simp only [act] at hs
    repeat' split at hs
    all_goals first
      | cases hs; done
      | (cases hs; simp_all [asked1, given1]; done)
      | (cases hs; simp_all [asked1, given1, pcCmd]; done)

theorem cmd_step_le {s s' : St} {e : Ev} (hs : act s e = .to s') (i : Nat) (h : (s'.cmd ||| pcCmd s'.pc ||| given1 e).getLsbD i = true) :
    (s.cmd ||| pcCmd s.pc ||| asked1 e).getLsbD i = true := by
  by_cases hh : Hears e
  · rw [cmd_step hs hh]; exact h
  · cases e <;> try (exact absurd trivial hh; done)
    rename_i n sh ans
    cases ans with
    | true => exact absurd rfl hh
    | false =>
      simp only [act] at hs
      split at hs
      · rename_i m c k hp
        split at hs
        · cases hs
          have : pcCmd (if m = none ∧ c = 0 then .stopCb else if false = true then .call m c k else afterCb m k false) = 0 := by
            split
            · rfl
            · exact pcCmd_afterCb _ _ _
          simp only [this] at h
          have h' : s.cmd.getLsbD i = true := by simpa [given1] using h
          simp [h']
        · cases hs
      · cases hs

/-- C82: the callback is given no command that was not asked for. -/
theorem given_asked {max : Nat} {es : List Ev} {s : St} (h : run (create max) es = some s) (i : Nat) (hi : (given es).getLsbD i = true) : (asked es).getLsbD i = true := by
  have := run_ind (P := fun pre s => (given pre ||| s.cmd ||| pcCmd s.pc).getLsbD i = true → (asked pre).getLsbD i = true) ?_ es [] (create max) s (by simp [given, create, pcCmd]) h
  · exact this (by simp only [List.nil_append, BitVec.getLsbD_or, hi, Bool.true_or])
  · intro pre s e s' h1 ha _ h2
    have h3 := cmd_step_le ha i
    rw [asked_snoc]
    rw [given_snoc] at h2
    simp only [BitVec.getLsbD_or, Bool.or_eq_true] at h1 h2 h3 ⊢
    grind

theorem asked_eq {max : Nat} {es : List Ev} {s : St} (h : run (create max) es = some s) (hh : ∀ e ∈ es, Hears e) : asked es = given es ||| (s.cmd ||| pcCmd s.pc) := by
  have := run_ind (P := fun pre s => (∀ e ∈ pre, Hears e) → asked pre = given pre ||| (s.cmd ||| pcCmd s.pc)) ?_ es [] (create max) s (by simp [asked, given, create, pcCmd]) h
  · exact this hh
  · intro pre s e s' h1 ha _ h2
    have h3 := cmd_step ha (h2 e (by simp))
    rw [asked_snoc, given_snoc, h1 fun e he => h2 e (List.mem_append_left _ he), BitVec.or_assoc, h3]
    rw [BitVec.or_comm (s'.cmd ||| pcCmd s'.pc), BitVec.or_assoc]

/-- Calls of the callback. -/
def isCb : Ev → Bool
  | .cb .. => true
  | _ => false

def calls (es : List Ev) : Nat := es.countP isCb

/-- The thread is on the way to the callback. -/
def going : Pc → Bool
  | .call .. => true
  | .notice m c _ => !decide (m = none ∧ c = 0)
  | _ => false

@[simp] theorem going_wakeUp (s : St) : going (wakeUp s).pc = going s.pc := by rw [wakeUp_pc]; cases s.pc <;> rfl
@[simp] theorem going_afterCb (m : Option Msg) (n : Nat) (ans : Bool) : going (afterCb m n ans) = false := by cases m <;> cases ans <;> rfl

theorem going_pop {s : St} (hp : s.pc = .top ∨ ∃ w, s.pc = .wait w) :
    (going (pop s).pc = going s.pc ∧ (pop s).cmd = s.cmd ∧ pcCmd (pop s).pc = pcCmd s.pc) ∨ (going s.pc = false ∧ pcCmd s.pc = 0 ∧ going (pop s).pc = true ∧ pcCmd (pop s).pc = s.cmd) := by
  have hg : going s.pc = false := by rcases hp with hp | ⟨w, hp⟩ <;> rw [hp] <;> rfl
  have hc : pcCmd s.pc = 0 := by rcases hp with hp | ⟨w, hp⟩ <;> rw [hp] <;> rfl
  rw [hg, hc]
  rcases pop_cases s with ⟨_, _, _, e⟩ | ⟨_, e⟩ | ⟨_, e⟩ | ⟨_, o, q, hq, e⟩ | ⟨_, _, _, _, e⟩
  · rw [e]; simp [going, pcCmd]
  · rw [e]; left; simp only; split <;> simp [going, pcCmd]
  · rw [e]; simp [going, pcCmd]
  · rw [e]; right; simp only; split <;> simp [going, pcCmd]
  · rw [e]; simp [going, pcCmd]

theorem cmd_moves {s s' : St} {e : Ev} (hs : act s e = .to s') (hh : Hears e) (hc : ∀ m c a, e ≠ .cb m c a) (i : Nat) :
    (going s'.pc = going s.pc ∧ (s.cmd.getLsbD i = true → s'.cmd.getLsbD i = true) ∧ pcCmd s'.pc = pcCmd s.pc) ∨
    (going s.pc = false ∧ pcCmd s.pc = 0 ∧ going s'.pc = true ∧ pcCmd s'.pc = s.cmd) := by
  have pop : (s.pc = .top ∨ ∃ w, s.pc = .wait w) → s' = pop s → (going s'.pc = going s.pc ∧ (s.cmd.getLsbD i = true → s'.cmd.getLsbD i = true) ∧ pcCmd s'.pc = pcCmd s.pc) ∨
      (going s.pc = false ∧ pcCmd s.pc = 0 ∧ going s'.pc = true ∧ pcCmd s'.pc = s.cmd) := by
    rintro hp rfl
    rcases going_pop hp with ⟨h1, h2, h3⟩ | h
    · exact Or.inl ⟨h1, by rw [h2]; exact id, h3⟩
    · exact Or.inr h
  cases e with
  | cb m c a => exact absurd rfl (hc m c a)
  | pop => simp only [act] at hs; split at hs <;> cases hs; exact pop (Or.inl ‹_›) rfl
  | wake => simp only [act] at hs; split at hs <;> cases hs; exact pop (Or.inr ⟨_, ‹_›⟩) rfl
  | spurious => simp only [act] at hs; split at hs <;> cases hs; exact pop (Or.inr ⟨_, ‹_›⟩) rfl
  | write m r =>
    simp only [act] at hs
    split at hs
    · rename_i r' s1 hw
      split at hs
      · cases hs
        rcases write_cases hw with ⟨_, rfl, _⟩ | ⟨_, rfl, _⟩ | ⟨_, _, _, q, st, d', _, rfl⟩
        · exact Or.inl ⟨rfl, id, rfl⟩
        · exact Or.inl ⟨rfl, id, rfl⟩
        · simp
      · cases hs
    · cases hs
  | putBack =>
    simp only [act] at hs
    split at hs
    · rename_i m n hp
      cases hs
      rw [(replace_cmd s m n).1, (replace_cmd s m n).2, hp]; exact Or.inl ⟨rfl, id, rfl⟩
    · cases hs
  | notice n sh ans =>
    simp only [Hears] at hh
    subst hh
    simp only [act] at hs
    split at hs
    · rename_i m c k hp
      split at hs
      · cases hs
        rw [hp]
        by_cases hmc : m = none ∧ c = 0
        · simp [hmc, pcCmd, going]
        · simp only [hmc, if_false, if_true]; left; exact ⟨by simp only [going, decide_eq_false hmc]; rfl, id, rfl⟩
      · cases hs
    · cases hs
  | signal =>
    simp only [act] at hs
    split at hs
    · rename_i m n ans hp
      cases hs
      rw [hp]; simp only [pcCmd_afterCb, going_afterCb]; exact Or.inl ⟨rfl, id, rfl⟩
    · cases hs
  | fin =>
    simp only [act] at hs
    split at hs
    · rename_i hp
      cases hs
      rw [hp]
      simp only
      repeat' split
      all_goals exact Or.inl ⟨rfl, id, rfl⟩
    · cases hs
  | stopCb => simp only [act] at hs; split at hs <;> cases hs; rw [‹s.pc = _›]; exact Or.inl ⟨rfl, id, rfl⟩
  | free => simp only [act] at hs; split at hs <;> cases hs; rw [‹s.pc = _›]; exact Or.inl ⟨rfl, id, rfl⟩
  | start created ok =>
    simp only [act] at hs
    repeat' split at hs
    all_goals first
      | cases hs; done
      | (rename_i hp; cases hs; rw [hp]; exact Or.inl ⟨rfl, id, rfl⟩)
      | (cases hs; exact Or.inl ⟨rfl, id, rfl⟩)
  | _ =>
    simp only [act] at hs
    repeat' split at hs
    all_goals first
      | cases hs; done
      | (cases hs; exact Or.inl ⟨rfl, id, rfl⟩)
      | (cases hs; left; refine ⟨?_, ?_, ?_⟩ <;> simp +contextual; done)

theorem cb_act {s s' : St} {m : Option Msg} {c : BitVec 64} {a : Bool} (hs : act s (.cb m c a) = .to s') : going s.pc = true ∧ pcCmd s.pc = c ∧ going s'.pc = false ∧ pcCmd s'.pc = 0 ∧ s'.cmd = s.cmd := by
  simp only [act] at hs
  split at hs
  · rename_i m' c' n hp
    split at hs
    · rename_i hn
      obtain ⟨rfl, rfl⟩ := hn
      cases hs
      rw [hp]
      refine ⟨rfl, rfl, ?_, ?_, rfl⟩
      · simp only; split
        · rfl
        · exact going_afterCb _ _ _
      · simp only; split
        · rfl
        · exact pcCmd_afterCb _ _ _
    · cases hs
  · cases hs

theorem calls_snoc (pre : List Ev) (e : Ev) : calls (pre ++ [e]) = calls pre + if isCb e then 1 else 0 := by
  unfold calls
  rw [List.countP_append, List.countP_singleton]

/-- C82: as long as the callback does not refuse to hear that messages were dropped, by the second time it is called after a command was accepted it was given that command. -/
theorem given_soon_partial {max : Nat} {pre es : List Ev} {s : St} (h : run (create max) (pre ++ es) = some s) (hh : ∀ e ∈ pre ++ es, Hears e) (hc : calls es ≥ 2) (i : Nat)
    (hi : (asked pre).getLsbD i = true) : (given (pre ++ es)).getLsbD i = true := by
  rw [run_append] at h
  cases h0 : run (create max) pre with
  | none => rw [h0] at h; cases h
  | some s0 =>
    rw [h0] at h
    have ha := asked_eq h0 fun e he => hh e (List.mem_append_left _ he)
    have := run_ind (P := fun mid s => (∀ e ∈ mid, Hears e) → (given (pre ++ mid)).getLsbD i = true ∨ (calls mid = 0 ∧ (s.cmd.getLsbD i = true ∨ (pcCmd s.pc).getLsbD i = true)) ∨
      (calls mid = 1 ∧ ((going s.pc = true ∧ (pcCmd s.pc).getLsbD i = true) ∨ (going s.pc = false ∧ s.cmd.getLsbD i = true)))) ?_ es [] s0 s ?_ h
    · rcases this (fun e he => hh e (List.mem_append_right _ (by simpa using he))) with h1 | ⟨h1, _⟩ | ⟨h1, _⟩
      · exact h1
      · rw [List.nil_append] at h1; omega
      · rw [List.nil_append] at h1; omega
    · intro mid s e s' ih hact _ hmid
      specialize ih fun e he => hmid e (List.mem_append_left _ he)
      have hhe := hmid e (by simp)
      rw [← List.append_assoc, given_snoc, calls_snoc, BitVec.getLsbD_or]
      by_cases hcb : ∃ m c a, e = .cb m c a
      · obtain ⟨m, c, a, rfl⟩ := hcb
        rw [show isCb (.cb m c a) = true from rfl, if_pos rfl]
        obtain ⟨h1, h2, h3, h4, h5⟩ := cb_act hact
        rw [h1, h2] at ih
        rw [h3, h4, h5]
        simp only [given1]
        grind
      · have hn : isCb e = false := by
          cases e <;> first | rfl | (exact absurd ⟨_, _, _, rfl⟩ hcb)
        rw [hn, if_neg (by simp)]
        have hg : given1 e = 0 := by
          cases e <;> first | rfl | (exact absurd ⟨_, _, _, rfl⟩ hcb)
        have := cmd_moves hact hhe (fun m c a he => hcb ⟨m, c, a, he⟩) i
        rw [hg]
        rcases this with ⟨h1, h2, h3⟩ | ⟨h1, h2, h3, h4⟩
        · rw [h1, h3]; grind
        · rw [h1, h2] at ih; rw [h3, h4]; grind
    · intro _
      rw [ha] at hi
      simp only [BitVec.getLsbD_or, Bool.or_eq_true] at hi
      simp only [List.append_nil]
      rcases hi with hi | hi
      · exact Or.inl hi
      · exact Or.inr (Or.inl ⟨rfl, hi⟩)

/-- The commands that were accepted and have to be given even if there is no message. -/
def urgent1 : Ev → BitVec 64
  | .setCmd c true true => c
  | .block c true => c
  | _ => 0

def urgent (es : List Ev) : BitVec 64 := es.foldl (fun a e => a ||| urgent1 e) 0

theorem urgent_snoc (pre : List Ev) (e : Ev) : urgent (pre ++ [e]) = urgent pre ||| urgent1 e := by simp [urgent]

theorem sleep_pop (s : St) (hp : s.pc = .top ∨ ∃ w, s.pc = .wait w) : (pop s).force = s.force ∧ ((pop s).pc = .wait false → pcCmd s.pc = 0 ∧ (s.force = false ∨ s.cmd = 0)) := by
  have hc : pcCmd s.pc = 0 := by rcases hp with hp | ⟨w, hp⟩ <;> rw [hp] <;> rfl
  rcases pop_cases s with ⟨_, _, h, e⟩ | ⟨_, e⟩ | ⟨_, e⟩ | ⟨_, o, q, hq, e⟩ | ⟨_, _, _, _, e⟩
  · rw [e]; exact ⟨rfl, fun _ => ⟨hc, h⟩⟩
  · rw [e]; refine ⟨rfl, ?_⟩; simp only; split <;> simp
  · rw [e]; refine ⟨rfl, ?_⟩; simp
  · rw [e]; refine ⟨rfl, ?_⟩; simp only; split <;> simp
  · rw [e]; refine ⟨rfl, ?_⟩; simp

theorem sleep_step {s s' : St} {e : Ev} (hs : act s e = .to s') (i : Nat) : (s.force = true → s'.force = true) ∧ ((urgent1 e).getLsbD i = true → s'.force = true) ∧
    (s'.pc = .wait false → urgent1 e = 0 ∧ (s.pc = .wait false ∨ (pcCmd s.pc = 0 ∧ (s.force = false ∨ s.cmd = 0)))) := by
  cases e with
  | pop => simp only [act] at hs; split at hs <;> cases hs; have := sleep_pop s (Or.inl ‹_›); exact ⟨by rw [this.1]; exact id, by simp [urgent1], fun h => ⟨rfl, Or.inr (this.2 h)⟩⟩
  | wake => simp only [act] at hs; split at hs <;> cases hs; have := sleep_pop s (Or.inr ⟨_, ‹_›⟩); exact ⟨by rw [this.1]; exact id, by simp [urgent1], fun h => ⟨rfl, Or.inr (this.2 h)⟩⟩
  | spurious => simp only [act] at hs; split at hs <;> cases hs; have := sleep_pop s (Or.inr ⟨_, ‹_›⟩); exact ⟨by rw [this.1]; exact id, by simp [urgent1], fun h => ⟨rfl, Or.inr (this.2 h)⟩⟩
  | write m r =>
    simp only [act] at hs
    split at hs
    · rename_i r' s1 hw
      split at hs
      · cases hs
        rcases write_cases hw with ⟨_, rfl, _⟩ | ⟨_, rfl, _⟩ | ⟨_, _, _, q, st, d', _, rfl⟩
        · exact ⟨id, by simp [urgent1], fun h => ⟨rfl, Or.inl h⟩⟩
        · exact ⟨id, by simp [urgent1], fun h => ⟨rfl, Or.inl h⟩⟩
        · exact ⟨by simp, by simp [urgent1], fun h => absurd h (wakeUp_wait _)⟩
      · cases hs
    · cases hs
  | putBack =>
    simp only [act] at hs
    split at hs
    · rename_i m n hp
      cases hs
      have : (replace s m n).force = s.force ∧ (replace s m n).pc = .top := by
        rcases replace_cases s m n with ⟨_, e⟩ | ⟨_, _, _, hq, e⟩ | ⟨_, _, _, hq, e⟩ | ⟨_, _, e⟩ <;> rw [e] <;> exact ⟨rfl, rfl⟩
      rw [this.1, this.2]
      exact ⟨id, by simp [urgent1], by simp⟩
    · cases hs
  | notice n sh ans =>
    simp only [act] at hs
    repeat' split at hs
    all_goals first
      | cases hs; done
      | (cases hs; refine ⟨id, by simp [urgent1], ?_⟩; simp only; (repeat' split) <;> grind [afterCb_pc])
  | cb m c ans =>
    simp only [act] at hs
    repeat' split at hs
    all_goals first
      | cases hs; done
      | (cases hs; refine ⟨id, by simp [urgent1], ?_⟩; simp only; (repeat' split) <;> grind [afterCb_pc])
  | signal =>
    simp only [act] at hs
    repeat' split at hs
    all_goals first
      | cases hs; done
      | (cases hs; refine ⟨id, by simp [urgent1], ?_⟩; simp only; grind [afterCb_pc])
  | fin =>
    simp only [act] at hs
    repeat' split at hs
    all_goals first
      | cases hs; done
      | (cases hs; refine ⟨id, by simp [urgent1], ?_⟩; simp only; (repeat' split) <;> simp)
  | setCmd c f ok =>
    simp only [act] at hs
    repeat' split at hs
    all_goals first
      | cases hs; done
      | (cases hs; refine ⟨?_, ?_, ?_⟩ <;> simp_all [urgent1]; done)
  | block c ok =>
    simp only [act] at hs
    repeat' split at hs
    all_goals first
      | cases hs; done
      | (cases hs; refine ⟨?_, ?_, ?_⟩ <;> simp_all [urgent1]; done)
  | _ =>
    simp only [act] at hs
    repeat' split at hs
    all_goals first
      | cases hs; done
      | (cases hs; exact ⟨id, by simp [urgent1], fun h => ⟨rfl, Or.inl h⟩⟩)
      | (cases hs; exact ⟨by simp, by simp [urgent1], fun h => absurd h (wakeUp_wait _)⟩)
      | (cases hs; refine ⟨id, by simp [urgent1], ?_⟩; simp; done)

/-- C82: as long as the callback does not refuse to hear that messages were dropped, while the thread sleeps all urgent commands were given. -/
theorem urgent_partial {max : Nat} {es : List Ev} {s : St} (h : run (create max) es = some s) (hh : ∀ e ∈ es, Hears e) (hw : s.pc = .wait false) (i : Nat)
    (hi : (urgent es).getLsbD i = true) : (given es).getLsbD i = true := by
  have := run_ind (P := fun pre s => (∀ e ∈ pre, Hears e) → ((urgent pre).getLsbD i = true → s.force = true) ∧
    ((urgent pre).getLsbD i = true → (given pre).getLsbD i = true ∨ (s.pc ≠ .wait false ∧ (s.cmd.getLsbD i = true ∨ (pcCmd s.pc).getLsbD i = true)))) ?_ es [] (create max) s
    (fun _ => by simp [urgent]) h
  · exact ((this hh).2 hi).resolve_right fun h => h.1 hw
  · intro pre s e s' ih ha _ hp
    obtain ⟨ih1, ih2⟩ := ih fun e he => hp e (List.mem_append_left _ he)
    have hhe := hp e (by simp)
    rw [urgent_snoc, given_snoc]
    obtain ⟨h1, h2, h3⟩ := sleep_step ha i
    have h4 := congrArg (fun x => x.getLsbD i) (cmd_step ha hhe)
    have h5 : (urgent1 e).getLsbD i = true → (asked1 e).getLsbD i = true := by
      cases e <;> simp only [urgent1] <;> try simp
      · rename_i c f ok
        cases f <;> cases ok <;> simp [asked1]
      · rename_i c ok
        cases ok <;> simp [asked1]
    simp only [BitVec.getLsbD_or] at h4
    simp only [BitVec.getLsbD_or, Bool.or_eq_true]
    refine ⟨fun h => ?_, fun h => ?_⟩
    · rcases h with h | h
      · exact h1 (ih1 h)
      · exact h2 h
    · by_cases hw : s'.pc = .wait false
      · obtain ⟨h6, h7⟩ := h3 hw
        rw [h6] at h
        have h := h.resolve_right (by simp)
        rcases ih2 h with h8 | ⟨h8, h9⟩
        · exact Or.inl (Or.inl h8)
        · rcases h7 with h7 | ⟨h7, h10⟩
          · exact absurd h7 h8
          · rw [ih1 h] at h10
            rw [h7, h10.resolve_left (by simp)] at h9
            simp at h9
      · grind

/-- The thread has no command that it has not yet reported as done. -/
def idle : Pc → Bool
  | .signal .. => false
  | p => pcCmd p == 0

theorem afterCb_signal (m : Option Msg) (n : Nat) (ans : Bool) : ∀ m' n' a', afterCb m n ans ≠ .signal m' n' a' := by
  cases m <;> cases ans <;> simp [afterCb]

@[simp] theorem wakeUp_signal (s : St) (m : Option Msg) (n : Nat) (a : Bool) : (wakeUp s).pc = .signal m n a ↔ s.pc = .signal m n a := by rw [wakeUp_pc]; cases s.pc <;> simp

theorem signal_step {s s' : St} {e : Ev} (hs : act s e = .to s') {m : Option Msg} {n : Nat} {a : Bool} (hp : s'.pc = .signal m n a) : s.pc = .signal m n a ∨ ∃ m c a, c ≠ 0 ∧ e = .cb m c a := by
  have pop : ∀ s : St, (pop s).pc ≠ .signal m n a := by
    intro s
    rcases pop_cases s with ⟨_, _, h, e⟩ | ⟨_, e⟩ | ⟨_, e⟩ | ⟨_, o, q, hq, e⟩ | ⟨_, _, _, _, e⟩ <;> rw [e] <;> simp only <;> (try split) <;> simp
  cases e with
  | pop => simp only [act] at hs; split at hs <;> cases hs; exact absurd hp (pop _)
  | wake => simp only [act] at hs; split at hs <;> cases hs; exact absurd hp (pop _)
  | spurious => simp only [act] at hs; split at hs <;> cases hs; exact absurd hp (pop _)
  | write m r =>
    simp only [act] at hs
    split at hs
    · rename_i r' s1 hw
      split at hs
      · cases hs
        rcases write_cases hw with ⟨_, rfl, _⟩ | ⟨_, rfl, _⟩ | ⟨_, _, _, q, st, d', _, rfl⟩
        · exact Or.inl hp
        · exact Or.inl hp
        · simp only [wakeUp_signal] at hp; exact Or.inl hp
      · cases hs
    · cases hs
  | putBack =>
    simp only [act] at hs
    split at hs
    · cases hs
      rw [(replace_cmd _ _ _).2] at hp
      cases hp
    · cases hs
  | cb m c ans =>
    by_cases hc : c = 0
    · simp only [act] at hs
      split at hs
      · split at hs
        · cases hs
          simp only [hc, ne_eq, not_true_eq_false, if_false] at hp
          exact absurd hp (afterCb_signal _ _ _ _ _ _)
        · cases hs
      · cases hs
    · exact Or.inr ⟨m, c, ans, hc, rfl⟩
  | _ =>
    simp only [act] at hs
    repeat' split at hs
    all_goals first
      | cases hs; done
      | (cases hs; exact Or.inl hp)
      | (cases hs; simp only [wakeUp_signal] at hp; exact Or.inl hp)
      | (cases hs; exfalso; simp only at hp; (repeat' split at hp) <;> first | (cases hp; done) | (exact afterCb_signal _ _ _ _ _ _ hp))

theorem done_step {s s' : St} {e : Ev} (hs : act s e = .to s') (hd : s'.cmdDone = true) : s.cmdDone = true ∨ (e = .signal ∧ ∃ m n a, s.pc = .signal m n a) ∨ e = .fin ∨ ∃ a b, e = .start a b := by
  cases e with
  | fin => simp
  | start a b => simp
  | signal =>
    simp only [act] at hs
    split at hs
    · rename_i m n a hp
      exact Or.inr (Or.inl ⟨rfl, m, n, a, hp⟩)
    · cases hs
  | write m r =>
    simp only [act] at hs
    split at hs
    · rename_i r' s1 hw
      split at hs
      · cases hs
        rcases write_cases hw with ⟨_, rfl, _⟩ | ⟨_, rfl, _⟩ | ⟨_, _, _, q, st, d', _, rfl⟩
        · exact Or.inl hd
        · exact Or.inl hd
        · simp only [wakeUp_cmdDone] at hd; exact Or.inl hd
      · cases hs
    · cases hs
  | putBack =>
    simp only [act] at hs
    split at hs
    · rename_i m n hp
      cases hs
      left
      rcases replace_cases s m n with ⟨_, e⟩ | ⟨_, _, _, hq, e⟩ | ⟨_, _, _, hq, e⟩ | ⟨_, _, e⟩ <;> rw [e] at hd <;> exact hd
    · cases hs
  | _ =>
    left
    simp only [act] at hs
    repeat' split at hs
    all_goals first
      | cases hs; done
      | (cases hs; exact hd)
      | (cases hs; simp only [wakeUp_cmdDone] at hd; exact hd)
      | (cases hs; cases hd; done)
      | (cases hs; rcases pop_cases s with ⟨_, _, h, e⟩ | ⟨_, e⟩ | ⟨_, e⟩ | ⟨_, o, q, hq, e⟩ | ⟨_, _, _, _, e⟩ <;> rw [e] at hd <;> exact hd)

theorem idle_iff (p : Pc) : idle p = true ↔ pcCmd p = 0 ∧ ∀ m n a, p ≠ .signal m n a := by
  cases p <;> simp [idle, pcCmd]

/-- C82: if the thread has no command in hand when a caller starts to wait for a command, it does not end while the caller waits, and the callback does not refuse to hear that messages were
dropped, then the callback is given that command before the caller comes back. -/
theorem block_partial {max : Nat} {pre mid : List Ev} {c : BitVec 64} {s0 s : St} (h0 : run (create max) pre = some s0) (hi : idle s0.pc = true)
    (h : run s0 (.block c true :: mid ++ [.blockRet]) = some s) (hh : ∀ e ∈ mid, Hears e) (hn : ∀ e ∈ mid, e ≠ .fin ∧ e ≠ .blockRet ∧ ∀ a b, e ≠ .start a b) (i : Nat)
    (hc : c.getLsbD i = true) : (given mid).getLsbD i = true := by
  rw [List.cons_append] at h
  simp only [run] at h
  split at h
  · rename_i s1 h1
    have hb := (step_act h1).1
    have hs1 : s1.cmdDone = false ∧ s1.cmd = s0.cmd ||| c ∧ idle s1.pc = true := by
      simp only [act] at hb
      repeat' split at hb
      all_goals first
        | cases hb; done
        | (rename_i hok; cases hok; done)
        | (cases hb; refine ⟨rfl, by simp, ?_⟩; rw [idle_iff] at hi ⊢; simp only [pcCmd_wakeUp]; refine ⟨hi.1, ?_⟩; intro m n a; simp only [ne_eq, wakeUp_signal]; exact hi.2 m n a)
        | (simp at *; done)
    rw [run_append] at h
    cases hm : run s1 mid with
    | none => rw [hm] at h; cases h
    | some s2 =>
      rw [hm] at h
      have := run_ind (P := fun pre s => (∀ e ∈ pre, Hears e) → (∀ e ∈ pre, e ≠ .fin ∧ e ≠ .blockRet ∧ ∀ a b, e ≠ .start a b) →
        (given pre).getLsbD i = true ∨ (s.cmdDone = false ∧ ((idle s.pc = true ∧ s.cmd.getLsbD i = true) ∨ (pcCmd s.pc).getLsbD i = true))) ?_ mid [] s1 s2
        (fun _ _ => Or.inr ⟨hs1.1, Or.inl ⟨hs1.2.2, by rw [hs1.2.1]; simp [hc]⟩⟩) hm
      · rcases this hh hn with h3 | ⟨h3, _⟩
        · exact h3
        · exfalso
          simp only [Option.bind_some, run] at h
          split at h
          · rename_i hr
            have := (step_act hr).1
            simp only [act] at this
            split at this
            · rename_i h4
              rw [h3] at h4
              cases h4.2
            · cases this
          · cases h
      · intro pre s e s' ih ha _ hp1 hp2
        specialize ih (fun e he => hp1 e (List.mem_append_left _ he)) (fun e he => hp2 e (List.mem_append_left _ he))
        rw [given_snoc, BitVec.getLsbD_or]
        rcases ih with ih | ⟨hd, ih⟩
        · rw [ih]; simp
        · have hnosig : ∀ m n a, s.pc ≠ .signal m n a := by
            intro m n a hsig
            rcases ih with ⟨h, _⟩ | h
            · exact ((idle_iff _).1 h).2 m n a hsig
            · rw [hsig] at h; simp [pcCmd] at h
          have hd' : s'.cmdDone = false := by
            cases hx : s'.cmdDone with
            | false => rfl
            | true =>
              exfalso
              obtain ⟨hf, _, hst⟩ := hp2 e (by simp)
              rcases done_step ha hx with h | ⟨_, m, n, a, h⟩ | h | ⟨a, b, h⟩
              · rw [hd] at h; cases h
              · exact hnosig m n a h
              · exact hf h
              · exact hst a b h
          by_cases hcb : ∃ m c a, e = .cb m c a
          · obtain ⟨m, c', a, rfl⟩ := hcb
            obtain ⟨_, h2, _, h4, h5⟩ := cb_act ha
            rcases ih with ⟨h6, h7⟩ | h6
            · right
              refine ⟨hd', Or.inl ⟨(idle_iff _).2 ⟨h4, ?_⟩, by rw [h5]; exact h7⟩⟩
              intro m n a hsig
              rcases signal_step ha hsig with h | ⟨m', c'', a', hne, he⟩
              · exact hnosig _ _ _ h
              · cases he
                rw [((idle_iff _).1 h6).1] at h2
                exact hne h2.symm
            · left
              rw [h2] at h6
              simp only [given1, h6, Bool.or_true]
          · right
            refine ⟨hd', ?_⟩
            have hns : ∀ m n a, s'.pc ≠ .signal m n a := by
              intro m n a hsig
              rcases signal_step ha hsig with h | ⟨m', c'', a', _, he⟩
              · exact hnosig _ _ _ h
              · exact hcb ⟨_, _, _, he⟩
            rcases cmd_moves ha (hp1 e (by simp)) (fun m c a he => hcb ⟨m, c, a, he⟩) i with ⟨_, h2, h3⟩ | ⟨_, h2, _, h4⟩
            · rcases ih with ⟨h6, h7⟩ | h6
              · exact Or.inl ⟨(idle_iff _).2 ⟨by rw [h3]; exact ((idle_iff _).1 h6).1, hns⟩, h2 h7⟩
              · exact Or.inr (by rw [h3]; exact h6)
            · rw [h4]
              rcases ih with ⟨_, h7⟩ | h6
              · exact Or.inr h7
              · rw [h2] at h6; simp at h6
  · cases h

end Verif.AsyncWriter
