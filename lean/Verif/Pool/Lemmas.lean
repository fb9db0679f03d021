import Verif.Pool.Model
/-! Counting threads by place, and the effect of the steps on the counts. -/
namespace Verif.Pool

/-- The sum of `f` over the threads of a list. -/
def tot {α : Type} (f : α → Nat) (l : List α) : Nat := (l.map f).sum

theorem tot_nil {α : Type} (f : α → Nat) : tot f [] = 0 := rfl

theorem tot_cons {α : Type} (f : α → Nat) (a : α) (l : List α) : tot f (a :: l) = f a + tot f l := by
  simp [tot]

theorem tot_append {α : Type} (f : α → Nat) (l m : List α) : tot f (l ++ m) = tot f l + tot f m := by
  simp [tot]

theorem tot_set {α : Type} {l : List α} {i : Nat} {a : α} (h : l[i]? = some a) (b : α) (f : α → Nat) :
    tot f (l.set i b) + f a = tot f l + f b := by
  induction l generalizing i with
  | nil => simp at h
  | cons x l ih =>
    cases i with
    | zero =>
      simp at h; subst h
      simp only [List.set_cons_zero, tot_cons]; omega
    | succ i =>
      simp only [List.getElem?_cons_succ] at h
      have := ih h
      simp only [List.set_cons_succ, tot_cons]; omega

theorem tot_map {α : Type} (f f' : α → Nat) (g : α → α) (h : ∀ x, f (g x) = f' x) (l : List α) : tot f (l.map g) = tot f' l := by
  induction l with
  | nil => rfl
  | cons x l ih => simp only [List.map_cons, tot_cons, ih, h]

theorem tot_zero {α : Type} {f : α → Nat} {l : List α} : tot f l = 0 ↔ ∀ x ∈ l, f x = 0 := by
  induction l with
  | nil => simp [tot_nil]
  | cons x l ih => simp [tot_cons, ih]

theorem tot_pos {α : Type} {f : α → Nat} {l : List α} : 0 < tot f l ↔ ∃ x ∈ l, 0 < f x := by
  induction l with
  | nil => simp [tot_nil]
  | cons x l ih =>
    simp only [tot_cons, List.mem_cons, exists_eq_or_imp, ← ih]
    omega

theorem tot_le {α : Type} {f g : α → Nat} (h : ∀ x, f x ≤ g x) (l : List α) : tot f l ≤ tot g l := by
  induction l with
  | nil => simp [tot_nil]
  | cons x l ih => simp only [tot_cons]; have := h x; omega

theorem tot_replicate {α : Type} (f : α → Nat) (n : Nat) (a : α) : tot f (List.replicate n a) = n * f a := by
  induction n with
  | zero => simp [tot_nil]
  | succ n ih => simp only [List.replicate_succ, tot_cons, ih, Nat.succ_mul]; omega

/-- Pool threads that have not ended. -/
def live : W → Nat | .dead => 0 | _ => 1
/-- Pool threads counted as idle. -/
def idleW : W → Nat | .sleep _ => 1 | .woken _ => 1 | _ => 0
/-- Pool threads that sleep. -/
def sleepW : W → Nat | .sleep _ => 1 | _ => 0
/-- Pool threads that will look at the queue again. -/
def act : W → Nat | .fetch => 1 | .woken _ => 1 | .run _ => 1 | .done _ => 1 | _ => 0
/-- Pool threads that end or may end because of the idle time. -/
def bad : W → Nat | .sleep b => if b then 1 else 0 | .woken b => if b then 1 else 0 | .exiting => 1 | .dead => 1 | _ => 0
/-- Pool threads that run task `x`. -/
def runW (x : Task) : W → Nat | .run t => if t = x then 1 else 0 | .done t => if t = x then 1 else 0 | _ => 0
/-- Pool threads that run a task of parent `p`. -/
def runP (p : Nat) : W → Nat | .run t => if t.parent = p then 1 else 0 | .done t => if t.parent = p then 1 else 0 | _ => 0
/-- Users counted in `queue_waiters`. -/
def waitC : C → Nat | .inSleep _ => 1 | .inWoken _ => 1 | .avSleep => 1 | .avWoken => 1 | _ => 0
/-- How often task `x` is yet to be queued. -/
def todoC (x : Task) : C → Nat | .ins ts _ => ts.count x | .inSleep ts => ts.count x | .inWoken ts => ts.count x | _ => 0
/-- How many tasks of parent `p` are yet to be queued. -/
def todoP (p : Nat) : C → Nat
  | .ins ts _ => ts.countP (·.parent = p) | .inSleep ts => ts.countP (·.parent = p) | .inWoken ts => ts.countP (·.parent = p) | _ => 0
/-- Users asleep waiting for parent `p`. -/
def wS (p : Nat) : C → Nat | .wSleep q => if q = p then 1 else 0 | _ => 0
/-- Users in a call that uses the pool. -/
def useC : C → Nat | .ins _ _ => 1 | .inSleep _ => 1 | .inWoken _ => 1 | .avSleep => 1 | .avWoken => 1 | _ => 0
/-- Users asleep in `M_threadpool_destroy`. -/
def dS : C → Nat | .dSleep => 1 | _ => 0
/-- Users in the loop of `M_threadpool_destroy`. -/
def dA : C → Nat | .dSleep => 1 | .dWoken => 1 | _ => 0
/-- Users asleep for a place in the queue or a free thread. -/
def SI : C → Nat | .inSleep _ => 1 | .avSleep => 1 | _ => 0
/-- Such users, woken. -/
def WI : C → Nat | .inWoken _ => 1 | .avWoken => 1 | _ => 0
/-- Users in the loop of the insertion that have woken before. -/
def IT : C → Nat | .ins _ b => if b then 1 else 0 | _ => 0

theorem wake_waitC (x : C) : waitC (wakeI x) = waitC x := by cases x <;> rfl
theorem wake_todoC (t : Task) (x : C) : todoC t (wakeI x) = todoC t x := by cases x <;> rfl
theorem wake_todoP (p : Nat) (x : C) : todoP p (wakeI x) = todoP p x := by cases x <;> rfl
theorem wake_wS (p : Nat) (x : C) : wS p (wakeI x) = wS p x := by cases x <;> rfl
theorem wake_useC (x : C) : useC (wakeI x) = useC x := by cases x <;> rfl
theorem wake_dA (x : C) : dA (wakeI x) = dA x := by cases x <;> rfl
theorem wake_IT (x : C) : IT (wakeI x) = IT x := by cases x <;> rfl

/-- A signal or none. -/
def MaybeI (b : Bool) (cs cs' : List C) : Prop := if b then SignalI cs cs' else cs' = cs

theorem maybeI_tot {b : Bool} {cs cs' : List C} (h : MaybeI b cs cs') {f : C → Nat} (hf : ∀ x, f (wakeI x) = f x) : tot f cs' = tot f cs := by
  unfold MaybeI at h
  split at h
  · rcases h with ⟨j, x, hj, _, rfl⟩ | ⟨_, rfl⟩
    · have := tot_set hj (wakeI x) f
      rw [hf] at this; omega
    · rfl
  · rw [h]

theorem maybeI_dS {b : Bool} {cs cs' : List C} (h : MaybeI b cs cs') : tot dS cs' ≤ tot dS cs := by
  unfold MaybeI at h
  split at h
  · rcases h with ⟨j, x, hj, _, rfl⟩ | ⟨_, rfl⟩
    · have := tot_set hj (wakeI x) dS
      generalize cs.set j (wakeI x) = m at *
      cases x <;> simp [wakeI, dS] at this <;> omega
    · omega
  · rw [h]; omega

theorem maybeI_sleep {b : Bool} {cs cs' : List C} (h : MaybeI b cs cs') :
    tot SI cs' ≤ tot SI cs ∧ tot WI cs ≤ tot WI cs' ∧ tot SI cs' + tot WI cs' = tot SI cs + tot WI cs := by
  unfold MaybeI at h
  split at h
  · rcases h with ⟨j, x, hj, _, rfl⟩ | ⟨_, rfl⟩
    · have h1 := tot_set hj (wakeI x) SI
      have h2 := tot_set hj (wakeI x) WI
      generalize cs.set j (wakeI x) = m at *
      cases x <;> simp [wakeI, SI, WI] at h1 h2 <;> omega
    · omega
  · rw [h]; omega

/-- A signal wakes somebody. -/
theorem signalI_wakes {cs cs' : List C} (h : MaybeI true cs cs') (hd : tot dS cs = 0) : 0 < tot SI cs' → 0 < tot WI cs' := by
  rcases h with ⟨j, x, hj, ho, rfl⟩ | ⟨hn, rfl⟩
  · intro _
    have h2 := tot_set hj (wakeI x) WI
    have h3 := tot_zero.1 hd x (List.mem_of_getElem? hj)
    generalize cs.set j (wakeI x) = m at *
    cases x <;> simp [wakeI, WI, onI, dS] at h2 ho h3 <;> omega
  · intro hp
    obtain ⟨x, hx, hp⟩ := tot_pos.1 hp
    have := hn x hx
    cases x <;> simp [onI, SI] at this hp

theorem signalI_exists (cs : List C) : ∃ cs', SignalI cs cs' := by
  by_cases h : ∃ x ∈ cs, onI x = true
  · obtain ⟨x, hx, ho⟩ := h
    obtain ⟨j, hj⟩ := List.mem_iff_getElem?.1 hx
    exact ⟨_, Or.inl ⟨j, x, hj, ho, rfl⟩⟩
  · exact ⟨cs, Or.inr ⟨fun x hx => by
      cases e : onI x
      · rfl
      · exact absurd ⟨x, hx, e⟩ h, rfl⟩⟩

/-- A signal or none. -/
def MaybeO (b : Bool) (ws ws' : List W) : Prop := if b then SignalO ws ws' else ws' = ws

theorem maybeO_tot {b : Bool} {ws ws' : List W} (h : MaybeO b ws ws') {f : W → Nat} (hf : ∀ x, f (wakeO x) = f x) : tot f ws' = tot f ws := by
  unfold MaybeO at h
  split at h
  · rcases h with ⟨j, x, hj, _, rfl⟩ | ⟨_, rfl⟩
    · have := tot_set hj (wakeO x) f
      rw [hf] at this; omega
    · rfl
  · rw [h]

theorem wake_live (x : W) : live (wakeO x) = live x := by cases x <;> rfl
theorem wake_idleW (x : W) : idleW (wakeO x) = idleW x := by cases x <;> rfl
theorem wake_runW (t : Task) (x : W) : runW t (wakeO x) = runW t x := by cases x <;> rfl
theorem wake_runP (p : Nat) (x : W) : runP p (wakeO x) = runP p x := by cases x <;> rfl

theorem maybeO_act {b : Bool} {ws ws' : List W} (h : MaybeO b ws ws') :
    tot act ws ≤ tot act ws' ∧ tot bad ws' ≤ tot bad ws ∧ tot sleepW ws' ≤ tot sleepW ws := by
  unfold MaybeO at h
  split at h
  · rcases h with ⟨j, x, hj, _, rfl⟩ | ⟨_, rfl⟩
    · have h1 := tot_set hj (wakeO x) act
      have h2 := tot_set hj (wakeO x) bad
      have h3 := tot_set hj (wakeO x) sleepW
      generalize ws.set j (wakeO x) = m at *
      cases x <;> simp [wakeO, act, bad, sleepW] at h1 h2 h3 <;> omega
    · omega
  · rw [h]; omega

/-- After a signal a thread is awake, unless all have ended or are ending. -/
theorem signalO_wakes {ws ws' : List W} (h : MaybeO true ws ws') (hb : tot bad ws = 0) (hl : 0 < tot live ws) : 0 < tot act ws' := by
  rcases h with ⟨j, x, hj, ho, rfl⟩ | ⟨hn, rfl⟩
  · have h2 := tot_set hj (wakeO x) act
    generalize ws.set j (wakeO x) = m at *
    cases x <;> simp [wakeO, act, onO] at h2 ho; omega
  · obtain ⟨x, hx, hp⟩ := tot_pos.1 hl
    have h1 := hn x hx
    have h2 := tot_zero.1 hb x hx
    refine tot_pos.2 ⟨x, hx, ?_⟩
    cases x <;> simp [onO, bad, act] at h1 h2 ⊢

theorem signalO_exists (ws : List W) : ∃ ws', SignalO ws ws' := by
  by_cases h : ∃ x ∈ ws, onO x = true
  · obtain ⟨x, hx, ho⟩ := h
    obtain ⟨j, hj⟩ := List.mem_iff_getElem?.1 hx
    exact ⟨_, Or.inl ⟨j, x, hj, ho, rfl⟩⟩
  · exact ⟨ws, Or.inr ⟨fun x hx => by
      cases e : onO x
      · rfl
      · exact absurd ⟨x, hx, e⟩ h, rfl⟩⟩

theorem wake_wSleep (cs : List C) (p q : Nat) : tot (wS q) (cs.map (wakeP p)) = if q = p then 0 else tot (wS q) cs := by
  split
  · rename_i e; subst e
    rw [tot_map (wS q) (fun _ => 0) (wakeP q) (by
      intro x
      cases x <;> simp only [wakeP, wS]
      rename_i r
      by_cases e : r = q <;> simp [e])]
    rw [tot_zero]; simp
  · rename_i e
    refine tot_map _ _ _ ?_ cs
    intro x
    cases x <;> simp [wakeP]
    split
    · rename_i e2; subst e2; simp [wS, Ne.symm e]
    · rfl

theorem wakeP_other {f : C → Nat} (p : Nat) (hf : ∀ q, f (.wWoken q) = f (.wSleep q)) (cs : List C) : tot f (cs.map (wakeP p)) = tot f cs := by
  refine tot_map _ _ _ ?_ cs
  intro x
  cases x <;> simp [wakeP]
  split
  · rw [hf]
  · rfl

/-- The possible outcomes of `fetchBody`. -/
theorem fetchBody_cases (c : Cfg) (s : St) (i : Nat) (tm : Bool) :
    (s.up = false ∧ fetchBody c s i tm = ({ s with ws := s.ws.set i .exiting }, false)) ∨
    (s.up = true ∧ ∃ q rest, s.queue = q :: rest ∧
      fetchBody c s i tm = ({ s with queue := rest, log := s.log ++ [q], ws := s.ws.set i (.run q) }, decide (s.waiters ≠ 0))) ∨
    (s.up = true ∧ s.queue = [] ∧ s.numT > c.minT ∧ (tm = true ∨ c.idle ≠ none) ∧ ∃ b, fetchBody c s i tm = ({ s with ws := s.ws.set i .exiting }, b)) ∨
    (s.up = true ∧ s.queue = [] ∧ ∃ b, (b = true → s.numT > c.minT ∧ c.idle ≠ none) ∧
      fetchBody c s i tm = ({ s with numIdle := s.numIdle + 1, ws := s.ws.set i (.sleep b) }, decide (s.waiters ≠ 0))) := by
  unfold fetchBody
  by_cases hu : s.up = false
  · exact Or.inl ⟨hu, by rw [if_pos hu]⟩
  · have hu' : s.up = true := by cases h : s.up <;> simp_all
    rw [if_neg hu]
    cases hq : s.queue with
    | cons q rest => exact Or.inr (Or.inl ⟨hu', q, rest, rfl, rfl⟩)
    | nil =>
      simp only
      split
      · rename_i h
        exact Or.inr (Or.inr (Or.inl ⟨hu', trivial, h.2, Or.inl h.1, _, rfl⟩))
      · split
        · rename_i h
          split
          · exact Or.inr (Or.inr (Or.inl ⟨hu', trivial, h.1, Or.inr h.2, _, rfl⟩))
          · exact Or.inr (Or.inr (Or.inr ⟨hu', trivial, true, fun _ => h, rfl⟩))
        · exact Or.inr (Or.inr (Or.inr ⟨hu', trivial, false, by simp, rfl⟩))

end Verif.Pool
