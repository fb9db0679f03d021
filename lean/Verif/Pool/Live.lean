import Verif.Pool.Tasks
/-! Wakeups are not lost in pools whose threads do not end. -/
namespace Verif.Pool

/-- The settings with which threads do not end while the pool is up. -/
def Cfg.stays (c : Cfg) : Prop := c.idle = none ∨ c.maxT ≤ c.minT

/-- While the pool is up: no thread ends; a thread is awake when the queue is not empty; when a user sleeps, a pool thread is awake
or a user is about to go on. -/
structure Live (s : St) : Prop where
  bad : s.up = true → tot bad s.ws = 0
  queue : s.up = true → s.queue ≠ [] → 0 < tot act s.ws
  sleep : s.up = true → 0 < tot SI s.cs → 0 < tot act s.ws ∨ 0 < tot WI s.cs ∨ 0 < tot IT s.cs

theorem init_live (c : Cfg) (n k : Nat) : Live (init c n k) := by
  constructor <;> simp [init, tot_replicate, bad, SI]

theorem wsetL {ws : List W} {i : Nat} {a : W} (h : ws[i]? = some a) (b : W) :
    tot act (ws.set i b) + act a = tot act ws + act b ∧ tot bad (ws.set i b) + bad a = tot bad ws + bad b := ⟨tot_set h b _, tot_set h b _⟩

theorem csetL {cs : List C} {i : Nat} {a : C} (h : cs[i]? = some a) (b : C) :
    tot SI (cs.set i b) + SI a = tot SI cs + SI b ∧ tot WI (cs.set i b) + WI a = tot WI cs + WI b ∧
    tot IT (cs.set i b) + IT a = tot IT cs + IT b := ⟨tot_set h b _, tot_set h b _, tot_set h b _⟩

theorem act_pos {ws : List W} {i : Nat} {a : W} (h : ws[i]? = some a) (ha : 0 < act a) : 0 < tot act ws :=
  tot_pos.2 ⟨a, List.mem_of_getElem? h, ha⟩

theorem SI_le_wait (cs : List C) : tot SI cs + tot WI cs = tot waitC cs := by
  induction cs with
  | nil => rfl
  | cons x cs ih =>
    simp only [tot_cons]
    have : SI x + WI x = waitC x := by cases x <;> rfl
    omega

theorem fetch_live {c : Cfg} (hc : c.stays) {s : St} {i : Nat} {a : W} {tm : Bool} {cs' : List C} (h : s.ws[i]? = some a)
    (ha : a = .fetch ∨ a = .woken tm) (htm : a = .fetch → tm = false) (L : Live s) (maxT : s.numT ≤ c.maxT) (wait : s.waiters = tot waitC s.cs)
    (dsl : 0 < tot dS s.cs → s.up = false) (hI : MaybeI (fetchBody c s i tm).2 (fetchBody c s i tm).1.cs cs') :
    Live { (fetchBody c s i tm).1 with cs := cs' } := by
  obtain ⟨lb, lq, ls⟩ := L
  have hact : act a = 1 := by rcases ha with rfl | rfl <;> rfl
  have hp := act_pos h (by omega)
  have htf : s.up = true → tm = false := by
    intro hu
    have := tot_zero.1 (lb hu) a (List.mem_of_getElem? h)
    rcases ha with rfl | rfl
    · exact htm rfl
    · simpa [Verif.Pool.bad] using this
  have hbad : s.up = true → Verif.Pool.bad a = 0 := fun hu => tot_zero.1 (lb hu) a (List.mem_of_getElem? h)
  rcases fetchBody_cases c s i tm with ⟨hu, e⟩ | ⟨hu, q, rest, hq, e⟩ | ⟨hu, hq, hn, hx, b, e⟩ | ⟨hu, hq, b, hb, e⟩
  · rw [e]
    constructor <;> intro h1 <;> dsimp only at h1 <;> rw [hu] at h1 <;> cases h1
  · rw [e]
    have w := wsetL h (.run q)
    rw [hact, hbad hu] at w
    simp only [act, Verif.Pool.bad] at w
    have := lb hu
    constructor <;> intro h1 <;> dsimp only at h1 ⊢
    · omega
    · intro _; omega
    · intro _; exact Or.inl (by omega)
  · exfalso
    rcases hx with hx | hx
    · rw [htf hu] at hx; cases hx
    · rcases hc with hc | hc
      · exact hx hc
      · omega
  · rw [e] at hI ⊢
    have hbf : b = false := by
      cases hbb : b with
      | false => rfl
      | true =>
        exfalso
        obtain ⟨h1, h2⟩ := hb hbb
        rcases hc with hc | hc
        · exact h2 hc
        · omega
    subst hbf
    have w := wsetL h (.sleep false)
    rw [hact, hbad hu] at w
    simp only [act, Verif.Pool.bad] at w
    have := lb hu
    dsimp only at hI
    have hs := maybeI_sleep hI
    have hd0 : tot dS s.cs = 0 := by
      apply Classical.byContradiction; intro hn
      have := dsl (by omega); rw [hu] at this; cases this
    constructor <;> intro h1 <;> dsimp only at h1 ⊢
    · rw [if_neg (by simp)] at w; omega
    · intro h2; exact absurd hq h2
    · intro h2
      have hw := SI_le_wait s.cs
      have hne : s.waiters ≠ 0 := by omega
      rw [decide_eq_true hne] at hI
      exact Or.inr (Or.inl (signalI_wakes hI hd0 h2))

theorem avail_live {c : Cfg} (hm : 0 < c.maxT) {s : St} {i : Nat} {a : C} (h : s.cs[i]? = some a) (ha : a = .idle ∨ a = .avWoken)
    (hl : s.numT = tot live s.ws) (hi : s.numIdle = tot idleW s.ws)
    (lb : s.up = true → tot bad s.ws = 0) (lq : s.up = true → s.queue ≠ [] → 0 < tot act s.ws)
    (ls : s.up = true → 0 < tot SI s.cs → 0 < tot act s.ws ∨ WI a < tot WI s.cs ∨ 0 < tot IT s.cs) : Live (availBody c s i) := by
  unfold availBody
  split
  · have w := csetL h .idle
    refine ⟨lb, lq, fun hu h1 => ?_⟩
    dsimp only at *
    have e1 : SI a = 0 ∧ IT a = 0 := by rcases ha with rfl | rfl <;> exact ⟨rfl, rfl⟩
    rw [e1.1, e1.2] at w
    simp only [show SI .idle = 0 from rfl, show WI .idle = 0 from rfl, show IT .idle = 0 from rfl] at w
    rcases ls hu (by omega) with h2 | h2 | h2 <;> omega
  · rename_i hn
    refine ⟨lb, lq, fun hu _ => Or.inl ?_⟩
    dsimp only at *
    have h0 : s.numIdle = 0 ∧ c.maxT ≤ s.numT := by
      constructor
      · apply Classical.byContradiction; intro h; exact hn (Or.inl h)
      · apply Classical.byContradiction; intro h; exact hn (Or.inr (by omega))
    obtain ⟨x, hx, hxl⟩ := tot_pos.1 (show 0 < tot live s.ws by omega)
    have hxb := tot_zero.1 (lb hu) x hx
    have hxi := tot_zero.1 (show tot idleW s.ws = 0 by omega) x hx
    refine tot_pos.2 ⟨x, hx, ?_⟩
    cases x <;> simp [Verif.Pool.bad, idleW, act] at hxb hxi ⊢

theorem insBody_live {c : Cfg} (hm : 0 < c.maxT) (hqm : 0 < c.maxQ) {s : St} {i : Nat} {t : Task} {todo : List Task} {woke : Bool} {ws' : List W}
    (h : s.cs[i]? = some (.ins (t :: todo) woke)) (hu : s.up = true) (hl : 0 < tot live s.ws) (wait : s.waiters = tot waitC s.cs) (L : Live s)
    (hO : MaybeO (insBody c s i t todo woke).2 (insBody c s i t todo woke).1.ws ws') : Live { (insBody c s i t todo woke).1 with ws := ws' } := by
  obtain ⟨lb, lq, ls⟩ := L
  have e : (insBody c s i t todo woke).1.ws = s.ws := by unfold insBody; split <;> rfl
  rw [e] at hO
  obtain ⟨o1, o2, o3⟩ := maybeO_act hO
  have := lb hu
  unfold insBody at hO ⊢
  split
  · rename_i hc
    rw [if_pos hc] at hO
    have hp := signalO_wakes hO (lb hu) hl
    refine ⟨fun _ => ?_, fun _ _ => hp, fun _ _ => Or.inl hp⟩
    dsimp only; omega
  · rename_i hc
    rw [if_neg hc] at hO
    have w := csetL h (.inSleep (t :: todo))
    refine ⟨fun _ => by dsimp only; omega, fun _ h2 => ?_, fun _ _ => ?_⟩ <;> dsimp only at *
    · have := lq hu h2; omega
    · by_cases hfull : c.maxQ > s.queue.length
      · have hcond : s.waiters ≠ 0 ∧ woke = false := by
          constructor
          · intro h0; exact hc ⟨Or.inl h0, hfull⟩
          · cases hw : woke with
            | false => rfl
            | true => exact absurd ⟨Or.inr hw, hfull⟩ hc
        obtain ⟨h1, h2⟩ := hcond
        subst h2
        simp only [SI, WI, IT] at w
        have hw := SI_le_wait s.cs
        by_cases h3 : 0 < tot WI s.cs
        · exact Or.inr (Or.inl (by omega))
        · rcases ls hu (by omega) with h4 | h4 | h4
          · exact Or.inl (by omega)
          · exact Or.inr (Or.inl (by omega))
          · exact Or.inr (Or.inr (by simp at w; omega))
      · have : s.queue ≠ [] := by
          intro e0; rw [e0] at hfull; simp at hfull; omega
        have := lq hu this
        exact Or.inl (by omega)

theorem step_live {c : Cfg} (hc : c.stays) (hm : 0 < c.maxT) (hqm : 0 < c.maxQ) {s s' : St} (A : InvA c s) (L : Live s) (st : Step c s s') : Live s' := by
  have L0 := L
  obtain ⟨lb, lq, ls⟩ := L
  cases st with
  | fetch h hI => exact fetch_live hc h (Or.inl rfl) (fun _ => rfl) L0 A.maxT A.wait (fun h => (A.dsl h).1) hI
  | resume h hI =>
    exact fetch_live (s := { s with numIdle := s.numIdle - 1 }) hc h (Or.inr rfl) (by intro h; cases h) ⟨L0.bad, L0.queue, L0.sleep⟩ A.maxT A.wait
      (fun h => (A.dsl h).1) hI
  | @finish i t h =>
    have w := wsetL h (.done t)
    simp only [act, bad] at w
    exact ⟨fun hu => by have := lb hu; dsimp only; omega, fun hu hq => by have := lq hu hq; dsimp only; omega,
      fun hu hs => by have := ls hu hs; dsimp only; omega⟩
  | @notify i t pr h _ =>
    have w := wsetL h .fetch
    simp only [act, bad] at w
    have e1 := wakeP_other (f := SI) t.parent (by intro q; rfl) s.cs
    have e2 := wakeP_other (f := WI) t.parent (by intro q; rfl) s.cs
    have e3 := wakeP_other (f := IT) t.parent (by intro q; rfl) s.cs
    unfold notify
    dsimp only
    split <;> exact ⟨fun hu => by have := lb hu; dsimp only; omega, fun hu hq => by have := lq hu hq; dsimp only; omega,
      fun hu hs => by have := ls hu (by dsimp only at hs; omega); dsimp only; omega⟩
  | @exit i h =>
    have hn : s.up = false := by
      cases hu : s.up with
      | false => rfl
      | true => have := tot_zero.1 (lb hu) _ (List.mem_of_getElem? h); cases this
    constructor <;> intro h1 <;> unfold exit at h1 <;> dsimp only at h1 <;> rw [hn] at h1 <;> cases h1
  | timeout h =>
    have hn : s.up = false := by
      cases hu : s.up with
      | false => rfl
      | true => have := tot_zero.1 (lb hu) _ (List.mem_of_getElem? h); simp [bad] at this
    constructor <;> intro h1 <;> dsimp only at h1 <;> rw [hn] at h1 <;> cases h1
  | @spuriousO i b h =>
    have w := wsetL h (.woken false)
    simp only [act, bad] at w
    refine ⟨fun hu => ?_, fun hu hq => by have := lq hu hq; dsimp only; omega, fun hu hs => by have := ls hu hs; dsimp only; omega⟩
    have := lb hu
    simp at w
    dsimp only; omega
  | @spuriousI i x h ho =>
    have hI : MaybeI true s.cs (s.cs.set i (wakeI x)) := Or.inl ⟨i, x, h, ho, rfl⟩
    have t1 := maybeI_tot hI wake_IT
    have t2 := maybeI_sleep hI
    exact ⟨lb, lq, fun hu hs => by have := ls hu (by dsimp only at hs; omega); dsimp only; omega⟩
  | @spuriousP i p h =>
    have w := csetL h (.wWoken p)
    simp only [SI, WI, IT] at w
    exact ⟨lb, lq, fun hu hs => by have := ls hu (by dsimp only at hs; omega); dsimp only; omega⟩
  | @dispatch i p pr ts h _ _ _ _ _ =>
    have w := csetL h (.ins ts false)
    simp only [SI, WI, IT] at w
    exact ⟨lb, lq, fun hu hs => by have := ls hu (by dsimp only at hs; omega); dsimp only; simp at w; omega⟩
  | @insert i t todo woke ws' h hO =>
    have hu := up_of_use A h (by simp [useC])
    have hsp : Live (spawn c s) ∧ 0 < tot live (spawn c s).ws ∧ (spawn c s).waiters = tot waitC (spawn c s).cs ∧
        (spawn c s).cs[i]? = some (.ins (t :: todo) woke) ∧ (spawn c s).up = true := by
      have hll := A.live
      have hii := A.idle
      unfold spawn
      split
      · have e1 := tot_append act s.ws [.fetch]
        have e2 := tot_append bad s.ws [.fetch]
        have e3 := tot_append live s.ws [.fetch]
        rw [tot_cons, tot_nil] at e1 e2 e3
        simp only [act, bad, live] at e1 e2 e3
        refine ⟨⟨fun hu => ?_, fun hu hq => ?_, fun hu hs => ?_⟩, ?_, A.wait, h, hu⟩
        · have := lb hu; dsimp only; omega
        · have := lq hu hq; dsimp only; omega
        · have := ls hu hs; dsimp only; omega
        · dsimp only; omega
      · rename_i hn
        refine ⟨L0, ?_, A.wait, h, hu⟩
        apply Classical.byContradiction
        intro h0
        have hle : tot idleW s.ws ≤ tot live s.ws := tot_le (by intro x; cases x <;> simp [idleW, live]) s.ws
        exact hn ⟨by omega, by omega⟩
    obtain ⟨h1, h2, h3, h4, h5⟩ := hsp
    exact insBody_live hm hqm h4 h5 h2 h3 h1 hO
  | @insertResume i todo h =>
    have w := csetL h (.ins todo true)
    simp only [SI, WI, IT] at w
    exact ⟨lb, lq, fun hu hs => by dsimp only at *; simp at w; omega⟩
  | avail h hu =>
    refine avail_live hm h (Or.inl rfl) A.live A.idle lb lq ?_
    intro hu hs
    have := ls hu hs
    simp only [WI]; omega
  | @availResume i cs' h hI =>
    have hI' : MaybeI (decide (s.waiters - 1 ≠ 0)) s.cs cs' := by
      unfold MaybeI
      simpa only [decide_eq_true_eq] using hI
    refine avail_live hm (availResume_cs hI' h) (Or.inr rfl) A.live A.idle lb lq ?_
    intro hu hs
    dsimp only at hs hu ⊢
    have t2 := maybeI_sleep hI'
    have hw := SI_le_wait s.cs
    have hA := A.wait
    have hpos : 0 < tot WI s.cs := tot_pos.2 ⟨_, List.mem_of_getElem? h, by simp [WI]⟩
    simp only [WI]
    have hne : s.waiters - 1 ≠ 0 := by omega
    have hd0 : tot dS s.cs = 0 := by
      apply Classical.byContradiction; intro hn
      have := (A.dsl (by omega)).1; rw [hu] at this; cases this
    rw [decide_eq_true hne] at hI'
    rcases hI' with ⟨j, x, hj, ho, rfl⟩ | ⟨hn, rfl⟩
    · have w := tot_set hj (wakeI x) WI
      have hx : WI x = 0 ∧ WI (wakeI x) = 1 := by
        have := tot_zero.1 hd0 x (List.mem_of_getElem? hj)
        cases x <;> simp [onI, WI, wakeI, dS] at ho this ⊢
      omega
    · exfalso
      obtain ⟨x, hx, hp⟩ := tot_pos.1 hs
      have := hn x hx
      cases x <;> simp [onI, SI] at this hp
  | @wait i p pr h _ =>
    unfold waitBody
    split
    · have w := csetL h .idle
      simp only [SI, WI, IT] at w
      exact ⟨lb, lq, fun hu hs => by have := ls hu (by dsimp only at hs; omega); dsimp only; omega⟩
    · have w := csetL h (.wSleep p)
      simp only [SI, WI, IT] at w
      exact ⟨lb, lq, fun hu hs => by have := ls hu (by dsimp only at hs; omega); dsimp only; omega⟩
  | @waitResume i p pr h _ =>
    unfold waitBody
    split
    · have w := csetL h .idle
      simp only [SI, WI, IT] at w
      exact ⟨lb, lq, fun hu hs => by have := ls hu (by dsimp only at hs; omega); dsimp only; omega⟩
    · have w := csetL h (.wSleep p)
      simp only [SI, WI, IT] at w
      exact ⟨lb, lq, fun hu hs => by have := ls hu (by dsimp only at hs; omega); dsimp only; omega⟩
  | destroy h hu hn =>
    constructor <;> intro h1 <;> unfold destroyBody at h1 <;> split at h1 <;> cases h1
  | destroyResume h =>
    have hn : s.up = false := A.dup (tot_pos.2 ⟨_, List.mem_of_getElem? h, by simp [dA]⟩)
    constructor <;> intro h1 <;> unfold destroyBody at h1 <;> split at h1 <;> dsimp only at h1 <;> rw [hn] at h1 <;> cases h1

theorem reach_live {c : Cfg} (hc : c.stays) (h1 : c.minT ≤ c.maxT) (hm : 0 < c.maxT) (hqm : 0 < c.maxQ) {n k : Nat} {s : St} (h : Reach c n k s) :
    Live s := by
  induction h with
  | init => exact init_live c n k
  | step r st ih => exact step_live hc hm hqm (reach_invA h1 r) ih st

end Verif.Pool
