import Verif.Pool.Lemmas
/-! The counters of the pool count what they should. -/
namespace Verif.Pool

/-- The invariant about the counters. -/
structure InvA (c : Cfg) (s : St) : Prop where
  live : s.numT = tot live s.ws
  idle : s.numIdle = tot idleW s.ws
  wait : s.waiters = tot waitC s.cs
  maxT : s.numT ≤ c.maxT
  maxQ : s.queue.length ≤ c.maxQ
  down : s.up = false → tot useC s.cs = 0 ∧ tot sleepW s.ws = 0
  dsl : 0 < tot dS s.cs → s.up = false ∧ 0 < s.numT
  dup : 0 < tot dA s.cs → s.up = false

theorem wsetA {ws : List W} {i : Nat} {a : W} (h : ws[i]? = some a) (b : W) :
    tot live (ws.set i b) + live a = tot live ws + live b ∧ tot idleW (ws.set i b) + idleW a = tot idleW ws + idleW b ∧
    tot sleepW (ws.set i b) + sleepW a = tot sleepW ws + sleepW b := ⟨tot_set h b _, tot_set h b _, tot_set h b _⟩

theorem csetA {cs : List C} {i : Nat} {a : C} (h : cs[i]? = some a) (b : C) :
    tot waitC (cs.set i b) + waitC a = tot waitC cs + waitC b ∧ tot useC (cs.set i b) + useC a = tot useC cs + useC b ∧
    tot dS (cs.set i b) + dS a = tot dS cs + dS b ∧ tot dA (cs.set i b) + dA a = tot dA cs + dA b := ⟨tot_set h b _, tot_set h b _, tot_set h b _, tot_set h b _⟩

theorem init_invA {c : Cfg} (hc : c.minT ≤ c.maxT) (n k : Nat) : InvA c (init c n k) := by
  constructor <;> simp [init, tot_replicate, live, idleW, waitC, dS, dA]
  omega

theorem fetch_invA {c : Cfg} {s : St} {i : Nat} {a : W} {tm : Bool} {cs' : List C} (h : s.ws[i]? = some a) (ha : a = .fetch ∨ ∃ b, a = .woken b)
    (live' : s.numT = tot live s.ws) (idle : s.numIdle + idleW a = tot idleW s.ws) (wait : s.waiters = tot waitC s.cs) (maxT : s.numT ≤ c.maxT)
    (maxQ : s.queue.length ≤ c.maxQ) (down : s.up = false → tot useC s.cs = 0 ∧ tot sleepW s.ws = 0)
    (dsl : 0 < tot dS s.cs → s.up = false ∧ 0 < s.numT) (dup : 0 < tot dA s.cs → s.up = false) (hI : MaybeI (fetchBody c s i tm).2 (fetchBody c s i tm).1.cs cs') :
    InvA c { (fetchBody c s i tm).1 with cs := cs' } := by
  have hl : live a = 1 := by rcases ha with rfl | ⟨b, rfl⟩ <;> rfl
  have hs : sleepW a = 0 := by rcases ha with rfl | ⟨b, rfl⟩ <;> rfl
  have hi : idleW a ≤ 1 := by rcases ha with rfl | ⟨b, rfl⟩ <;> simp [idleW]
  rcases fetchBody_cases c s i tm with ⟨hu, e⟩ | ⟨hu, q, rest, hq, e⟩ | ⟨hu, hq, hn, hx, b, e⟩ | ⟨hu, hq, b, hb, e⟩
  all_goals
    rw [e] at hI ⊢
    have t1 := maybeI_tot hI wake_waitC
    have t2 := maybeI_tot hI wake_useC
    have t3 := maybeI_dS hI
    have t4 := maybeI_tot hI wake_dA
    simp only at t1 t2 t3 t4
  · have w := wsetA h .exiting
    simp only [show Verif.Pool.live .exiting = 1 from rfl, show idleW .exiting = 0 from rfl, show sleepW .exiting = 0 from rfl] at w
    constructor <;> dsimp only <;> first | omega | (intro h1; have := down hu; have := dsl; omega) | (intro h1; exact ⟨hu, (dsl (by omega)).2⟩) | (intro _; exact hu)
  · have w := wsetA h (.run q)
    simp only [show Verif.Pool.live (.run q) = 1 from rfl, show idleW (.run q) = 0 from rfl, show sleepW (.run q) = 0 from rfl] at w
    rw [hq] at maxQ; simp only [List.length_cons] at maxQ
    constructor <;> dsimp only <;> first | omega | (intro h1; rw [hu] at h1; cases h1) | (intro h1; have := (dsl (by omega)).1; rw [hu] at this; cases this) | (intro h1; exact dup (by omega))
  · have w := wsetA h .exiting
    simp only [show Verif.Pool.live .exiting = 1 from rfl, show idleW .exiting = 0 from rfl, show sleepW .exiting = 0 from rfl] at w
    constructor <;> dsimp only <;> first | omega | (intro h1; rw [hu] at h1; cases h1) | (intro h1; have := (dsl (by omega)).1; rw [hu] at this; cases this) | (intro h1; exact dup (by omega))
  · have w := wsetA h (.sleep b)
    simp only [show Verif.Pool.live (.sleep b) = 1 from rfl, show idleW (.sleep b) = 1 from rfl, show sleepW (.sleep b) = 1 from rfl] at w
    constructor <;> dsimp only <;> first | omega | (intro h1; rw [hu] at h1; cases h1) | (intro h1; have := (dsl (by omega)).1; rw [hu] at this; cases this) | (intro h1; exact dup (by omega))

theorem avail_invA {c : Cfg} {s : St} {i : Nat} {a : C} (h : s.cs[i]? = some a) (ha : a = .idle ∨ a = .avWoken) (hu : s.up = true)
    (live' : s.numT = tot live s.ws) (idle : s.numIdle = tot idleW s.ws) (wait : s.waiters + waitC a = tot waitC s.cs) (maxT : s.numT ≤ c.maxT)
    (maxQ : s.queue.length ≤ c.maxQ) (dsl : 0 < tot dS s.cs → s.up = false ∧ 0 < s.numT) (dup : 0 < tot dA s.cs → s.up = false) : InvA c (availBody c s i) := by
  have hd : tot dS s.cs = 0 := by
    apply Classical.byContradiction; intro hn
    have := (dsl (by omega)).1; rw [hu] at this; cases this
  have hd2 : tot dA s.cs = 0 := by
    apply Classical.byContradiction; intro hn
    have := dup (by omega); rw [hu] at this; cases this
  unfold availBody
  split
  · have w := csetA h .idle
    rcases ha with rfl | rfl <;> simp [waitC, useC, dS, dA] at w wait <;>
    constructor <;> dsimp only <;> first | omega | (intro h1; rw [hu] at h1; cases h1)
  · have w := csetA h .avSleep
    rcases ha with rfl | rfl <;> simp [waitC, useC, dS, dA] at w wait <;>
    constructor <;> dsimp only <;> first | omega | (intro h1; rw [hu] at h1; cases h1)

theorem wait_invA {c : Cfg} {s : St} {i p : Nat} {pr : Parent} {a : C} (h : s.cs[i]? = some a) (ha : a = .idle ∨ a = .wWoken p) (I : InvA c s) :
    InvA c (waitBody s i p pr) := by
  obtain ⟨live', idle, wait, maxT, maxQ, down, dsl, dup⟩ := I
  unfold waitBody
  split
  · have w := csetA h .idle
    rcases ha with rfl | rfl <;> simp [waitC, useC, dS, dA] at w wait <;>
    (constructor <;> dsimp only <;> first | omega | (intro h1; have := down h1; omega) | (intro h1; exact dsl (by omega)) | (intro h1; exact dup (by omega)))
  · have w := csetA h (.wSleep p)
    rcases ha with rfl | rfl <;> simp [waitC, useC, dS, dA] at w wait <;>
    (constructor <;> dsimp only <;> first | omega | (intro h1; have := down h1; omega) | (intro h1; exact dsl (by omega)) | (intro h1; exact dup (by omega)))

theorem spawn_invA {c : Cfg} {s : St} (I : InvA c s) : InvA c (spawn c s) := by
  obtain ⟨live', idle, wait, maxT, maxQ, down, dsl, dup⟩ := I
  unfold spawn
  split
  · have e1 := tot_append live s.ws [.fetch]
    have e2 := tot_append idleW s.ws [.fetch]
    have e3 := tot_append sleepW s.ws [.fetch]
    rw [tot_cons, tot_nil] at e1 e2 e3
    simp only [live, idleW, sleepW] at e1 e2 e3
    constructor <;> dsimp only <;> first | omega | (intro h1; have := down h1; omega) | (intro h1; have := dsl h1; exact ⟨this.1, by omega⟩) | exact dup
  · exact ⟨live', idle, wait, maxT, maxQ, down, dsl, dup⟩

theorem up_of_use {c : Cfg} {s : St} (I : InvA c s) {i : Nat} {a : C} (h : s.cs[i]? = some a) (ha : 0 < useC a) : s.up = true := by
  cases hu : s.up with
  | true => rfl
  | false =>
    have := (I.down hu).1
    have := tot_zero.1 this a (List.mem_of_getElem? h)
    omega

theorem insBody_invA {c : Cfg} {s : St} {i : Nat} {t : Task} {todo : List Task} {woke : Bool} {ws' : List W} (I : InvA c s)
    (h : s.cs[i]? = some (.ins (t :: todo) woke)) (hO : MaybeO (insBody c s i t todo woke).2 (insBody c s i t todo woke).1.ws ws') :
    InvA c { (insBody c s i t todo woke).1 with ws := ws' } := by
  have hu := up_of_use I h (by simp [useC])
  obtain ⟨live', idle, wait, maxT, maxQ, down, dsl, dup⟩ := I
  have t1 := maybeO_tot hO wake_live
  have t2 := maybeO_tot hO wake_idleW
  clear hO
  have hd : tot dS s.cs = 0 := by
    apply Classical.byContradiction; intro hn
    have := (dsl (by omega)).1; rw [hu] at this; cases this
  have hd2 : tot dA s.cs = 0 := by
    apply Classical.byContradiction; intro hn
    have := dup (by omega); rw [hu] at this; cases this
  unfold insBody at *
  split at t1
  · rename_i hc
    rw [if_pos hc] at t2 ⊢
    dsimp only at t1 t2
    have w := csetA h (if todo = [] then .idle else .ins todo true)
    have e1 : waitC (if todo = [] then .idle else .ins todo true) = 0 := by split <;> rfl
    have e2 : dS (if todo = [] then .idle else .ins todo true) = 0 := by split <;> rfl
    have e3 : dA (if todo = [] then .idle else .ins todo true) = 0 := by split <;> rfl
    rw [e1, e2, e3] at w
    simp only [waitC, dS, dA] at w
    constructor <;> dsimp only <;> first | omega | (intro h1; rw [hu] at h1; cases h1) | (simp; omega)
  · rename_i hc
    rw [if_neg hc] at t2 ⊢
    dsimp only at t1 t2
    have w := csetA h (.inSleep (t :: todo))
    simp only [waitC, dS, dA, useC] at w
    constructor <;> dsimp only <;> first | omega | (intro h1; rw [hu] at h1; cases h1)

theorem exit_invA {c : Cfg} {s : St} {i : Nat} (h : s.ws[i]? = some .exiting) (I : InvA c s) : InvA c (exit s i) := by
  obtain ⟨live', idle, wait, maxT, maxQ, down, dsl, dup⟩ := I
  have w := wsetA h .dead
  simp [live, idleW, sleepW] at w
  unfold exit
  dsimp only
  split
  · rename_i hc
    have e1 := tot_map waitC waitC wakeI wake_waitC s.cs
    have e2 := tot_map useC useC wakeI wake_useC s.cs
    have e4 := tot_map dA dA wakeI wake_dA s.cs
    have e3 : tot dS (s.cs.map wakeI) = 0 := by
      rw [tot_map dS (fun _ => 0) wakeI (by intro x; cases x <;> rfl), tot_zero]; simp
    constructor <;> dsimp only <;> first | omega | (intro h1; have := down h1; omega) | (intro _; exact hc.1)
  · rename_i hc
    constructor <;> dsimp only <;> first | omega | (intro h1; have := down h1; omega) | exact dup | skip
    intro h1
    obtain ⟨hd, hp⟩ := dsl h1
    exact ⟨hd, by
      have : ¬ s.numT - 1 = 0 := fun e => hc ⟨hd, e⟩
      omega⟩

theorem destroy_invA {c : Cfg} {s : St} {i : Nat} {a : C} (h : s.cs[i]? = some a) (ha : a = .idle ∨ a = .dWoken) (hu : s.up = false) (I : InvA c s) :
    InvA c (destroyBody s i) := by
  obtain ⟨live', idle, wait, maxT, maxQ, down, dsl, dup⟩ := I
  unfold destroyBody
  split
  · have w := csetA h .dSleep
    rcases ha with rfl | rfl <;> simp [waitC, useC, dS, dA] at w wait <;>
    (constructor <;> dsimp only <;> first | omega | (intro h1; have := down h1; omega) | (intro h1; exact ⟨hu, by omega⟩) | (intro _; exact hu))
  · have w := csetA h .dDone
    rcases ha with rfl | rfl <;> simp [waitC, useC, dS, dA] at w wait <;>
    (constructor <;> dsimp only <;> first | omega | (intro h1; have := down h1; omega) | (intro h1; exact dsl (by omega)) | (intro h1; exact dup (by omega)))

theorem notify_invA {c : Cfg} {s : St} {i : Nat} {t : Task} {pr : Parent} (h : s.ws[i]? = some (.done t)) (I : InvA c s) : InvA c (notify s i t pr) := by
  obtain ⟨live', idle, wait, maxT, maxQ, down, dsl, dup⟩ := I
  have w := wsetA h .fetch
  simp [live, idleW, sleepW] at w
  have e1 := wakeP_other (f := waitC) t.parent (by intro q; rfl) s.cs
  have e2 := wakeP_other (f := useC) t.parent (by intro q; rfl) s.cs
  have e3 := wakeP_other (f := dS) t.parent (by intro q; rfl) s.cs
  have e4 := wakeP_other (f := dA) t.parent (by intro q; rfl) s.cs
  unfold notify
  dsimp only
  split <;> constructor <;> dsimp only <;>
    first | omega | (intro h1; have := down h1; omega) | (intro h1; exact dsl (by omega)) | (intro h1; exact dup (by omega))

theorem step_invA {c : Cfg} {s s' : St} (I : InvA c s) (st : Step c s s') : InvA c s' := by
  cases st with
  | fetch h hI => exact fetch_invA h (Or.inl rfl) I.live (by simpa [idleW] using I.idle) I.wait I.maxT I.maxQ I.down I.dsl I.dup hI
  | resume h hI =>
    exact fetch_invA (s := { s with numIdle := s.numIdle - 1 }) h (Or.inr ⟨_, rfl⟩) I.live (by have := I.idle; simp only [idleW]; omega)
      I.wait I.maxT I.maxQ I.down I.dsl I.dup hI
  | finish h =>
    rename_i i t
    have w := wsetA h (.done t)
    obtain ⟨live', idle, wait, maxT, maxQ, down, dsl, dup⟩ := I
    simp [live, idleW, sleepW] at w
    constructor <;> dsimp only <;> first | omega | (intro h1; have := down h1; omega) | exact dsl | exact dup
  | notify h _ => exact notify_invA h I
  | exit h => exact exit_invA h I
  | timeout h =>
    have w := wsetA h (.woken true)
    obtain ⟨live', idle, wait, maxT, maxQ, down, dsl, dup⟩ := I
    simp [live, idleW, sleepW] at w
    constructor <;> dsimp only <;> first | omega | (intro h1; have := down h1; omega) | exact dsl | exact dup
  | spuriousO h =>
    have w := wsetA h (.woken false)
    obtain ⟨live', idle, wait, maxT, maxQ, down, dsl, dup⟩ := I
    simp [live, idleW, sleepW] at w
    constructor <;> dsimp only <;> first | omega | (intro h1; have := down h1; omega) | exact dsl | exact dup
  | @spuriousI i x h ho =>
    have hI : MaybeI true s.cs (s.cs.set i (wakeI x)) := Or.inl ⟨i, x, h, ho, rfl⟩
    have t1 := maybeI_tot hI wake_waitC
    have t2 := maybeI_tot hI wake_useC
    have t3 := maybeI_dS hI
    have t4 := maybeI_tot hI wake_dA
    obtain ⟨live', idle, wait, maxT, maxQ, down, dsl, dup⟩ := I
    constructor <;> dsimp only <;>
      first | omega | (intro h1; have := down h1; omega) | (intro h1; exact dsl (by omega)) | (intro h1; exact dup (by omega))
  | @spuriousP i p h =>
    have w := csetA h (.wWoken p)
    obtain ⟨live', idle, wait, maxT, maxQ, down, dsl, dup⟩ := I
    simp [waitC, useC, dS, dA] at w
    constructor <;> dsimp only <;>
      first | omega | (intro h1; have := down h1; omega) | (intro h1; exact dsl (by omega)) | (intro h1; exact dup (by omega))
  | @dispatch i p pr ts h hu =>
    have w := csetA h (.ins ts false)
    obtain ⟨live', idle, wait, maxT, maxQ, down, dsl, dup⟩ := I
    simp [waitC, useC, dS, dA] at w
    constructor <;> dsimp only <;>
      first | omega | (intro h1; rw [hu] at h1; cases h1) | (intro h1; exact dsl (by omega)) | (intro h1; exact dup (by omega))
  | insert h hO =>
    refine insBody_invA (spawn_invA I) ?_ hO
    unfold spawn; split <;> exact h
  | @insertResume i todo h =>
    have hu := up_of_use I h (by simp [useC])
    have w := csetA h (.ins todo true)
    obtain ⟨live', idle, wait, maxT, maxQ, down, dsl, dup⟩ := I
    simp [waitC, useC, dS, dA] at w
    constructor <;> dsimp only <;>
      first | omega | (intro h1; rw [hu] at h1; cases h1) | (intro h1; exact dsl (by omega)) | (intro h1; exact dup (by omega))
  | avail h hu => exact avail_invA h (Or.inl rfl) hu I.live I.idle (by simpa [waitC] using I.wait) I.maxT I.maxQ I.dsl I.dup
  | @availResume i cs' h hI =>
    have hu := up_of_use I h (by simp [useC])
    have hI' : MaybeI (decide (s.waiters - 1 ≠ 0)) s.cs cs' := by
      unfold MaybeI
      simpa only [decide_eq_true_eq] using hI
    have h' : cs'[i]? = some .avWoken := by
      unfold MaybeI at hI'
      split at hI'
      · rcases hI' with ⟨j, x, hj, ho, rfl⟩ | ⟨_, rfl⟩
        · rw [List.getElem?_set]
          split
          · rename_i e; subst e
            rw [h] at hj; cases hj; cases ho
          · exact h
        · exact h
      · rw [hI']; exact h
    have t1 := maybeI_tot hI' wake_waitC
    have t3 := maybeI_dS hI'
    have t4 := maybeI_tot hI' wake_dA
    exact avail_invA (s := { s with waiters := s.waiters - 1, cs := cs' }) h' (Or.inr rfl) hu I.live I.idle
      (by have := I.wait; simp only [waitC]; omega) I.maxT I.maxQ (fun h1 => I.dsl (by dsimp only at h1; omega)) (fun h1 => I.dup (by dsimp only at h1; omega))
  | wait h _ => exact wait_invA h (Or.inl rfl) I
  | waitResume h _ => exact wait_invA h (Or.inr rfl) I
  | @destroy i h hu hn =>
    obtain ⟨live', idle, wait, maxT, maxQ, down, dsl, dup⟩ := I
    refine destroy_invA h (Or.inl rfl) rfl ?_
    have e1 := tot_map live live wakeO wake_live s.ws
    have e2 := tot_map idleW idleW wakeO wake_idleW s.ws
    have e3 : tot sleepW (s.ws.map wakeO) = 0 := by
      rw [tot_map sleepW (fun _ => 0) wakeO (by intro x; cases x <;> rfl), tot_zero]; simp
    have e4 : tot useC s.cs = 0 := by
      rw [tot_zero]; intro x hx
      have := hn x hx
      cases x <;> simp [usesPool, useC] at this ⊢
    constructor <;> dsimp only <;> first | omega | skip
    · intro h1
      have := (dsl h1).1; rw [hu] at this; cases this
    · intro _; rfl
  | @destroyResume i h =>
    refine destroy_invA h (Or.inr rfl) (I.dup ?_) I
    exact tot_pos.2 ⟨_, List.mem_of_getElem? h, by simp [dA]⟩

theorem reach_invA {c : Cfg} (hc : c.minT ≤ c.maxT) {n k : Nat} {s : St} (h : Reach c n k s) : InvA c s := by
  induction h with
  | init => exact init_invA hc n k
  | step _ st ih => exact step_invA ih st

end Verif.Pool
