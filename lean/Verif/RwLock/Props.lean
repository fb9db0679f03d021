import Verif.RwLock.Model
/-! C39 and C40: mutual exclusion and no lost wakeups of the emulated read/write lock. -/
namespace Verif.RwLock

/-- The number of threads at `pc`. -/
def cnt (l : List PC) (pc : PC) : Nat := (l.filter (· = pc)).length

theorem cnt_set {l : List PC} {t : Nat} {a : PC} (h : l[t]? = some a) (b pc : PC) :
    cnt (l.set t b) pc + (if a = pc then 1 else 0) = cnt l pc + (if b = pc then 1 else 0) := by
  induction l generalizing t with
  | nil => simp at h
  | cons x l ih =>
    cases t with
    | zero =>
      simp at h
      subst h
      simp only [List.set_cons_zero, cnt, List.filter_cons, decide_eq_true_eq]
      by_cases h1 : b = pc <;> by_cases h2 : x = pc <;> simp [h1, h2]
    | succ t =>
      simp only [List.getElem?_cons_succ] at h
      have := ih h
      simp only [List.set_cons_succ, cnt, List.filter_cons, decide_eq_true_eq] at this ⊢
      by_cases h2 : x = pc <;> simp [h2] <;> omega

theorem cnt_wake (l : List PC) (pc : PC) : cnt (wakeReaders l) pc =
    if pc = .sleepR then 0 else if pc = .wokenR then cnt l .wokenR + cnt l .sleepR else cnt l pc := by
  induction l with
  | nil => simp [cnt, wakeReaders]
  | cons x l ih =>
    simp only [cnt, wakeReaders, List.map_cons, List.filter_cons, decide_eq_true_eq] at ih ⊢
    cases x <;> cases pc <;> simp at ih ⊢ <;> omega

theorem cnt_pos {l : List PC} {t : Nat} {a : PC} (h : l[t]? = some a) : 0 < cnt l a := by
  unfold cnt
  rw [List.length_pos_iff_exists_mem]
  exact ⟨a, by simp; exact List.mem_of_getElem? h⟩

theorem cnt_exists {l : List PC} {a : PC} (h : 0 < cnt l a) : ∃ t : Nat, l[t]? = some a := by
  unfold cnt at h
  obtain ⟨x, hx⟩ := List.length_pos_iff_exists_mem.1 h
  simp at hx
  rw [hx.2] at hx
  exact List.mem_iff_getElem?.1 hx.1

/-- The invariant: what the counters count, and which wakeups are under way. -/
structure Inv (s : St) : Prop where
  rd : s.numRd = cnt s.pcs .sleepR + cnt s.pcs .wokenR
  wr : s.numWr = cnt s.pcs .sleepW + cnt s.pcs .wokenW
  hold : (cnt s.pcs .holdW = 0 ∧ s.lockcnt = cnt s.pcs .holdR) ∨ (cnt s.pcs .holdW = 1 ∧ cnt s.pcs .holdR = 0 ∧ s.lockcnt = -1)
  wakeW : s.lockcnt = 0 → 0 < cnt s.pcs .sleepW → 0 < cnt s.pcs .sigW ∨ 0 < cnt s.pcs .wokenW
  wakeR : 0 ≤ s.lockcnt → s.numWr = 0 → 0 < cnt s.pcs .sleepR → 0 < cnt s.pcs .bcR

theorem init_inv (n : Nat) : Inv (init n) := by
  have h : ∀ pc, pc ≠ .idle → cnt (init n).pcs pc = 0 := by
    intro pc hpc
    simp [cnt, init, List.filter_replicate, Ne.symm hpc]
  constructor <;> simp [h, init] <;> simp [init] at h <;> simp [h]

/-- All the counts after changing the place of one thread. -/
theorem counts {l : List PC} {t : Nat} {a : PC} (h : l[t]? = some a) (b : PC) :
    ∀ pc, cnt (l.set t b) pc + (if a = pc then 1 else 0) = cnt l pc + (if b = pc then 1 else 0) := cnt_set h b

theorem tryRead_inv {s : St} {t : Nat} {a : PC} (h : s.pcs[t]? = some a) (ha : a = .idle ∨ a = .wokenR)
    (rd : s.numRd + (if a = .wokenR then 1 else 0) = cnt s.pcs .sleepR + cnt s.pcs .wokenR)
    (wr : s.numWr = cnt s.pcs .sleepW + cnt s.pcs .wokenW)
    (hold : (cnt s.pcs .holdW = 0 ∧ s.lockcnt = cnt s.pcs .holdR) ∨ (cnt s.pcs .holdW = 1 ∧ cnt s.pcs .holdR = 0 ∧ s.lockcnt = -1))
    (wakeW : s.lockcnt = 0 → 0 < cnt s.pcs .sleepW → 0 < cnt s.pcs .sigW ∨ 0 < cnt s.pcs .wokenW)
    (wakeR : 0 ≤ s.lockcnt → s.numWr = 0 → 0 < cnt s.pcs .sleepR → 0 < cnt s.pcs .bcR) : Inv (tryRead s t) := by
  unfold tryRead
  split
  · rename_i hc
    have c := counts h .sleepR
    have c1 := c .sleepR; have c2 := c .wokenR; have c3 := c .sleepW; have c4 := c .wokenW; have c5 := c .holdW; have c6 := c .holdR
    have c7 := c .sigW; have c8 := c .bcR
    rcases ha with rfl | rfl <;> simp at c1 c2 c3 c4 c5 c6 c7 c8 rd <;> constructor <;> dsimp only <;> omega
  · rename_i hc
    have c := counts h .holdR
    have c1 := c .sleepR; have c2 := c .wokenR; have c3 := c .sleepW; have c4 := c .wokenW; have c5 := c .holdW; have c6 := c .holdR
    have c7 := c .sigW; have c8 := c .bcR
    rcases ha with rfl | rfl <;> simp at c1 c2 c3 c4 c5 c6 c7 c8 rd <;> constructor <;> dsimp only <;> omega

theorem tryWrite_inv {s : St} {t : Nat} {a : PC} (h : s.pcs[t]? = some a) (ha : a = .idle ∨ a = .wokenW)
    (rd : s.numRd = cnt s.pcs .sleepR + cnt s.pcs .wokenR)
    (wr : s.numWr + (if a = .wokenW then 1 else 0) = cnt s.pcs .sleepW + cnt s.pcs .wokenW)
    (hold : (cnt s.pcs .holdW = 0 ∧ s.lockcnt = cnt s.pcs .holdR) ∨ (cnt s.pcs .holdW = 1 ∧ cnt s.pcs .holdR = 0 ∧ s.lockcnt = -1)) :
    Inv (tryWrite s t) := by
  unfold tryWrite
  split
  · rename_i hc
    have c := counts h .sleepW
    have c1 := c .sleepR; have c2 := c .wokenR; have c3 := c .sleepW; have c4 := c .wokenW; have c5 := c .holdW; have c6 := c .holdR
    have c7 := c .sigW; have c8 := c .bcR
    rcases ha with rfl | rfl <;> simp at c1 c2 c3 c4 c5 c6 c7 c8 wr <;> constructor <;> dsimp only <;> omega
  · rename_i hc
    have c := counts h .holdW
    have c1 := c .sleepR; have c2 := c .wokenR; have c3 := c .sleepW; have c4 := c .wokenW; have c5 := c .holdW; have c6 := c .holdR
    have c7 := c .sigW; have c8 := c .bcR
    rcases ha with rfl | rfl <;> simp at c1 c2 c3 c4 c5 c6 c7 c8 wr <;> constructor <;> dsimp only <;> omega

theorem unlock_inv {s : St} {t : Nat} {a : PC} (h : s.pcs[t]? = some a) (ha : a = .holdR ∨ a = .holdW) (i : Inv s) : Inv (unlock s t) := by
  obtain ⟨rd, wr, hold, wakeW, wakeR⟩ := i
  have hp := cnt_pos h
  unfold unlock
  split
  · rename_i hc
    simp only
    by_cases hz : s.lockcnt - 1 = 0
    · simp only [hz, if_true]
      by_cases hw : s.numWr > 0
      · rw [if_pos hw]
        have c := counts h .sigW
        have c1 := c .sleepR; have c2 := c .wokenR; have c3 := c .sleepW; have c4 := c .wokenW; have c5 := c .holdW; have c6 := c .holdR
        have c7 := c .sigW; have c8 := c .bcR
        rcases ha with rfl | rfl <;> simp at c1 c2 c3 c4 c5 c6 c7 c8 <;> constructor <;> dsimp only <;> omega
      · rw [if_neg hw]
        have c := counts h .idle
        have c1 := c .sleepR; have c2 := c .wokenR; have c3 := c .sleepW; have c4 := c .wokenW; have c5 := c .holdW; have c6 := c .holdR
        have c7 := c .sigW; have c8 := c .bcR
        rcases ha with rfl | rfl <;> simp at c1 c2 c3 c4 c5 c6 c7 c8 <;> constructor <;> dsimp only <;> omega
    · simp only [hz, if_false, show ¬ (0 : Int) > 0 by omega]
      have c := counts h .idle
      have c1 := c .sleepR; have c2 := c .wokenR; have c3 := c .sleepW; have c4 := c .wokenW; have c5 := c .holdW; have c6 := c .holdR
      have c7 := c .sigW; have c8 := c .bcR
      rcases ha with rfl | rfl <;> simp at c1 c2 c3 c4 c5 c6 c7 c8 <;> constructor <;> dsimp only <;> omega
  · split
    · by_cases hw : s.numWr > 0
      · rw [if_pos hw]
        have c := counts h .sigW
        have c1 := c .sleepR; have c2 := c .wokenR; have c3 := c .sleepW; have c4 := c .wokenW; have c5 := c .holdW; have c6 := c .holdR
        have c7 := c .sigW; have c8 := c .bcR
        rcases ha with rfl | rfl <;> simp at c1 c2 c3 c4 c5 c6 c7 c8 <;> constructor <;> dsimp only <;> omega
      · rw [if_neg hw]
        by_cases hr : s.numRd > 0
        · rw [if_pos hr]
          have c := counts h .bcR
          have c1 := c .sleepR; have c2 := c .wokenR; have c3 := c .sleepW; have c4 := c .wokenW; have c5 := c .holdW; have c6 := c .holdR
          have c7 := c .sigW; have c8 := c .bcR
          rcases ha with rfl | rfl <;> simp at c1 c2 c3 c4 c5 c6 c7 c8 <;> constructor <;> dsimp only <;> omega
        · rw [if_neg hr]
          have c := counts h .idle
          have c1 := c .sleepR; have c2 := c .wokenR; have c3 := c .sleepW; have c4 := c .wokenW; have c5 := c .holdW; have c6 := c .holdR
          have c7 := c .sigW; have c8 := c .bcR
          rcases ha with rfl | rfl <;> simp at c1 c2 c3 c4 c5 c6 c7 c8 <;> constructor <;> dsimp only <;> omega
    · exfalso
      rcases ha with rfl | rfl <;> omega

theorem step_inv {s s' : St} (i : Inv s) (st : Step s s') : Inv s' := by
  obtain ⟨rd, wr, hold, wakeW, wakeR⟩ := i
  cases st with
  | callRead h => exact tryRead_inv h (Or.inl rfl) (by simpa using rd) wr hold wakeW wakeR
  | callWrite h => exact tryWrite_inv h (Or.inl rfl) rd (by simpa using wr) hold
  | resumeRead h => exact tryRead_inv (s := { s with numRd := s.numRd - 1 }) h (Or.inr rfl) (by simp only [if_true]; omega) wr hold wakeW wakeR
  | resumeWrite h => exact tryWrite_inv (s := { s with numWr := s.numWr - 1 }) h (Or.inr rfl) rd (by simp only [if_true]; omega) hold
  | unlockRead h => exact unlock_inv h (Or.inl rfl) ⟨rd, wr, hold, wakeW, wakeR⟩
  | unlockWrite h => exact unlock_inv h (Or.inr rfl) ⟨rd, wr, hold, wakeW, wakeR⟩
  | @signal t j h1 h2 =>
    have hj : (s.pcs.set t .idle)[j]? = some .sleepW := by
      rw [List.getElem?_set]
      split
      · rename_i e; subst e; rw [h1] at h2; cases h2
      · exact h2
    have c := counts h1 .idle
    have d := counts hj .wokenW
    have c1 := c .sleepR; have c2 := c .wokenR; have c3 := c .sleepW; have c4 := c .wokenW; have c5 := c .holdW; have c6 := c .holdR
    have c7 := c .sigW; have c8 := c .bcR
    have d1 := d .sleepR; have d2 := d .wokenR; have d3 := d .sleepW; have d4 := d .wokenW; have d5 := d .holdW; have d6 := d .holdR
    have d7 := d .sigW; have d8 := d .bcR
    simp at c1 c2 c3 c4 c5 c6 c7 c8 d1 d2 d3 d4 d5 d6 d7 d8
    constructor <;> dsimp only <;> omega
  | signalNobody h1 h2 =>
    have hn : cnt s.pcs .sleepW = 0 := by
      apply Classical.byContradiction
      intro hc
      obtain ⟨j, hj⟩ := cnt_exists (Nat.pos_of_ne_zero hc)
      exact h2 j hj
    have c := counts h1 .idle
    have c1 := c .sleepR; have c2 := c .wokenR; have c3 := c .sleepW; have c4 := c .wokenW; have c5 := c .holdW; have c6 := c .holdR
    have c7 := c .sigW; have c8 := c .bcR
    simp at c1 c2 c3 c4 c5 c6 c7 c8
    constructor <;> dsimp only <;> omega
  | @broadcast t h =>
    have ht : (wakeReaders s.pcs)[t]? = some .bcR := by
      unfold wakeReaders
      rw [List.getElem?_map, h]; rfl
    have c := counts ht .idle
    have w := cnt_wake s.pcs
    have c1 := c .sleepR; have c2 := c .wokenR; have c3 := c .sleepW; have c4 := c .wokenW; have c5 := c .holdW; have c6 := c .holdR
    have c7 := c .sigW; have c8 := c .bcR
    simp [w] at c1 c2 c3 c4 c5 c6 c7 c8
    constructor <;> dsimp only <;> omega
  | spuriousRead h =>
    have c := counts h .wokenR
    have c1 := c .sleepR; have c2 := c .wokenR; have c3 := c .sleepW; have c4 := c .wokenW; have c5 := c .holdW; have c6 := c .holdR
    have c7 := c .sigW; have c8 := c .bcR
    simp at c1 c2 c3 c4 c5 c6 c7 c8
    constructor <;> dsimp only <;> omega
  | spuriousWrite h =>
    have c := counts h .wokenW
    have c1 := c .sleepR; have c2 := c .wokenR; have c3 := c .sleepW; have c4 := c .wokenW; have c5 := c .holdW; have c6 := c .holdR
    have c7 := c .sigW; have c8 := c .bcR
    simp at c1 c2 c3 c4 c5 c6 c7 c8
    constructor <;> dsimp only <;> omega

theorem reach_inv {n : Nat} {s : St} (h : Reach n s) : Inv s := by
  induction h with
  | init => exact init_inv n
  | step _ st ih => exact step_inv ih st

/-- C39: a thread that holds the lock for writing is alone. -/
theorem exclusion {n : Nat} {s : St} (h : Reach n s) {t u : Nat} (ht : s.pcs[t]? = some .holdW) (hu : s.pcs[u]? = some .holdW ∨ s.pcs[u]? = some .holdR) :
    t = u := by
  have i := (reach_inv h).hold
  have hp := cnt_pos ht
  apply Classical.byContradiction
  intro hne
  rcases hu with hu | hu
  · have hu' : (s.pcs.set t .idle)[u]? = some .holdW := by rw [List.getElem?_set_ne hne]; exact hu
    have := cnt_pos hu'
    have c := counts ht .idle .holdW
    simp at c
    omega
  · have := cnt_pos hu
    omega

/-- The lock is not exclusive among readers: two readers hold it together. -/
example : Reach 2 ⟨[.holdR, .holdR], 2, 0, 0⟩ :=
  .step (.step .init (.callRead (t := 0) rfl)) (.callRead (t := 1) rfl)

/-- A writer holds the lock while a reader sleeps. -/
example : Reach 2 ⟨[.holdW, .sleepR], -1, 1, 0⟩ :=
  .step (.step .init (.callWrite (t := 0) rfl)) (.callRead (t := 1) rfl)

/-- The counters of waiting threads are never negative, so the unsigned counters of the code do not wrap. -/
theorem counters_nonneg {n : Nat} {s : St} (h : Reach n s) : 0 ≤ s.numRd ∧ 0 ≤ s.numWr ∧ -1 ≤ s.lockcnt ∧
    (∀ t : Nat, s.pcs[t]? = some .wokenR → 0 < s.numRd) ∧ (∀ t : Nat, s.pcs[t]? = some .wokenW → 0 < s.numWr) := by
  obtain ⟨rd, wr, hold, _, _⟩ := reach_inv h
  refine ⟨by omega, by omega, by omega, fun t ht => ?_, fun t ht => ?_⟩ <;> have := cnt_pos ht <;> omega

/-- C40: when every thread is outside the lock functions or sleeping in them, nobody sleeps. -/
theorem no_lost_wakeup {n : Nat} {s : St} (h : Reach n s) (hq : ∀ pc ∈ s.pcs, pc = .idle ∨ pc = .sleepR ∨ pc = .sleepW) :
    ∀ pc ∈ s.pcs, pc = .idle := by
  obtain ⟨rd, wr, hold, wakeW, wakeR⟩ := reach_inv h
  have hz : ∀ pc, pc ≠ .idle → pc ≠ .sleepR → pc ≠ .sleepW → cnt s.pcs pc = 0 := by
    intro pc h1 h2 h3
    apply Classical.byContradiction
    intro hc
    obtain ⟨t, ht⟩ := cnt_exists (Nat.pos_of_ne_zero hc)
    rcases hq pc (List.mem_of_getElem? ht) with e | e | e <;> contradiction
  have z1 := hz .wokenR (by simp) (by simp) (by simp)
  have z2 := hz .wokenW (by simp) (by simp) (by simp)
  have z3 := hz .holdR (by simp) (by simp) (by simp)
  have z4 := hz .holdW (by simp) (by simp) (by simp)
  have z5 := hz .sigW (by simp) (by simp) (by simp)
  have z6 := hz .bcR (by simp) (by simp) (by simp)
  intro pc hpc
  rcases hq pc hpc with e | e | e
  · exact e
  · subst e
    obtain ⟨t, ht⟩ := List.mem_iff_getElem?.1 hpc
    have := cnt_pos ht
    omega
  · subst e
    obtain ⟨t, ht⟩ := List.mem_iff_getElem?.1 hpc
    have := cnt_pos ht
    omega

/-- Steps that complete calls already under way; no new call and no spurious wakeup. -/
inductive Settle : St → St → Prop
  | resumeRead {s : St} {t : Nat} : s.pcs[t]? = some .wokenR → Settle s (resumeRead s t)
  | resumeWrite {s : St} {t : Nat} : s.pcs[t]? = some .wokenW → Settle s (resumeWrite s t)
  | signal {s : St} {t j : Nat} : s.pcs[t]? = some .sigW → s.pcs[j]? = some .sleepW → Settle s { s with pcs := (s.pcs.set t .idle).set j .wokenW }
  | broadcast {s : St} {t : Nat} : s.pcs[t]? = some .bcR → Settle s { s with pcs := (wakeReaders s.pcs).set t .idle }

/-- These are steps of the model. -/
theorem Settle.isStep {s s' : St} (h : Settle s s') : Step s s' := by
  cases h with
  | resumeRead h => exact .resumeRead h
  | resumeWrite h => exact .resumeWrite h
  | signal h1 h2 => exact .signal h1 h2
  | broadcast h => exact .broadcast h

/-- At most two of them. -/
inductive Settles : St → St → Prop
  | one {s s'} : Settle s s' → Settles s s'
  | two {s s' s''} : Settle s s' → Settle s' s'' → Settles s s''

theorem resumeWrite_hold {s : St} {t : Nat} (h0 : s.lockcnt = 0) (h : s.pcs[t]? = some .wokenW) : (resumeWrite s t).pcs[t]? = some .holdW := by
  unfold resumeWrite tryWrite
  simp only [h0, ne_eq, not_true, if_false]
  have : t < s.pcs.length := by
    apply Classical.byContradiction; intro hn
    rw [List.getElem?_eq_none (by omega)] at h; cases h
  exact List.getElem?_set_self this

/-- C40, stronger: when nobody holds the lock and a thread sleeps waiting for it, the calls already under way give the lock to a
waiting thread in at most two steps. -/
theorem free_lock_is_taken {n : Nat} {s : St} (h : Reach n s) (hfree : ∀ pc ∈ s.pcs, pc ≠ .holdR ∧ pc ≠ .holdW)
    (hs : ∃ t : Nat, s.pcs[t]? = some .sleepR ∨ s.pcs[t]? = some .sleepW) :
    ∃ (s' : St) (t : Nat), Settles s s' ∧ ((s.pcs[t]? = some .sleepR ∨ s.pcs[t]? = some .wokenR) ∧ s'.pcs[t]? = some .holdR ∨
      (s.pcs[t]? = some .sleepW ∨ s.pcs[t]? = some .wokenW) ∧ s'.pcs[t]? = some .holdW) := by
  obtain ⟨rd, wr, hold, wakeW, wakeR⟩ := reach_inv h
  have hz : ∀ pc, (pc = .holdR ∨ pc = .holdW) → cnt s.pcs pc = 0 := by
    intro pc hpc
    apply Classical.byContradiction
    intro hc
    obtain ⟨t, ht⟩ := cnt_exists (Nat.pos_of_ne_zero hc)
    have := hfree pc (List.mem_of_getElem? ht)
    rcases hpc with e | e
    · exact this.1 e
    · exact this.2 e
  have z1 := hz .holdR (Or.inl rfl)
  have z2 := hz .holdW (Or.inr rfl)
  have h0 : s.lockcnt = 0 := by omega
  by_cases hw : 0 < cnt s.pcs .wokenW
  · obtain ⟨t, ht⟩ := cnt_exists hw
    exact ⟨_, t, .one (.resumeWrite ht), Or.inr ⟨Or.inr ht, resumeWrite_hold h0 ht⟩⟩
  · by_cases hsw : 0 < cnt s.pcs .sleepW
    · have hsig : 0 < cnt s.pcs .sigW := by have := wakeW h0 hsw; omega
      obtain ⟨t, ht⟩ := cnt_exists hsig
      obtain ⟨j, hj⟩ := cnt_exists hsw
      have hlen : j < (s.pcs.set t .idle).length := by
        apply Classical.byContradiction; intro hn
        rw [List.length_set] at hn
        rw [List.getElem?_eq_none (by omega)] at hj; cases hj
      have hj' : ((s.pcs.set t .idle).set j .wokenW)[j]? = some .wokenW := List.getElem?_set_self hlen
      exact ⟨_, j, .two (.signal ht hj) (.resumeWrite (t := j) hj'), Or.inr ⟨Or.inl hj, resumeWrite_hold h0 hj'⟩⟩
    · have hnw : s.numWr = 0 := by omega
      have hsr : 0 < cnt s.pcs .sleepR := by
        obtain ⟨t, ht | ht⟩ := hs
        · exact cnt_pos ht
        · have := cnt_pos ht; omega
      obtain ⟨t, ht⟩ := cnt_exists (wakeR (by omega) hnw hsr)
      obtain ⟨j, hj⟩ := cnt_exists hsr
      have hjw : (wakeReaders s.pcs)[j]? = some .wokenR := by unfold wakeReaders; rw [List.getElem?_map, hj]; rfl
      have hne : t ≠ j := by intro e; subst e; rw [ht] at hj; cases hj
      have hj' : ((wakeReaders s.pcs).set t .idle)[j]? = some .wokenR := by rw [List.getElem?_set_ne hne]; exact hjw
      refine ⟨_, j, .two (.broadcast ht) (.resumeRead (t := j) hj'), Or.inl ⟨Or.inl hj, ?_⟩⟩
      unfold resumeRead tryRead
      simp only [h0, hnw]
      rw [if_neg (by omega)]
      apply List.getElem?_set_self
      apply Classical.byContradiction; intro hn
      rw [List.getElem?_eq_none (by omega)] at hj'; cases hj'

/-- A writer slept while a reader held the lock; the reader has released it and is about to signal. -/
example : Reach 2 ⟨[.sigW, .sleepW], 0, 0, 1⟩ :=
  .step (.step (.step .init (.callRead (t := 0) rfl)) (.callWrite (t := 1) rfl)) (.unlockRead (t := 0) rfl)

/-- A reader that finds a writer waiting does not get the lock before it. -/
theorem writer_first {n : Nat} {s : St} (h : Reach n s) {t u : Nat} (ht : s.pcs[t]? = some .idle) (hu : s.pcs[u]? = some .sleepW ∨ s.pcs[u]? = some .wokenW) :
    (tryRead s t).pcs[t]? = some .sleepR := by
  obtain ⟨rd, wr, hold, wakeW, wakeR⟩ := reach_inv h
  have : s.numWr > 0 := by
    rcases hu with hu | hu <;> have := cnt_pos hu <;> omega
  unfold tryRead
  rw [if_pos (Or.inr this)]
  apply List.getElem?_set_self
  apply Classical.byContradiction; intro hn
  rw [List.getElem?_eq_none (by omega)] at ht; cases ht

end Verif.RwLock
