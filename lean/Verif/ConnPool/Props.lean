import Verif.ConnPool.Steps
/-! What the users of a connection pool rely on, however many threads there are and however their steps interleave. -/
namespace Verif.ConnPool
open Verif.Sql (CState)

/-! ### Specification -/

/-- The thread has a connection, or is making one. -/
def Occupies : T → Bool
  | .has _ => true
  | .connecting _ => true
  | .connected _ => true
  | _ => false

/-- The thread will look at the pool again without waiting for anybody else, or will release a connection. -/
def Stirs : T → Prop
  | .woken => True
  | .enter _ _ => True
  | .connecting _ => True
  | .connected _ => True
  | .has _ => True
  | _ => False

/-- The thread is past the point where it could wait behind others, and does not have a connection yet. -/
def Comes : T → Prop
  | .woken => True
  | .enter _ _ => True
  | .connecting _ => True
  | .connected _ => True
  | _ => False

/-! ### Helpers -/

theorem step_max {s s' : St} (h : Step s s') : s'.max = s.max := by
  have hb : ∀ (s : St) i w exp, (body s i w exp).max = s.max := by
    intro s i w exp; unfold body
    split
    · rfl
    · split
      · split <;> rfl
      · rfl
  cases h with
  | top i w f exp =>
    unfold Verif.ConnPool.top
    split
    · rfl
    · split
      · exact hb ..
      · rw [hb]
  | resume i exp => unfold Verif.ConnPool.resume; rw [hb]
  | release i c exp thr =>
    show (Verif.ConnPool.release s i c exp).max = s.max
    unfold Verif.ConnPool.release
    dsimp only
    split
    · rfl
    · split <;> rfl
  | _ => rfl

theorem reach_max {s0 s : St} (h : Reach s0 s) : s.max = s0.max := by
  induction h with
  | init => rfl
  | step _ st ih => rw [step_max st, ih]

theorem start {max k n : Nat} {s : St} (hm : 0 < max) (hk : k ≤ max) (h : Reach (init max k n) s) : Inv s s.thr := h.inv (init_inv hm hk)

theorem get_mem {l : List T} {i : Nat} {x : T} (h : l[i]? = some x) : x ∈ l := List.mem_of_getElem? h

theorem held_used {s : St} (h : Inv s s.thr) {i : Nat} {c : Conn} (hi : s.thr[i]? = some (.has c)) : c ∈ s.used :=
  h.held.mem_iff.2 (List.mem_filterMap.2 ⟨_, get_mem hi, rfl⟩)

/-- Two places with the same image under an injective partial map are the same place. -/
theorem same_place {β γ : Type} (f : T → Option β) (g : β → γ) : ∀ (l : List T), ((l.filterMap f).map g).Nodup →
    ∀ (i j : Nat) (x y : T) (b c : β), l[i]? = some x → l[j]? = some y → f x = some b → f y = some c → g b = g c → i = j := by
  intro l
  induction l with
  | nil => intro _ i j x y b c hi; simp at hi
  | cons a l ih =>
    intro hnd i j x y b c hi hj hx hy hg
    have htail : ((l.filterMap f).map g).Nodup := by
      rw [List.filterMap_cons] at hnd
      split at hnd
      · exact hnd
      · exact (List.nodup_cons.1 hnd).2
    have hin : ∀ {k : Nat} {z : T} {d : β}, l[k]? = some z → f z = some d → g d ∈ (l.filterMap f).map g :=
      fun hk hz => List.mem_map_of_mem (List.mem_filterMap.2 ⟨_, get_mem hk, hz⟩)
    match i, j with
    | 0, 0 => rfl
    | 0, j + 1 =>
      exfalso
      simp only [List.getElem?_cons_zero, Option.some.injEq] at hi
      simp only [List.getElem?_cons_succ] at hj
      subst hi
      rw [List.filterMap_cons, hx] at hnd
      have := (List.nodup_cons.1 hnd).1
      rw [hg] at this
      exact this (hin hj hy)
    | i + 1, 0 =>
      exfalso
      simp only [List.getElem?_cons_zero, Option.some.injEq] at hj
      simp only [List.getElem?_cons_succ] at hi
      subst hj
      rw [List.filterMap_cons, hy] at hnd
      have := (List.nodup_cons.1 hnd).1
      rw [← hg] at this
      exact this (hin hi hx)
    | i + 1, j + 1 =>
      simp only [List.getElem?_cons_succ] at hi hj
      rw [ih htail i j x y b c hi hj hx hy hg]

/-! ### Properties -/

/-- A pool never has more connections than it is allowed to, counting those that are idle, those in use and those being made. -/
theorem pool_max {max k n : Nat} {s : St} (hm : 0 < max) (hk : k ≤ max) (h : Reach (init max k n) s) :
    s.conns.length + s.thr.countP Occupies ≤ max := by
  have inv := start hm hk h
  have e : s.thr.countP Occupies ≤ (s.thr.filterMap pend).length + (s.thr.filterMap held).length := by
    generalize s.thr = l
    induction l with
    | nil => simp
    | cons a l ih =>
      cases a with
      | enter w f => cases f <;> simp [List.countP_cons, Occupies, List.filterMap_cons, pend, held] <;> omega
      | _ => simp [List.countP_cons, Occupies, List.filterMap_cons, pend, held] <;> omega
  have h1 := inv.bound
  have h2 := inv.new
  have h3 := inv.held.length_eq
  have h4 : s.max = max := reach_max h
  omega

/-- No two threads ever have the same connection; a connection that a thread has is not idle, so no other thread can get it, and
was not freed; and the numbers that the pool gave to two connections in use are different and below the size of the pool. -/
theorem pool_exclusive {max k n : Nat} {s : St} (hm : 0 < max) (hk : k ≤ max) (h : Reach (init max k n) s) {i : Nat} {c : Conn}
    (hi : s.thr[i]? = some (.has c)) :
    (∀ j d, s.thr[j]? = some (.has d) → d.uid = c.uid ∨ d.id = c.id → j = i) ∧ (∀ d ∈ s.conns, d.uid ≠ c.uid ∧ d.id ≠ c.id) ∧ c.uid ∉ s.dead ∧
      c.id < max := by
  have inv := start hm hk h
  have hc := held_used inv hi
  obtain ⟨n1, n2, n3⟩ := List.nodup_append.1 inv.nodup
  obtain ⟨n4, _, _⟩ := List.nodup_append.1 n2
  obtain ⟨u1, u2, u3⟩ := List.nodup_append.1 inv.uids
  obtain ⟨u4, _, u5⟩ := List.nodup_append.1 u2
  refine ⟨?_, ?_, ?_, ?_⟩
  · intro j d hj hd
    rcases hd with hd | hd
    · exact same_place held (·.uid) s.thr ((inv.held.map _).nodup u4) j i _ _ d c hj hi rfl rfl hd
    · exact same_place held (·.id) s.thr ((inv.held.map _).nodup n4) j i _ _ d c hj hi rfl rfl hd
  · intro d hd
    exact ⟨u3 _ (List.mem_map_of_mem hd) _ (List.mem_append_left _ (List.mem_map_of_mem hc)),
      n3 _ (List.mem_map_of_mem hd) _ (List.mem_append_left _ (List.mem_map_of_mem hc))⟩
  · intro hd
    exact u5 _ (List.mem_map_of_mem hc) _ (List.mem_append_right _ hd) rfl
  · have := (inv.up c.id (List.mem_append_right _ (List.mem_append_left _ (List.mem_map_of_mem hc)))).2
    rwa [reach_max h] at this

theorem body_gets {s : St} {i : Nat} {w exp : Bool} (hidle : ∀ c ∈ s.conns, s.state c.uid = .ok) {j : Nat} {c : Conn}
    (hb : (body s i w exp).thr[j]? = some (.has c)) (hno : s.thr[j]? ≠ some (.has c)) :
    (body s i w exp).state c.uid = .ok := by
  unfold body at hb ⊢
  have key : ∀ x, (s.thr.set i x)[j]? = some (.has c) → x = .has c := by
    intro x hx
    rw [List.getElem?_set] at hx
    split at hx
    · split at hx
      · exact Option.some.inj hx
      · exact absurd hx (by simp)
    · exact absurd hx hno
  split at hb
  · have := key _ hb; simp at this
  · rename_i hcond
    rw [if_neg hcond]
    split at hb
    · rename_i d rest hd
      split at hb
      · have := key _ hb; simp at this
      · rename_i hexp
        have := key _ hb
        simp only [T.has.injEq] at this
        subst this
        simp only [hd, if_neg hexp]
        exact hidle _ (by rw [hd]; exact List.mem_cons_self ..)
    · have := key _ hb; simp at this

/-- The connection that a thread gets has no error noted on it, whoever had it before. -/
theorem pool_healthy {max k n : Nat} {s s' : St} (hm : 0 < max) (hk : k ≤ max) (h : Reach (init max k n) s) (st : Step s s') {j : Nat} {c : Conn}
    (hb : s.thr[j]? ≠ some (.has c)) (ha : s'.thr[j]? = some (.has c)) : s'.state c.uid = .ok := by
  have inv := start hm hk h
  have key : ∀ i x, (s.thr.set i x)[j]? = some (.has c) → i = j ∧ x = .has c := by
    intro i x hx
    rw [List.getElem?_set] at hx
    split at hx
    · rename_i hij
      split at hx
      · exact ⟨hij, Option.some.inj hx⟩
      · exact absurd hx (by simp)
    · exact absurd hx hb
  cases st with
  | call i hi => have := (key _ _ ha).2; simp at this
  | wake i hi => have := (key _ _ ha).2; simp at this
  | connOk i id hi => have := (key _ _ ha).2; simp at this
  | connFail i id hi => have := (key _ _ ha).2; simp at this
  | mark i c st hi => exact absurd ha hb
  | stop h1 h2 h3 => exact absurd ha hb
  | top i w f exp hi =>
    unfold Verif.ConnPool.top at ha ⊢
    split at ha
    · have := (key _ _ ha).2; simp at this
    · rename_i h0
      rw [if_neg h0]
      cases f with
      | none => exact body_gets inv.idle ha hb
      | some id => exact body_gets (s := { s with newConns := s.newConns - 1, info := upd s.info id .failed }) inv.idle ha hb
  | resume i exp hi => exact body_gets (s := { s with waiters := s.waiters - 1 }) inv.idle ha hb
  | use i d hi =>
    have := (key _ _ ha).2
    simp only [T.has.injEq] at this
    subst this
    exact inv.made d (List.mem_filterMap.2 ⟨_, get_mem hi, rfl⟩)
  | release i d exp thr hi hsig =>
    exfalso
    have ht : (Verif.ConnPool.release s i d exp).thr = s.thr.set i .out := by
      unfold Verif.ConnPool.release; dsimp only; split
      · rfl
      · split <;> rfl
    rw [ht] at hsig
    have ha : thr[j]? = some (.has c) := ha
    rcases hsig with ⟨l, hl, rfl⟩ | ⟨_, rfl⟩
    · rw [List.getElem?_set] at ha
      split at ha
      · split at ha <;> simp at ha
      · have := (key _ _ ha).2; simp at this
    · have := (key _ _ ha).2; simp at this

/-- Once the pool has stopped no thread has a connection, makes one, or sleeps; and every connection that was ever made was freed. -/
theorem pool_stop {max k n : Nat} {s : St} (hm : 0 < max) (hk : k ≤ max) (h : Reach (init max k n) s) (h0 : s.started = false) :
    (∀ x ∈ s.thr, x = .out ∨ x = .refused ∨ ∃ w, x = .enter w none) ∧ s.conns = [] ∧
      ∀ u < s.fresh, u ∈ s.dead := by
  have inv := start hm hk h
  obtain ⟨h1, h2, h3, hc⟩ := inv.stopped h0
  have hp : s.thr.filterMap pend = [] := List.eq_nil_of_length_eq_zero (by rw [← inv.new, h2])
  have hh : s.thr.filterMap held = [] := List.eq_nil_of_length_eq_zero (by rw [← inv.held.length_eq, h1]; rfl)
  have hw : ∀ x ∈ s.thr, ¬ asleep x = true := by
    intro x hx ha
    have : 0 < s.thr.countP asleep := List.countP_pos_iff.2 ⟨x, hx, ha⟩
    have := inv.wait
    omega
  rw [List.filterMap_eq_nil_iff] at hp hh
  refine ⟨?_, hc, ?_⟩
  · intro x hx
    have a1 := hp x hx
    have a2 := hh x hx
    have a3 := hw x hx
    cases x with
    | out => exact .inl rfl
    | refused => exact .inr (.inl rfl)
    | enter w f =>
      cases f with
      | none => exact .inr (.inr ⟨w, rfl⟩)
      | some id => simp [pend] at a1
    | sleep => simp [asleep] at a3
    | woken => simp [asleep] at a3
    | connecting id => simp [pend] at a1
    | connected c => simp [pend] at a1
    | has c => simp [held] at a2
  · intro u hu
    have := (inv.fresh u).2 hu
    have hm' : s.thr.filterMap made = [] := by
      rw [List.filterMap_eq_nil_iff]
      intro x hx
      have := hp x hx
      cases x <;> simp_all [made, pend]
    simpa [live, hc, h1, hm'] using this

/-- At any time, each connection that was ever made is idle, or a thread has it, or it was freed; and none is freed twice. -/
theorem pool_no_leak {max k n : Nat} {s : St} (hm : 0 < max) (hk : k ≤ max) (h : Reach (init max k n) s) :
    (∀ u < s.fresh, (∃ c ∈ s.conns, c.uid = u) ∨ (∃ (i : Nat) (c : Conn), (s.thr[i]? = some (T.has c) ∨ s.thr[i]? = some (T.connected c)) ∧ c.uid = u) ∨ u ∈ s.dead) ∧
      s.dead.Nodup := by
  have inv := start hm hk h
  refine ⟨?_, ?_⟩
  · intro u hu
    have := (inv.fresh u).2 hu
    simp only [live, List.mem_append, List.mem_map] at this
    rcases this with ⟨c, hc, rfl⟩ | ⟨c, hc, rfl⟩ | ⟨c, hc, rfl⟩ | hd
    · exact .inl ⟨c, hc, rfl⟩
    · obtain ⟨x, hx, hx2⟩ := List.mem_filterMap.1 (inv.held.mem_iff.1 hc)
      obtain ⟨i, hi⟩ := List.getElem?_of_mem hx
      cases x with
      | has d =>
        simp only [held, Option.some.injEq] at hx2
        subst hx2
        exact .inr (.inl ⟨i, d, .inl hi, rfl⟩)
      | _ => simp [held] at hx2
    · obtain ⟨x, hx, hx2⟩ := List.mem_filterMap.1 hc
      obtain ⟨i, hi⟩ := List.getElem?_of_mem hx
      cases x with
      | connected d =>
        simp only [made, Option.some.injEq] at hx2
        subst hx2
        exact .inr (.inl ⟨i, d, .inr hi, rfl⟩)
      | _ => simp [made] at hx2
    · exact .inr (.inr hd)
  · obtain ⟨_, h2, _⟩ := List.nodup_append.1 inv.uids
    obtain ⟨_, h3, _⟩ := List.nodup_append.1 h2
    exact (List.nodup_append.1 h3).2.1

/-- While a thread sleeps, some other thread has a connection, or makes one, or was woken: so not all can sleep for ever.

Full statement: while a thread sleeps and the pool has an idle connection, another thread is on its way to it.  That does not hold, see
`pool_wakeup_fails`. -/
theorem pool_awake_partial {max k n : Nat} {s : St} (hm : 0 < max) (hk : k ≤ max) (h : Reach (init max k n) s) (hs : T.sleep ∈ s.thr) :
    ∃ x ∈ s.thr, Stirs x := by
  obtain ⟨x, hx, ha⟩ := (start hm hk h).busy hs
  exact ⟨x, hx, by cases x <;> simp_all [active, Stirs]⟩

/-- What `pool_wakeup_fails` refutes. -/
def Served (s : St) : Prop := T.sleep ∈ s.thr → s.conns ≠ [] → ∃ x ∈ s.thr, Comes x

/-- A thread can be left asleep beside an idle connection, with nobody on the way to it: two threads release at the same time, the second
signal finds nobody asleep, and a thread that comes in before the first one has run waits behind it. -/
theorem pool_wakeup_fails : ∃ s, Reach (init 2 2 4) s ∧ ¬ Served s := by
  have r1 := Reach.step .init (.call (s := init 2 2 4) 0 rfl)
  have r2 := Reach.step r1 (.top 0 false none false rfl)
  have r3 := Reach.step r2 (.call 1 rfl)
  have r4 := Reach.step r3 (.top 1 false none false rfl)
  have r5 := Reach.step r4 (.call 2 rfl)
  have r6 := Reach.step r5 (.top 2 false none false rfl)
  have r7 := Reach.step r6 (.release 0 ⟨0, 0⟩ false [.out, .has ⟨1, 1⟩, .woken, .out] rfl (.inl ⟨2, rfl, rfl⟩))
  have r8 := Reach.step r7 (.release 1 ⟨1, 1⟩ false [.out, .out, .woken, .out] rfl (.inr ⟨by decide, rfl⟩))
  have r9 := Reach.step r8 (.call 3 rfl)
  have r10 := Reach.step r9 (.top 3 false none false rfl)
  have r11 := Reach.step r10 (.resume 2 false rfl)
  refine ⟨_, r11, ?_⟩
  intro hs
  obtain ⟨x, hx, hc⟩ := hs (by decide) (by decide)
  have hx : x ∈ [T.out, .out, .has ⟨0, 0⟩, .sleep] := hx
  simp only [List.mem_cons, List.not_mem_nil, or_false] at hx
  rcases hx with rfl | rfl | rfl | rfl <;> exact hc

/-! ### The hypotheses can be met -/

/-- A pool of two connections, one of them made at the start, and two threads that have both; then the second stops with an error,
its connection is thrown away, and the pool stops. -/
example : ∃ s, Reach (init 2 1 2) s ∧ s.thr = [.has ⟨0, 0⟩, .has ⟨1, 1⟩] ∧ s.conns = [] := by
  have r1 := Reach.step .init (.call (s := init 2 1 2) 0 rfl)
  have r2 := Reach.step r1 (.top 0 false none false rfl)
  have r3 := Reach.step r2 (.call 1 rfl)
  have r4 := Reach.step r3 (.top 1 false none false rfl)
  have r5 := Reach.step r4 (.connOk 1 1 rfl)
  have r6 := Reach.step r5 (.use 1 ⟨1, 1⟩ rfl)
  exact ⟨_, r6, rfl, rfl⟩

example : ∃ s, Reach (init 2 1 2) s ∧ s.started = false ∧ s.dead = [0, 1] := by
  have r1 := Reach.step .init (.call (s := init 2 1 2) 0 rfl)
  have r2 := Reach.step r1 (.top 0 false none false rfl)
  have r3 := Reach.step r2 (.call 1 rfl)
  have r4 := Reach.step r3 (.top 1 false none false rfl)
  have r5 := Reach.step r4 (.connFail 1 1 rfl)
  have r6 := Reach.step r5 (.top 1 true (some 1) false rfl)
  have r7 := Reach.step r6 (.connOk 1 1 rfl)
  have r8 := Reach.step r7 (.use 1 ⟨1, 1⟩ rfl)
  have r9 := Reach.step r8 (.mark 1 ⟨1, 1⟩ .failed rfl)
  have r10 := Reach.step r9 (.release 1 ⟨1, 1⟩ false [.has ⟨0, 0⟩, .out] rfl (.inr ⟨by decide, rfl⟩))
  have r11 := Reach.step r10 (.release 0 ⟨0, 0⟩ false [.out, .out] rfl (.inr ⟨by decide, rfl⟩))
  have r12 := Reach.step r11 (.stop rfl rfl rfl)
  exact ⟨_, r12, rfl, rfl⟩

/-- A thread sleeps. -/
example : ∃ s, Reach (init 1 1 2) s ∧ s.thr = [.has ⟨0, 0⟩, .sleep] := by
  have r1 := Reach.step .init (.call (s := init 1 1 2) 0 rfl)
  have r2 := Reach.step r1 (.top 0 false none false rfl)
  have r3 := Reach.step r2 (.call 1 rfl)
  have r4 := Reach.step r3 (.top 1 false none false rfl)
  exact ⟨_, r4, rfl⟩

end Verif.ConnPool
