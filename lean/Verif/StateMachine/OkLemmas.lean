import Verif.StateMachine.Lemmas

/-!
# A run of a machine keeps to the rules that its children keep to
-/

namespace Verif.StateMachine
open Spec

variable {D C : Type} {o : Ops D C} {ok : C → Prop}

/-- The children in the contents of a state satisfy the invariant. -/
def OkKind (ok : C → Prop) : Kind D C → Prop
  | .sub c _ _ => ok c
  | .inter cs _ _ _ => ∀ c ∈ cs, ok c.1
  | _ => True

theorem okSt_iff {s : St D C} : OkSt ok s ↔ (∀ c, s.cleanup = some c → ok c) ∧ OkKind ok s.kind := by
  unfold OkSt OkKind
  cases s.kind <;> rfl

theorem ok_putKind {m : Mach D C} (h : ∀ s ∈ m.states, OkSt ok s) (id : Nat) {k : Kind D C}
    (hk : OkKind ok k) : ∀ s ∈ putSt m.states id (fun s => { s with kind := k }), OkSt ok s := by
  intro t ht
  obtain ⟨s, hs, ⟨_, rfl⟩ | ⟨_, rfl⟩⟩ := mem_putSt ht
  · exact h _ hs
  · exact okSt_iff.mpr ⟨(okSt_iff.mp (h s hs)).1, hk⟩

theorem cleanSubs_ok (hl : Lawful o ok) (cs : List (C × Status)) : ∀ {d : D} {cs' : List (C × Status)}
    {d' : D} {r : Option Status}, (∀ c ∈ cs, ok c.1) → cleanSubs o cs d = some (cs', d', r) →
    (∀ c ∈ cs', ok c.1) ∧ ∀ st, r = some st → Waits st := by
  induction cs with
  | nil =>
    intro d cs' d' r _ h
    simp only [cleanSubs, Option.some.injEq, Prod.mk.injEq] at h
    obtain ⟨rfl, rfl, rfl⟩ := h
    exact ⟨by simp, by simp⟩
  | cons a cs ih =>
    intro d cs' d' r hk h
    obtain ⟨c, s⟩ := a
    simp only [cleanSubs] at h
    split at h
    · split at h
      · cases h
      · next c1 d1 st1 hr =>
        have h1 := hl.run (hk (c, s) (by simp)) hr
        split at h
        · next hw =>
          simp only [Option.some.injEq, Prod.mk.injEq] at h
          obtain ⟨rfl, rfl, rfl⟩ := h
          refine ⟨?_, ?_⟩
          · intro x hx
            rcases List.mem_cons.mp hx with rfl | hx
            · exact h1.1
            · exact hk x (by simp [hx])
          · intro st hst
            cases hst
            exact waits_iff.mp hw
        · split at h
          · cases h
          · next cs2 d2 r2 hrec =>
            simp only [Option.some.injEq, Prod.mk.injEq] at h
            obtain ⟨rfl, rfl, rfl⟩ := h
            obtain ⟨g1, g2⟩ := ih (fun x hx => hk x (by simp [hx])) hrec
            refine ⟨?_, g2⟩
            intro x hx
            rcases List.mem_cons.mp hx with rfl | hx
            · exact h1.1
            · exact g1 x hx
    · split at h
      · cases h
      · next cs2 d2 r2 hrec =>
        simp only [Option.some.injEq, Prod.mk.injEq] at h
        obtain ⟨rfl, rfl, rfl⟩ := h
        obtain ⟨g1, g2⟩ := ih (fun x hx => hk x (by simp [hx])) hrec
        refine ⟨?_, g2⟩
        intro x hx
        rcases List.mem_cons.mp hx with rfl | hx
        · exact hk _ (by simp)
        · exact g1 x hx

theorem cleanCurrent_ok (hl : Lawful o ok) {id : Nat} {k k' : Kind D C} {d d' : D} {r : Option Status}
    {ev : List (Ev D)} (hk : OkKind ok k) (h : cleanCurrent o id k d = some (k', d', r, ev)) :
    OkKind ok k' ∧ kskel k' = kskel k ∧ ∀ st, r = some st → Waits st := by
  unfold cleanCurrent at h
  split at h
  · next c pre post =>
    split at h
    · split at h
      · cases h
      · next c1 d1 st1 hr =>
        simp only [Option.some.injEq, Prod.mk.injEq] at h
        obtain ⟨rfl, rfl, rfl, rfl⟩ := h
        refine ⟨(hl.run hk hr).1, rfl, ?_⟩
        intro st hst
        split at hst
        · next hw => cases hst; exact waits_iff.mp hw
        · cases hst
    · simp only [Option.some.injEq, Prod.mk.injEq] at h
      obtain ⟨rfl, rfl, rfl, rfl⟩ := h
      exact ⟨hk, rfl, by simp⟩
  · next cs pre post irun =>
    split at h
    · split at h
      · cases h
      · next cs' d1 st1 hr =>
        simp only [Option.some.injEq, Prod.mk.injEq] at h
        obtain ⟨rfl, rfl, rfl, rfl⟩ := h
        obtain ⟨g1, g2⟩ := cleanSubs_ok hl cs hk hr
        exact ⟨g1, rfl, g2⟩
      · next cs' d1 hr =>
        simp only [Option.some.injEq, Prod.mk.injEq] at h
        obtain ⟨rfl, rfl, rfl, rfl⟩ := h
        obtain ⟨g1, g2⟩ := cleanSubs_ok hl cs hk hr
        exact ⟨g1, rfl, by simp⟩
    · simp only [Option.some.injEq, Prod.mk.injEq] at h
      obtain ⟨rfl, rfl, rfl, rfl⟩ := h
      exact ⟨hk, rfl, by simp⟩
  · simp only [Option.some.injEq, Prod.mk.injEq] at h
    obtain ⟨rfl, rfl, rfl, rfl⟩ := h
    exact ⟨hk, rfl, by simp⟩

theorem interRound_ok (hl : Lawful o ok) (na : Bool) (cs : List (C × Status)) : ∀ {d : D} {st : Status}
    {a : Bool} {cs' : List (C × Status)} {r : D × Status × Bool}, (∀ c ∈ cs, ok c.1) →
    interRound o na cs d st a = some (cs', r) → ∀ c ∈ cs', ok c.1 := by
  induction cs with
  | nil =>
    intro d st a cs' r _ h
    simp only [interRound, Option.some.injEq, Prod.mk.injEq] at h
    obtain ⟨rfl, _⟩ := h
    simp
  | cons x cs ih =>
    intro d st a cs' r hk h
    obtain ⟨c, s⟩ := x
    simp only [interRound] at h
    split at h
    · split at h
      · cases h
      · next c1 d1 st1 hr =>
        have h1 := hl.run (hk (c, s) (by simp)) hr
        split at h
        · simp only [Option.some.injEq, Prod.mk.injEq] at h
          obtain ⟨rfl, _⟩ := h
          intro x hx
          rcases List.mem_cons.mp hx with rfl | hx
          · exact h1.1
          · exact hk x (by simp [hx])
        · split at h
          · cases h
          · next cs2 r2 hrec =>
            simp only [Option.some.injEq, Prod.mk.injEq] at h
            obtain ⟨rfl, _⟩ := h
            intro x hx
            rcases List.mem_cons.mp hx with rfl | hx
            · exact h1.1
            · exact ih (fun x hx => hk x (by simp [hx])) hrec x hx
    · split at h
      · cases h
      · next cs2 r2 hrec =>
        simp only [Option.some.injEq, Prod.mk.injEq] at h
        obtain ⟨rfl, _⟩ := h
        intro x hx
        rcases List.mem_cons.mp hx with rfl | hx
        · exact hk _ (by simp)
        · exact ih (fun x hx => hk x (by simp [hx])) hrec x hx

theorem runState_ok (hl : Lawful o ok) {m : Mach D C} {s : St D C} {d : D} {n : Nat} {r : Outcome D C}
    (hk : OkKind ok s.kind) (h : runState o m s d n = some r) :
    OkKind ok r.kind ∧ kskel r.kind = kskel s.kind := by
  unfold runState at h
  split at h
  · next f hf => cases h; exact ⟨hk, rfl⟩
  · next f hf => cases h; exact ⟨hk, rfl⟩
  · next c pre post hf =>
    rw [hf] at hk ⊢
    unfold runSub at h
    dsimp only at h
    split at h
    · split at h
      · cases h
      · next c1 d1 st1 hr =>
        have h1 := hl.run hk hr
        split at h <;> (cases h; exact ⟨h1.1, rfl⟩)
    · cases h; exact ⟨hk, rfl⟩
  · next cs pre post irun hf =>
    rw [hf] at hk ⊢
    unfold runInter at h
    dsimp only at h
    split at h
    · split at h
      · cases h
      · next cs1 d1 st1 ad hr =>
        have h1 := interRound_ok hl _ cs hk hr
        split at h
        · cases h
          refine ⟨?_, rfl⟩
          intro c hc
          obtain ⟨c0, hc0, rfl⟩ := List.mem_map.mp hc
          exact h1 c0 hc0
        · cases h; exact ⟨h1, rfl⟩
    · cases h; exact ⟨hk, rfl⟩

/-- What a pass of the main loop ensures. -/
def OkPass (ok : C → Prop) : Pass D C → Prop
  | .again m _ _ => (∀ s ∈ m.states, OkSt ok s) ∧ m.running = true ∧ (m.reason ≠ .none → Final m.ret)
  | .ret m _ st _ => (∀ s ∈ m.states, OkSt ok s) ∧
      ((Waits st ∧ m.running = true ∧ (m.reason ≠ .none → Final m.ret)) ∨
       (Final st ∧ m.running = false))

theorem finishCleanup_ok (hl : Lawful o ok) {m : Mach D C} {d : D} {ev : List (Ev D)} {p : Pass D C}
    (hk : ∀ s ∈ m.states, OkSt ok s) (hr : m.running = true) (hf : m.reason ≠ .none → Final m.ret)
    (hn : m.reason ≠ .none) (h : finishCleanup o m d ev = some p) : OkPass ok p := by
  unfold finishCleanup at h
  split at h
  · cases h
  · next m' d' st ev' hc =>
    rw [runCleanup, if_neg hn] at hc
    obtain ⟨f, g, w⟩ := cleanLoop_ok hl _ hk hc
    split at h
    · next hw =>
      cases h
      refine ⟨g, .inl ⟨waits_iff.mp hw, by rw [f.running, hr], ?_⟩⟩
      rw [f.reason, f.ret]; exact hf
    · cases h
      refine ⟨g, .inr ⟨?_, rfl⟩⟩
      rw [f.ret]; exact hf hn

theorem cleanPass_ok (hl : Lawful o ok) {m : Mach D C} {s : Option (St D C)} {d : D} {p : Pass D C}
    (hk : ∀ s ∈ m.states, OkSt ok s) (hr : m.running = true) (hf : m.reason ≠ .none → Final m.ret)
    (hn : m.reason ≠ .none) (hs : ∀ t, s = some t → t ∈ m.states)
    (h : cleanPass o m s d = some p) : OkPass ok p := by
  unfold cleanPass at h
  split at h
  · exact finishCleanup_ok hl hk hr hf hn h
  · next s0 =>
    split at h
    · cases h
    · next k d' r ev hc =>
      obtain ⟨g1, g2, g3⟩ := cleanCurrent_ok hl (okSt_iff.mp (hk s0 (hs s0 rfl))).2 hc
      have hk' := ok_putKind hk s0.id g1
      split at h
      · next st =>
        cases h
        exact ⟨hk', .inl ⟨g3 st rfl, hr, hf⟩⟩
      · exact finishCleanup_ok (m := { m with states := putSt m.states s0.id fun s => { s with kind := k } })
          hl hk' hr hf hn h

theorem okPass_again {m m' : Mach D C} {d : D} {ev : List (Ev D)} (hk : ∀ s ∈ m.states, OkSt ok s)
    (hr : m.running = true) (h1 : m'.states = m.states) (h2 : m'.running = m.running)
    (h3 : m'.reason ≠ .none → Final m'.ret) : OkPass ok (.again m' d ev) :=
  ⟨by rw [h1]; exact hk, by rw [h2, hr], h3⟩

theorem insertPrev_states (m : Mach D C) (id : Nat) : (insertPrev m id).states = m.states := by
  unfold insertPrev; split <;> rfl
theorem insertPrev_running (m : Mach D C) (id : Nat) : (insertPrev m id).running = m.running := by
  unfold insertPrev; split <;> rfl
theorem insertPrev_reason (m : Mach D C) (id : Nat) : (insertPrev m id).reason = m.reason := by
  unfold insertPrev; split <;> rfl

theorem goNext_ok {m : Mach D C} {s : St D C} {st : Status} {next : Nat} {d : D} {ev : List (Ev D)}
    (hk : ∀ s ∈ m.states, OkSt ok s) (hr : m.running = true) (hn : m.reason = .none) :
    OkPass ok (goNext m s st next d ev) := by
  unfold goNext
  dsimp only
  split
  · split
    · exact okPass_again hk hr rfl rfl fun _ => by simp [fail, Final]
    · split
      · exact okPass_again hk hr rfl rfl fun _ => by simp [Final]
      · exact ⟨hk, .inr ⟨by simp [Final], rfl⟩⟩
  · split
    · exact okPass_again hk hr rfl rfl fun _ => by simp [fail, Final]
    · split
      · exact okPass_again hk hr rfl rfl fun _ => by simp [fail, Final]
      · have e1 : (if st = Status.cont then { m with conts := next :: m.conts }
            else clearConts (insertPrev m m.cur)).states = m.states := by
          split
          · rfl
          · simp only [clearConts]; exact insertPrev_states m _
        have e2 : (if st = Status.cont then { m with conts := next :: m.conts }
            else clearConts (insertPrev m m.cur)).running = m.running := by
          split
          · rfl
          · simp only [clearConts]; exact insertPrev_running m _
        have e3 : (if st = Status.cont then { m with conts := next :: m.conts }
            else clearConts (insertPrev m m.cur)).reason = m.reason := by
          split
          · rfl
          · simp only [clearConts]; exact insertPrev_reason m _
        generalize (if st = Status.cont then { m with conts := next :: m.conts }
            else clearConts (insertPrev m m.cur)) = m1 at e1 e2 e3
        split
        · exact okPass_again hk hr (by simp [fail, e1]) (by simp [fail, e2]) fun _ => by
            simp [fail, Final]
        · split
          · exact ⟨by simpa [e1] using hk, .inl ⟨.inr rfl, by simp [e2, hr], by simp [e3, hn]⟩⟩
          · exact okPass_again hk hr (by simp [e1]) (by simp [e2]) fun h => absurd (by simp [e3, hn]) h

theorem advance_ok {m : Mach D C} {s : St D C} {st : Status} {next : Nat} {sp : Bool} {d : D}
    {ev : List (Ev D)} (hk : ∀ s ∈ m.states, OkSt ok s) (hr : m.running = true)
    (hn : m.reason = .none) : OkPass ok (advance m s st next sp d ev) := by
  have hW : OkPass ok (.ret (clearConts m) d .wait ev) :=
    ⟨hk, .inl ⟨.inl rfl, hr, fun h => absurd hn h⟩⟩
  have hP : OkPass ok (.ret (clearConts m) d .pause ev) :=
    ⟨hk, .inl ⟨.inr rfl, hr, fun h => absurd hn h⟩⟩
  have hE : ∀ st : Status, Final st → OkPass ok (.again (clearConts (fail m st)) d ev) := fun st hf =>
    okPass_again hk hr rfl rfl fun _ => hf
  unfold advance
  split
  · exact goNext_ok hk hr hn
  · exact goNext_ok hk hr hn
  · split
    · exact hP
    · exact goNext_ok hk hr hn
  · unfold goPrev
    split
    · exact okPass_again hk hr rfl rfl fun _ => by simp [fail, Final]
    · split
      · exact okPass_again hk hr rfl rfl fun _ => by simp [fail, Final]
      · exact okPass_again hk hr rfl rfl fun h => absurd hn h
  · exact hW
  · split
    · exact okPass_again hk hr rfl rfl fun _ => by simp [clearConts, Final]
    · exact ⟨hk, .inr ⟨by simp [Final], rfl⟩⟩
  · next h1 h2 h3 h4 h5 h6 =>
    exact hE st ⟨h5, h3, h1, h4, h2⟩

theorem pass_ok (hl : Lawful o ok) {m : Mach D C} {d : D} {p : Pass D C}
    (hk : ∀ s ∈ m.states, OkSt ok s) (hr : m.running = true) (hf : m.reason ≠ .none → Final m.ret)
    (h : pass o m d = some p) : OkPass ok p := by
  unfold pass at h
  split at h
  · exact cleanPass_ok (m := fail m .errBadId) hl hk hr (fun _ => by simp [fail, Final])
      (by simp [fail]) (by simp) h
  · next s hs =>
    split at h
    · next hn => exact cleanPass_ok hl hk hr hf hn (by rintro t ⟨⟩; exact (findSt_some hs).1) h
    · next hn =>
      have hn' : m.reason = .none := Classical.not_not.mp hn
      dsimp only at h
      split at h
      · cases h
      · next r hrs =>
        cases h
        have h1 := (runState_ok hl (okSt_iff.mp (hk s (findSt_some hs).1)).2 hrs).1
        exact advance_ok (m := { m with
          states := putSt m.states m.cur fun s => { s with kind := r.kind }
          cleanupIds := if r.reg then m.cur :: m.cleanupIds else m.cleanupIds })
          (ok_putKind hk m.cur h1) hr hn'

theorem loop_ok (hl : Lawful o ok) (n : Nat) : ∀ {m : Mach D C} {d : D} {m' : Mach D C} {d' : D}
    {st : Status} {ev : List (Ev D)}, (∀ s ∈ m.states, OkSt ok s) → m.running = true →
    (m.reason ≠ .none → Final m.ret) → loop o n m d = some (m', d', st, ev) →
    OkPass ok (.ret m' d' st ev) := by
  induction n with
  | zero => intro m d m' d' st ev _ _ _ h; cases h
  | succ n ih =>
    intro m d m' d' st ev hk hr hf h
    simp only [loop] at h
    split at h
    · cases h
    · next m1 d1 st1 ev1 hp =>
      simp only [Option.some.injEq, Prod.mk.injEq] at h
      obtain ⟨rfl, rfl, rfl, rfl⟩ := h
      exact pass_ok hl hk hr hf hp
    · next m1 d1 ev1 hp =>
      obtain ⟨g1, g2, g3⟩ := pass_ok hl hk hr hf hp
      split at h
      · cases h
      · next m2 d2 st2 ev2 hrec =>
        simp only [Option.some.injEq, Prod.mk.injEq] at h
        obtain ⟨rfl, rfl, rfl, rfl⟩ := h
        have := ih g1 g2 g3 hrec
        exact this

theorem start_ok {m : Mach D C} (h : OkM ok m) : (∀ s ∈ (start m).states, OkSt ok s) ∧
    (start m).running = true ∧ ((start m).reason ≠ .none → Final (start m).ret) := by
  unfold start
  split
  · next hr => exact ⟨h.2, hr, h.1 hr⟩
  · exact ⟨h.2, rfl, fun h => absurd rfl h⟩

theorem run_ok (hl : Lawful o ok) {fuel : Nat} {m m' : Mach D C} {d d' : D} {st : Status}
    {ev : List (Ev D)} (h : OkM ok m) (hr : run o fuel m d = some (m', d', st, ev)) :
    OkM ok m' ∧ ((Waits st ∧ m'.running = true) ∨ (Final st ∧ m'.running = false)) := by
  unfold run at hr
  split at hr
  · simp only [Option.some.injEq, Prod.mk.injEq] at hr
    obtain ⟨rfl, rfl, rfl, rfl⟩ := hr
    exact ⟨⟨fun h => by simp at h, h.2⟩, .inr ⟨by simp [Final], rfl⟩⟩
  · obtain ⟨a, b, c⟩ := start_ok h
    obtain ⟨g1, g2⟩ := loop_ok hl fuel a b c hr
    rcases g2 with ⟨w, r, f⟩ | ⟨f, r⟩
    · exact ⟨⟨fun _ => f, g1⟩, .inl ⟨w, r⟩⟩
    · exact ⟨⟨fun h => absurd (r.symm.trans h) (by decide), g1⟩, .inr ⟨f, r⟩⟩

theorem ok_resetCurrent (hl : Lawful o ok) (r : Reason) {m : Mach D C} {s : St D C} (hs : s ∈ m.states)
    (h : ∀ s ∈ m.states, OkSt ok s) : ∀ t ∈ (resetCurrent o r m s).states, OkSt ok t := by
  have hmap : ∀ {t : St D C}, OkSt ok t → ∀ c, (t.cleanup.map (o.reset · r)) = some c → ok c := by
    intro t ht c hc
    obtain ⟨c0, hc0, rfl⟩ := Option.map_eq_some_iff.mp hc
    exact (hl.reset r (ht.1 c0 hc0)).1
  have hlast : ∀ t ∈ (match m.cleanupIds with
      | [] => m
      | id :: _ => { m with states := putSt m.states id fun t => { t with
                       cleanup := t.cleanup.map (o.reset · r) } } : Mach D C).states, OkSt ok t := by
    split
    · exact h
    · intro t ht
      obtain ⟨u, hu, ⟨_, rfl⟩ | ⟨_, rfl⟩⟩ := mem_putSt ht
      · exact h _ hu
      · exact okSt_iff.mpr ⟨hmap (h u hu), (okSt_iff.mp (h u hu)).2⟩
  have hks := (okSt_iff.mp (h s hs)).2
  unfold resetCurrent
  dsimp only
  split
  · next c pre post hk =>
    rw [hk] at hks
    split
    · exact ok_putKind h s.id (k := .sub (o.reset c r) pre post) (hl.reset r hks).1
    · exact hlast
  · next cs pre post irun hk =>
    rw [hk] at hks
    intro t ht
    obtain ⟨u, hu, ⟨_, rfl⟩ | ⟨_, rfl⟩⟩ := mem_putSt ht
    · exact h _ hu
    · refine okSt_iff.mpr ⟨hmap (h u hu), ?_⟩
      intro c hc
      obtain ⟨c0, hc0, rfl⟩ := List.mem_map.mp hc
      exact (hl.reset r (hks c0 hc0)).1
  · exact hlast

theorem resetCurrent_frame (r : Reason) (m : Mach D C) (s : St D C) :
    (resetCurrent o r m s).running = m.running := by
  unfold resetCurrent
  dsimp only
  split
  · split
    · rfl
    · split <;> rfl
  · rfl
  · split <;> rfl

theorem reset_ok (hl : Lawful o ok) (r : Reason) {m : Mach D C} (h : OkM ok m) :
    OkM ok (reset o m r) ∧ (r ≠ .none → (reset o m r).running = m.running) := by
  unfold reset
  split
  · exact ⟨h, fun _ => rfl⟩
  · split
    · exact ⟨h, fun _ => rfl⟩
    · next s hs =>
      have hk := ok_resetCurrent hl r (findSt_some hs).1 h.2
      dsimp only
      by_cases hr : r = .none
      · rw [if_pos hr]
        exact ⟨⟨fun h => by simp at h, hk⟩, fun h => absurd hr h⟩
      · rw [if_neg hr]
        exact ⟨⟨fun _ _ => by simp [Final], hk⟩, fun _ => resetCurrent_frame r m s⟩

/-- Machines of every depth keep to the rules. -/
theorem tree_lawful (D : Type) (fuel : Nat) : ∀ n : Nat, Lawful (treeOps D fuel n) (OkTree D n)
  | 0 => ⟨fun {c} => Empty.elim c, fun {c} => Empty.elim c, fun {c} => Empty.elim c⟩
  | n + 1 => by
    refine ⟨?_, ?_, ?_⟩
    · intro c d c' d' st hk h
      simp only [treeOps] at h
      split at h
      · cases h
      · next m' d1 st1 ev hr =>
        simp only [Option.some.injEq, Prod.mk.injEq] at h
        obtain ⟨rfl, rfl, rfl⟩ := h
        exact run_ok (tree_lawful D fuel n) hk hr
    · intro c r hk
      exact ⟨hk, rfl⟩
    · intro c r hk
      exact reset_ok (tree_lawful D fuel n) r hk

end Verif.StateMachine
