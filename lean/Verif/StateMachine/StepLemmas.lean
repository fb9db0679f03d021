import Verif.StateMachine.WorkLemmas

/-!
# One pass over a machine at work
-/

namespace Verif.StateMachine
open Spec

variable {D C : Type} {o : Ops D C} {ok : C → Prop}

/-- A machine at work with the given history. -/
structure WorkInv (o : Ops D C) (ok : C → Prop) (fl : Flags) (reason : Reason) (ss : List (Skel D))
    (m : Mach D C) (past : List (Ev D)) : Prop where
  flags : m.flags = fl
  preason : m.preason = reason
  skels : m.states.map skel = ss
  nodup : (m.states.map (·.id)).Nodup
  nz : ∀ s ∈ m.states, s.id ≠ 0
  running : m.running = true
  noReason : m.reason = .none
  seen : m.seen = []
  prev : m.prevIds = goodStack fl.singlePrev past
  conts : m.conts = contsSince past
  ids : m.cleanupIds = dueRaw past
  act : ∀ s ∈ m.states, active o s.kind = (decide (s.id = m.cur) && busy past)
  good : ∀ x ∈ goodStack fl.singlePrev past, ∃ t ∈ ss, t.id = x
  nonzero : ∀ x ∈ dueRaw past, x ≠ 0
  okk : ∀ s ∈ m.states, OkSt ok s
  plain : ∀ e ∈ past, Plain ss e
  at' : At fl reason ss past m.cur

/-- A machine that has just visited `s` with the event `e`. -/
structure MidInv (o : Ops D C) (ok : C → Prop) (fl : Flags) (reason : Reason) (ss : List (Skel D))
    (m : Mach D C) (past : List (Ev D)) (s : St D C) (dflt : Nat) (sub : Sub) (st : Status) (next : Nat)
    (d d' : D) : Prop where
  flags : m.flags = fl
  preason : m.preason = reason
  skels : m.states.map skel = ss
  nodup : (m.states.map (·.id)).Nodup
  nz : ∀ s ∈ m.states, s.id ≠ 0
  running : m.running = true
  noReason : m.reason = .none
  seen : m.seen = []
  prev : m.prevIds = goodStack fl.singlePrev past
  conts : m.conts = contsSince past
  ids : m.cleanupIds = dueRaw (.visit s.id dflt sub st next d d' :: past)
  act : ∀ s ∈ m.states, active o s.kind = (decide (s.id = m.cur) && busyOf sub)
  good : ∀ x ∈ goodStack fl.singlePrev past, ∃ t ∈ ss, t.id = x
  nonzero : ∀ x ∈ dueRaw (.visit s.id dflt sub st next d d' :: past), x ≠ 0
  okk : ∀ s ∈ m.states, OkSt ok s
  plain : ∀ e ∈ (.visit s.id dflt sub st next d d' :: past : List (Ev D)), Plain ss e
  works : Works fl reason ss (skel s) (.visit s.id dflt sub st next d d' :: past)
  cur : m.cur = s.id
  bwait : sub = .ran .wait → st = .wait
  bpause : sub = .ran .pause → st = .pause

variable {fl : Flags} {reason : Reason} {ss : List (Skel D)} {m : Mach D C} {past : List (Ev D)}
  {s : St D C} {dflt : Nat} {sub : Sub} {st : Status} {next : Nat} {d d' : D}

theorem mem_ids {m : Mach D C} {ss : List (Skel D)} (h : m.states.map skel = ss) (id : Nat) :
    findSt m.states id = none ↔ ∀ t ∈ ss, t.id ≠ id := by
  rw [← h]
  constructor
  · intro hn t ht
    obtain ⟨s, hs, rfl⟩ := List.mem_map.mp ht
    exact findSt_none hn s hs
  · intro hn
    refine List.find?_eq_none.mpr fun s hs => ?_
    have := hn _ (List.mem_map.mpr ⟨s, hs, rfl⟩)
    simpa [skel] using this

theorem MidInv.found (hi : MidInv o ok fl reason ss m past s dflt sub st next d d') :
    findSt m.states m.cur ≠ none := by
  intro h
  exact (mem_ids hi.skels _).mp h _ (works_mem hi.works) hi.cur.symm

theorem MidInv.idle (hi : MidInv o ok fl reason ss m past s dflt sub st next d d')
    (hb : busyOf sub = false) : ∀ s ∈ m.states, active o s.kind = false := by
  intro t ht
  rw [hi.act t ht, hb, Bool.and_false]

theorem mid_clean (hi : MidInv o ok fl reason ss m past s dflt sub st next d d')
    (hb : busyOf sub = false) {m2 : Mach D C} {st0 : Status} (hf : Final st0)
    (hd : ¬ (st0 = .done ∧ fl.doneCleanup = false)) (h1 : m2.flags = m.flags)
    (h2 : m2.preason = m.preason)
    (h3 : m2.states = m.states) (h4 : m2.running = m.running) (h5 : m2.seen = m.seen)
    (h6 : m2.cleanupIds = m.cleanupIds) (h7 : m2.cur = m.cur) (h8 : m2.reason ≠ .none)
    (h9 : m2.ret = st0) :
    CleanInv o ok fl reason ss m2 st0
      (toClean fl ss st0 (.visit s.id dflt sub st next d d' :: past)) where
  flags := h1.trans hi.flags
  preason := h2.trans hi.preason
  skels := by rw [h3]; exact hi.skels
  nodup := by rw [h3]; exact hi.nodup
  running := h4.trans hi.running
  ret1 := fun h => absurd (by rw [h3, h7] at h; exact h) hi.found
  ret2 := fun _ => ⟨h9, h8⟩
  fin := hf
  todo := by rw [h5, h6, hi.seen, hi.ids, todo_due hi.plain hd]
  nonzero := by rw [h6, hi.ids]; exact hi.nonzero
  okk := by rw [h3]; exact hi.okk
  idle := by rw [h3]; exact hi.idle hb

/-- What a pass over a machine at work results in. -/
def StepOut (o : Ops D C) (ok : C → Prop) (fl : Flags) (reason : Reason) (ss : List (Skel D))
    (past : List (Ev D)) (s : Skel D) (e : Ev D) (d : D) : Pass D C → Prop
  | .again m' d' ev => ev = [e] ∧ d' = d ∧ (WorkInv o ok fl reason ss m' (e :: past) ∨
      ∃ st0 stq, afterEv fl ss past s e = .finish st0 ∧ Reported st0 stq ∧
        ¬ (st0 = .done ∧ fl.doneCleanup = false) ∧
        CleanInv o ok fl reason ss m' stq (toClean fl ss st0 (e :: past)))
  | .ret m' d' st' ev => ev = [e] ∧ d' = d ∧
      ((Waits st' ∧ WorkInv o ok fl reason ss m' (e :: past) ∧ LastStatus [e] st' ∧
        (afterEv fl ss past s e = .stay ∨ (st' = .pause ∧ ∃ id, afterEv fl ss past s e = .goto id))) ∨
       (afterEv fl ss past s e = .finish .done ∧ st' = .done ∧ fl.doneCleanup = false ∧
        Over o ok fl reason ss m'))

theorem mid_work (hi : MidInv o ok fl reason ss m past s dflt sub st next d d') {m2 : Mach D C}
    (h1 : m2.flags = m.flags) (h2 : m2.preason = m.preason)
    (h3 : m2.states = m.states) (h4 : m2.running = m.running) (h5 : m2.seen = m.seen)
    (h6 : m2.cleanupIds = m.cleanupIds) (h7 : m2.reason = m.reason)
    (h8 : m2.prevIds = goodStack fl.singlePrev (.visit s.id dflt sub st next d d' :: past))
    (h9 : m2.conts = contsSince (.visit s.id dflt sub st next d d' :: past))
    (h10 : busyOf sub = false ∨ m2.cur = m.cur)
    (hat : At fl reason ss (.visit s.id dflt sub st next d d' :: past) m2.cur) :
    WorkInv o ok fl reason ss m2 (.visit s.id dflt sub st next d d' :: past) where
  flags := h1.trans hi.flags
  preason := h2.trans hi.preason
  skels := by rw [h3]; exact hi.skels
  nodup := by rw [h3]; exact hi.nodup
  nz := by rw [h3]; exact hi.nz
  running := h4.trans hi.running
  noReason := h7.trans hi.noReason
  seen := h5.trans hi.seen
  prev := h8
  conts := h9
  ids := h6.trans hi.ids
  act := by
    rw [h3]
    intro t ht
    rw [busy_visit, hi.act t ht]
    rcases h10 with h | h
    · rw [h, Bool.and_false, Bool.and_false]
    · rw [h]
  good := by
    intro x hx
    unfold goodStack at hx
    have hs : ∃ t ∈ ss, t.id = s.id := ⟨skel s, works_mem hi.works, rfl⟩
    split at hx
    · split at hx
      · simp only [List.mem_singleton] at hx
        subst hx; exact hs
      · rcases List.mem_cons.mp hx with rfl | hx
        · exact hs
        · exact hi.good x hx
    · split at hx
      · exact hi.good x (List.mem_of_mem_tail hx)
      · exact hi.good x hx
  nonzero := hi.nonzero
  okk := by rw [h3]; exact hi.okk
  plain := hi.plain
  at' := hat

theorem insertPrev_eq {m : Mach D C} {single : Bool} {past : List (Ev D)} (hf : m.flags.singlePrev = single)
    (hp : m.prevIds = goodStack single past) (id : Nat) :
    insertPrev m id =
      { m with prevIds := if single then [id] else id :: goodStack single past } := by
  unfold insertPrev
  rw [hf]
  cases single with
  | false => simp [hp]
  | true =>
    have := goodStack_single past
    rw [← hp] at this
    cases hq : m.prevIds with
    | nil => simp
    | cons a as =>
      rw [hq] at this
      have : as = [] := by
        cases as with
        | nil => rfl
        | cons _ _ => simp at this
      subst this
      simp

theorem any_nextIds {s : St D C} {next : Nat} :
    s.nextIds.any (fun l => !l.contains next) = true ↔ ∃ l, (skel s).nextIds = some l ∧ next ∉ l := by
  cases h : s.nextIds with
  | none => simp [skel, h]
  | some l => simp [skel, h]

theorem goNext_step (hi : MidInv o ok fl reason ss m past s dflt sub st next d d')
    (hst : st = .next ∨ st = .cont ∨ (st = .pause ∧ sub ≠ .ran .pause)) :
    StepOut o ok fl reason ss past (skel s) (.visit s.id dflt sub st next d d') d'
      (goNext m s st next d' [.visit s.id dflt sub st next d d']) := by
  have hb : busyOf sub = false := by
    cases hsub : sub with
    | ran cst =>
      cases cst with
      | wait => have := hi.bwait hsub; rcases hst with h | h | ⟨h, _⟩ <;> rw [h] at this <;> cases this
      | pause =>
        have := hi.bpause hsub
        rcases hst with h | h | ⟨h, h'⟩
        · rw [h] at this; cases this
        · rw [h] at this; cases this
        · exact absurd hsub h'
      | _ => rfl
    | _ => rfl
  have hmove : afterEv fl ss past (skel s) (.visit s.id dflt sub st next d d') =
      move fl ss past (skel s) st next := by
    rcases hst with h | h | ⟨h, h'⟩
    · subst h; rfl
    · subst h; rfl
    · subst h; simp only [afterEv, after, if_neg h']
  have hclean : ∀ (m2 : Mach D C) (st0 : Status), move fl ss past (skel s) st next = .finish st0 →
      Final st0 → ¬ (st0 = .done ∧ fl.doneCleanup = false) → m2.flags = m.flags →
      m2.preason = m.preason → m2.states = m.states → m2.running = m.running → m2.seen = m.seen →
      m2.cleanupIds = m.cleanupIds → m2.cur = m.cur → m2.reason ≠ .none → m2.ret = st0 →
      StepOut o ok fl reason ss past (skel s) (.visit s.id dflt sub st next d d') d'
        (.again m2 d' [.visit s.id dflt sub st next d d']) :=
    fun m2 st0 hm hf hd h1 h2 h3 h4 h5 h6 h7 h8 h9 =>
      ⟨rfl, rfl, .inr ⟨st0, st0, hmove.trans hm, .inl rfl, hd, mid_clean hi hb hf hd h1 h2 h3 h4 h5 h6 h7 h8 h9⟩⟩
  obtain rfl := hi.flags
  unfold goNext
  dsimp only
  by_cases h0 : next = 0
  · rw [if_pos h0]
    by_cases hlin : m.flags.explicitNext = false ∧ m.flags.linearEnd = true
    · have hm : move m.flags ss past (skel s) st next = .finish .done := by
        simp only [move, if_pos h0, if_pos hlin]
      rw [if_neg (by simp [hlin.1, hlin.2])]
      by_cases hdc : m.flags.doneCleanup = true
      · rw [if_pos hdc]
        exact hclean _ .done hm (by simp [Final]) (by simp [hdc]) rfl rfl rfl rfl rfl rfl rfl
          (by simp) rfl
      · rw [if_neg hdc]
        have hdc' : m.flags.doneCleanup = false := by simpa using hdc
        refine ⟨rfl, rfl, .inr ⟨hmove.trans hm, rfl, hdc', ?_⟩⟩
        exact
          { flags := hi.flags
            preason := hi.preason
            skels := hi.skels
            running := rfl
            okk := hi.okk
            idle := hi.idle hb }
    · rw [if_pos (by
        rw [Bool.or_eq_true, Bool.not_eq_true']
        cases h1 : m.flags.explicitNext with
        | true => exact .inl rfl
        | false =>
          cases h2 : m.flags.linearEnd with
          | false => exact .inr rfl
          | true => exact absurd ⟨h1, h2⟩ hlin)]
      exact hclean _ .errNoNext (by simp only [move, if_pos h0, if_neg hlin]) (by simp [Final])
        (by simp) rfl rfl rfl rfl rfl rfl rfl (by simp [fail]) rfl
  · rw [if_neg h0]
    by_cases h1 : ∃ l, (skel s).nextIds = some l ∧ next ∉ l
    · rw [if_pos (any_nextIds.mpr h1)]
      exact hclean _ .errBadNext (by simp only [move, if_neg h0, if_pos h1]) (by simp [Final])
        (by simp) rfl rfl rfl rfl rfl rfl rfl (by simp [fail]) rfl
    · rw [if_neg (fun h => h1 (any_nextIds.mp h))]
      by_cases h2 : st = .cont ∧ m.flags.contLoop = false ∧ next ∈ contsSince past
      · rw [if_pos (by rw [hi.conts]; simpa [Bool.and_eq_true, and_assoc] using h2)]
        exact hclean _ .errInfCont (by simp only [move, if_neg h0, if_neg h1, if_pos h2])
          (by simp [Final]) (by simp) rfl rfl rfl rfl rfl rfl rfl (by simp [fail]) rfl
      · rw [if_neg (by rw [hi.conts]; simpa [Bool.and_eq_true, and_assoc] using h2)]
        -- the machine with the transition recorded
        have hrec : ∃ m1 : Mach D C, (if st = Status.cont then { m with conts := next :: m.conts }
              else clearConts (insertPrev m m.cur)) = m1 ∧
            m1.flags = m.flags ∧ m1.preason = m.preason ∧ m1.states = m.states ∧
            m1.running = m.running ∧ m1.seen = m.seen ∧ m1.cleanupIds = m.cleanupIds ∧
            m1.reason = m.reason ∧ m1.cur = m.cur ∧
            m1.prevIds = goodStack m.flags.singlePrev (.visit s.id dflt sub st next d d' :: past) ∧
            m1.conts = contsSince (.visit s.id dflt sub st next d d' :: past) := by
          refine ⟨_, rfl, ?_⟩
          rcases hst with h | h | ⟨h, h'⟩
          · subst h
            rw [if_neg (by simp), insertPrev_eq rfl hi.prev]
            refine ⟨rfl, rfl, rfl, rfl, rfl, rfl, rfl, rfl, ?_, rfl⟩
            simp only [clearConts, goodStack, hi.cur, true_or, if_true]
          · subst h
            rw [if_pos rfl]
            refine ⟨rfl, rfl, rfl, rfl, rfl, rfl, rfl, rfl, ?_, ?_⟩
            · simp [goodStack, hi.prev]
            · simp [contsSince, hi.conts]
          · subst h
            rw [if_neg (by simp), insertPrev_eq rfl hi.prev]
            refine ⟨rfl, rfl, rfl, rfl, rfl, rfl, rfl, rfl, ?_, rfl⟩
            simp [clearConts, goodStack, hi.cur, h']
        obtain ⟨m1, e1, g1, g2, g3, g4, g5, g6, g7, g8, g9, g10⟩ := hrec
        rw [e1]
        by_cases h3 : m.flags.selfCall = false ∧ next = (skel s).id
        · rw [if_pos (by
            rw [Bool.and_eq_true, Bool.not_eq_true', decide_eq_true_eq]
            exact ⟨h3.1, by rw [hi.cur]; exact h3.2.symm⟩)]
          exact hclean _ .errSelfNext (by simp only [move, if_neg h0, if_neg h1, if_neg h2, if_pos h3])
            (by simp [Final]) (by simp) g1 g2 g3 g4 g5 g6 g8 (by simp [fail]) rfl
        · rw [if_neg (by
            rw [Bool.and_eq_true, Bool.not_eq_true', decide_eq_true_eq]
            rintro ⟨ha, hb'⟩
            exact h3 ⟨ha, by rw [← hb']; exact hi.cur⟩)]
          by_cases h4 : ∃ t ∈ ss, t.id = next
          · have hm : move m.flags ss past (skel s) st next = .goto next := by
              simp only [move, if_neg h0, if_neg h1, if_neg h2, if_neg h3, if_pos h4]
            have hw : WorkInv o ok m.flags reason ss { m1 with cur := next }
                (.visit s.id dflt sub st next d d' :: past) :=
              mid_work hi g1 g2 g3 g4 g5 g6 g7 g9 g10 (.inl hb) (.goto hi.works (hmove.trans hm) h4)
            by_cases hp : st = .pause
            · rw [if_pos hp]
              refine ⟨rfl, rfl, .inl ⟨.inr rfl, hw, ?_, .inr ⟨rfl, next, hmove.trans hm⟩⟩⟩
              subst hp
              exact .inl ⟨[], s.id, dflt, sub, next, d, d', rfl⟩
            · rw [if_neg hp]
              exact ⟨rfl, rfl, .inl hw⟩
          · have hm : move m.flags ss past (skel s) st next = .finish .errBadId := by
              simp only [move, if_neg h0, if_neg h1, if_neg h2, if_neg h3, if_neg h4]
            have hw : WorkInv o ok m.flags reason ss { m1 with cur := next }
                (.visit s.id dflt sub st next d d' :: past) :=
              mid_work hi g1 g2 g3 g4 g5 g6 g7 g9 g10 (.inl hb) (.bad hi.works (hmove.trans hm)
                fun t ht he => h4 ⟨t, ht, he⟩)
            by_cases hp : st = .pause
            · exfalso
              have := (hi.plain _ (List.mem_cons_self ..)).2.2 hp
              rcases this with h | h | h
              · rcases hst with h' | h' | ⟨_, h'⟩
                · rw [hp] at h'; cases h'
                · rw [hp] at h'; cases h'
                · exact h' h
              · exact h0 h
              · exact h4 h
            · rw [if_neg hp]
              exact ⟨rfl, rfl, .inl hw⟩

theorem advance_step (hi : MidInv o ok fl reason ss m past s dflt sub st next d d') {sp : Bool}
    (hsp1 : sub = .ran .pause → sp = true)
    (hsp2 : sp = true → st = .pause ∧ (sub = .ran .pause ∨ sub = .skipped)) :
    StepOut o ok fl reason ss past (skel s) (.visit s.id dflt sub st next d d') d'
      (advance m s st next sp d' [.visit s.id dflt sub st next d d']) := by
  have hstay : ∀ st0, st = st0 → Waits st0 → goodStack fl.singlePrev
        (.visit s.id dflt sub st next d d' :: past) = goodStack fl.singlePrev past →
      contsSince (.visit s.id dflt sub st next d d' :: past) = [] →
      afterEv fl ss past (skel s) (.visit s.id dflt sub st next d d') = .stay →
      StepOut o ok fl reason ss past (skel s) (.visit s.id dflt sub st next d d') d'
        (.ret (clearConts m) d' st0 [.visit s.id dflt sub st next d d']) := by
    intro st0 h hw hg hc ha
    refine ⟨rfl, rfl, .inl ⟨hw, ?_, ?_, .inl ha⟩⟩
    · refine mid_work hi rfl rfl rfl rfl rfl rfl rfl ?_ ?_ (.inr rfl) ?_
      · rw [hg]; exact hi.prev
      · rw [hc]; rfl
      · show At _ _ _ _ m.cur
        rw [hi.cur]
        exact .stay (s := skel s) hi.works ha
    · subst h
      exact .inl ⟨[], s.id, dflt, sub, next, d, d', rfl⟩
  have hbf : st ≠ .wait → st ≠ .pause → busyOf sub = false := by
    intro h1 h2
    cases hsub : sub with
    | ran cst =>
      cases cst with
      | wait => exact absurd (hi.bwait hsub) h1
      | pause => exact absurd (hi.bpause hsub) h2
      | _ => rfl
    | _ => rfl
  have herr : Final st → ¬ (st = .done ∧ fl.doneCleanup = false) → ∀ m2 : Mach D C,
      m2.flags = m.flags → m2.preason = m.preason → m2.states = m.states → m2.running = m.running →
      m2.seen = m.seen → m2.cleanupIds = m.cleanupIds → m2.cur = m.cur → m2.reason ≠ .none →
      m2.ret = st → StepOut o ok fl reason ss past (skel s) (.visit s.id dflt sub st next d d') d'
        (.again m2 d' [.visit s.id dflt sub st next d d']) := by
    intro hf hd m2 h1 h2 h3 h4 h5 h6 h7 h8 h9
    refine ⟨rfl, rfl, .inr ⟨st, st, ?_, .inl rfl, hd, mid_clean hi (hbf hf.1 hf.2.1) hf hd h1 h2 h3 h4 h5 h6 h7 h8 h9⟩⟩
    obtain ⟨f1, f2, f3, f4, f5⟩ := hf
    simp only [afterEv]
    cases st <;> first | rfl | contradiction
  unfold advance
  split
  · exact goNext_step hi (.inl rfl)
  · exact goNext_step hi (.inr (.inl rfl))
  · split
    · next hs =>
      have hsub : sub = .ran .pause := by
        rcases (hsp2 hs).2 with h | h
        · exact h
        · exact absurd rfl ((hi.plain _ (List.mem_cons_self ..)).2.1 h)
      subst hsub
      exact hstay .pause rfl (.inr rfl) (by simp [goodStack]) (by simp [contsSince]) (by simp [afterEv, after])
    · next hs =>
      exact goNext_step hi (.inr (.inr ⟨rfl, fun h => hs (hsp1 h)⟩))
  · -- PREV
    have hb := hbf (by simp) (by simp)
    have hg : goodStack fl.singlePrev (.visit s.id dflt sub .prev next d d' :: past) =
        (goodStack fl.singlePrev past).tail := by simp [goodStack]
    have hc : contsSince (.visit s.id dflt sub .prev next d d' :: past) = contsSince past := by
      simp [contsSince]
    unfold goPrev
    split
    · next hp =>
      rw [hi.prev] at hp
      have ha : afterEv fl ss past (skel s) (.visit s.id dflt sub .prev next d d') =
          .finish .errNoPrev := by simp [afterEv, after, hp]
      refine ⟨rfl, rfl, .inr ⟨.errNoPrev, .errBadId, ha, .inr ⟨rfl, rfl⟩, by simp, ?_⟩⟩
      have hnone : findSt m.states 0 = none := by
        refine List.find?_eq_none.mpr fun t ht => ?_
        simpa using hi.nz t ht
      exact
        { flags := hi.flags
          preason := hi.preason
          skels := hi.skels
          nodup := hi.nodup
          running := hi.running
          ret1 := fun _ => rfl
          ret2 := fun h => absurd hnone h
          fin := by simp [Final]
          todo := by
            show todo _ _ m.seen m.cleanupIds = _
            rw [hi.seen, hi.ids, todo_due hi.plain (by simp : ¬ (Status.errNoPrev = .done ∧ _))]
          nonzero := by show ∀ x ∈ m.cleanupIds, _; rw [hi.ids]; exact hi.nonzero
          okk := hi.okk
          idle := hi.idle hb }
    · next p ps hp =>
      rw [hi.prev] at hp
      obtain ⟨t, ht, hti⟩ := hi.good p (by rw [hp]; simp)
      have hp0 : p ≠ 0 := by
        rw [← hi.skels] at ht
        obtain ⟨u, hu, rfl⟩ := List.mem_map.mp ht
        rw [← hti]; exact hi.nz u hu
      rw [if_neg hp0]
      have ha : afterEv fl ss past (skel s) (.visit s.id dflt sub .prev next d d') = .goto p := by
        simp [afterEv, after, hp]
      refine ⟨rfl, rfl, .inl (mid_work hi rfl rfl rfl rfl rfl rfl rfl ?_ ?_ (.inl hb) ?_)⟩
      · rw [hg, hp]; rfl
      · rw [hc]; exact hi.conts
      · exact .goto hi.works ha ⟨t, ht, hti⟩
  · exact hstay .wait rfl (.inl rfl) (by simp [goodStack]) (by simp [contsSince]) rfl
  · split
    · next hdc =>
      rw [hi.flags] at hdc
      exact herr (by simp [Final]) (by simp [hdc]) _ rfl rfl rfl rfl rfl rfl rfl
        (by simp [clearConts]) rfl
    · next hdc =>
      rw [hi.flags] at hdc
      have hdc' : fl.doneCleanup = false := by simpa using hdc
      refine ⟨rfl, rfl, .inr ⟨rfl, rfl, hdc', ?_⟩⟩
      exact
        { flags := hi.flags
          preason := hi.preason
          skels := hi.skels
          running := rfl
          okk := hi.okk
          idle := hi.idle (hbf (by simp) (by simp)) }
  · next h1 h2 h3 h4 h5 h6 =>
    exact herr ⟨h5, h3, h1, h4, h2⟩ (fun h => h6 h.1) _ rfl rfl rfl rfl rfl rfl rfl
      (by simp [clearConts, fail]) rfl

end Verif.StateMachine
