import Verif.StateMachine.CleanLemmas

/-!
# A machine at work
-/

namespace Verif.StateMachine
open Spec

variable {D C : Type} {o : Ops D C} {ok : C → Prop}

theorem counts_stateStatus (st : Status) : Counts st (stateStatus st) := by
  cases st <;> simp [Counts, stateStatus]

theorem stateStatus_ne_pauseless (st : Status) : (stateStatus st = .wait ↔ st = .wait) := by
  cases st <;> simp [stateStatus]

/-- The sub machine is in the middle of its work. -/
def busyOf : Sub → Bool
  | .ran .wait => true
  | .ran .pause => true
  | _ => false

theorem busy_visit {id dflt : Nat} {sub : Sub} {st : Status} {next : Nat} {d d' : D}
    {past : List (Ev D)} : busy (.visit id dflt sub st next d d' :: past) = busyOf sub := by
  cases sub with
  | ran s => cases s <;> rfl
  | _ => rfl

/-- What running a state does: the cleanup of the state becomes due. -/
def regOf (sub : Sub) (st : Status) (inside : Bool) : Bool :=
  match sub with
  | .notSub => st ≠ .wait
  | .skipped => false
  | .ran _ => !inside

/-- Facts about the outcome of running a state. -/
structure RunOut (o : Ops D C) (reason : Reason) (inside : Bool) (k : KSkel D) (dflt : Nat) (d : D)
    (r : Outcome D C) : Prop where
  emits : Emits reason inside k dflt r.sub r.st r.next d r.d
  reg : r.reg = regOf r.sub r.st inside
  act : active o r.kind = busyOf r.sub
  wait : r.sub = .ran .wait → r.st = .wait
  pause : r.sub = .ran .pause → r.st = .pause ∧ r.subPause = true
  subPause : r.subPause = true → r.st = .pause ∧ (r.sub = .ran .pause ∨ r.sub = .skipped)

theorem enters_callPre {pre : Option (PreFn D)} {inside : Bool} {d : D} {dflt : Nat}
    (h : (callPre pre inside d dflt).2.1 = true) :
    Enters pre inside d dflt (callPre pre inside d dflt).1 (callPre pre inside d dflt).2.2.2 := by
  unfold callPre at h ⊢
  cases pre with
  | none => exact .inl ⟨.inr rfl, rfl, rfl⟩
  | some f =>
    cases inside with
    | true => exact .inl ⟨.inl rfl, rfl, rfl⟩
    | false =>
      dsimp only [Bool.false_eq_true, if_false] at h ⊢
      simp only [Bool.false_eq_true, if_false] at h ⊢
      refine .inr ⟨rfl, f, (f d .cont dflt).2.2.1, rfl, ?_⟩
      rw [← h]

theorem skips_callPre {pre : Option (PreFn D)} {inside : Bool} {d : D} {dflt : Nat}
    (h : ¬ (callPre pre inside d dflt).2.1 = true) :
    inside = false ∧ ∃ f, pre = some f ∧ f d .cont dflt = ((callPre pre inside d dflt).1, false,
      (callPre pre inside d dflt).2.2.1, (callPre pre inside d dflt).2.2.2) := by
  unfold callPre at h ⊢
  cases pre with
  | none => exact absurd rfl h
  | some f =>
    cases inside with
    | true => exact absurd rfl h
    | false =>
      simp only [Bool.false_eq_true, if_false] at h ⊢
      refine ⟨trivial, f, rfl, ?_⟩
      have : (f d .cont dflt).2.1 = false := by
        cases hh : (f d .cont dflt).2.1 with
        | true => exact absurd hh h
        | false => rfl
      rw [← this]

theorem leaves_callPost (post : Option (Status → Fn D)) (cst : Status) (d2 : D) (n1 : Nat) :
    Leaves post cst d2 n1 (callPost post d2 cst n1).1 (callPost post d2 cst n1).2.1
      (callPost post d2 cst n1).2.2 := by
  unfold callPost Leaves
  cases post with
  | none => exact ⟨rfl, rfl, rfl⟩
  | some g => exact ⟨(g cst d2 n1).2.1, rfl, rfl⟩

theorem runSub_out (hl : Lawful o ok) {reason : Reason} {c : C} {pre : Option (PreFn D)}
    {post : Option (Status → Fn D)} {d : D} {dflt : Nat} {r : Outcome D C} (hk : ok c)
    (h : runSub o c pre post d dflt = some r) :
    RunOut o reason (o.running c) (.sub pre post) dflt d r := by
  unfold runSub at h
  dsimp only at h
  split at h
  · next hp =>
    have he := enters_callPre hp
    split at h
    · cases h
    · next c' d' st hr =>
      obtain ⟨_, hf⟩ := hl.run hk hr
      split at h
      · next hw =>
        cases h
        have hW := waits_iff.mp hw
        have hrun : o.running c' = true := by
          rcases hf with hf | hf
          · exact hf.2
          · exact absurd hW (final_not_Waits hf.1)
        refine
          { emits := .inr ⟨st, _, _, d', rfl, he, .inl ⟨hW, rfl, rfl, rfl⟩⟩
            reg := rfl
            act := ?_
            wait := ?_
            pause := ?_
            subPause := ?_ }
        · show o.running c' = busyOf (.ran st)
          rw [hrun]; rcases hW with rfl | rfl <;> rfl
        · intro hh; cases hh; rfl
        · intro hh; cases hh; exact ⟨rfl, rfl⟩
        · intro hh
          have : st = .pause := of_decide_eq_true hh
          subst this
          exact ⟨rfl, .inl rfl⟩
      · next hw =>
        cases h
        have hW : ¬ Waits st := fun hh => hw (waits_iff.mpr hh)
        have hF : Final st ∧ o.running c' = false := by
          rcases hf with hf | hf
          · exact absurd hf.1 hW
          · exact hf
        refine
          { emits := .inr ⟨st, _, _, d', rfl, he, .inr ⟨hW, leaves_callPost _ _ _ _⟩⟩
            reg := rfl
            act := ?_
            wait := ?_
            pause := ?_
            subPause := ?_ }
        · show o.running c' = busyOf (.ran st)
          rw [hF.2]
          cases st <;> first | rfl | exact absurd (.inl rfl) hW | exact absurd (.inr rfl) hW
        · intro hh; cases hh; exact absurd (.inl rfl) hW
        · intro hh; cases hh; exact absurd (.inr rfl) hW
        · intro hh; cases hh
  · next hp =>
    cases h
    obtain ⟨hi, f, hf, hff⟩ := skips_callPre hp
    refine
      { emits := .inl ⟨rfl, hi, f, hf, hff⟩
        reg := rfl
        act := hi
        wait := fun hh => by cases hh
        pause := fun hh => by cases hh
        subPause := fun hh => ⟨of_decide_eq_true hh, .inr rfl⟩ }

theorem interRound_done (na : Bool) (cs : List (C × Status)) : ∀ {d : D} {st : Status} {a : Bool}
    {cs' : List (C × Status)} {d' : D} {st' : Status},
    interRound o na cs d st a = some (cs', d', st', true) →
    (a = true ∧ (¬ Waits st → ¬ Waits st') ∧ ∀ c ∈ cs', ¬ Waits c.2) ∨ (na = false ∧ ¬ Waits st') := by
  induction cs with
  | nil =>
    intro d st a cs' d' st' h
    simp only [interRound, Option.some.injEq, Prod.mk.injEq] at h
    obtain ⟨rfl, rfl, rfl, rfl⟩ := h
    exact .inl ⟨rfl, id, by simp⟩
  | cons x cs ih =>
    intro d st a cs' d' st' h
    obtain ⟨c, s⟩ := x
    simp only [interRound] at h
    split at h
    · split at h
      · cases h
      · next c1 d1 st1 hr =>
        split at h
        · next hab =>
          simp only [Option.some.injEq, Prod.mk.injEq] at h
          obtain ⟨rfl, rfl, rfl, _⟩ := h
          refine .inr ⟨?_, ?_⟩
          · cases na
            · rfl
            · simp at hab
          · intro hw
            have := waits_iff.mpr hw
            simp [this] at hab
        · split at h
          · cases h
          · next cs2 r2 hrec =>
            simp only [Option.some.injEq, Prod.mk.injEq] at h
            obtain ⟨rfl, rfl⟩ := h
            rcases ih hrec with ⟨g1, g2, g3⟩ | g
            · by_cases hw : waits st1 = true
              · rw [if_pos hw] at g1; cases g1
              · rw [if_neg hw] at g1
                have hW : ¬ Waits st1 := fun hh => hw (waits_iff.mpr hh)
                refine .inl ⟨g1, fun _ => g2 hW, ?_⟩
                intro x hx
                rcases List.mem_cons.mp hx with rfl | hx
                · exact hW
                · exact g3 x hx
            · exact .inr g
    · next hlive =>
      split at h
      · cases h
      · next cs2 r2 hrec =>
        simp only [Option.some.injEq, Prod.mk.injEq] at h
        obtain ⟨rfl, rfl⟩ := h
        rcases ih hrec with ⟨g1, g2, g3⟩ | g
        · refine .inl ⟨g1, g2, ?_⟩
          intro x hx
          rcases List.mem_cons.mp hx with rfl | hx
          · rintro (hh | hh) <;> (dsimp only at hh; subst hh; simp [liveSub] at hlive)
          · exact g3 x hx
        · exact .inr g

theorem firstBad_not_waits : ∀ {cs : List (C × Status)}, (∀ c ∈ cs, ¬ Waits c.2) → ¬ Waits (firstBad cs)
  | [], _ => by simp [firstBad, Waits]
  | (c, s) :: cs, h => by
    unfold firstBad
    split
    · exact firstBad_not_waits fun x hx => h x (by simp [hx])
    · exact h (c, s) (by simp)

theorem busyOf_ran {st : Status} (h : ¬ Waits st) : busyOf (.ran st) = false := by
  cases st <;> first | rfl | exact absurd (.inl rfl) h | exact absurd (.inr rfl) h

theorem runInter_out {reason : Reason} {na : Bool} {cs : List (C × Status)} {pre : Option (PreFn D)}
    {post : Option (Status → Fn D)} {irun : Bool} {d : D} {dflt : Nat} {r : Outcome D C}
    (h : runInter o na cs pre post irun d dflt = some r) :
    RunOut o reason irun (.sub pre post) dflt d r := by
  unfold runInter at h
  dsimp only at h
  split at h
  · next hp =>
    have he := enters_callPre hp
    split at h
    · cases h
    · next cs' d' st ad hr =>
      split at h
      · next had =>
        subst had
        cases h
        have hW : ¬ Waits (if na = true then firstBad cs' else st) := by
          rcases interRound_done na cs hr with ⟨_, g2, g3⟩ | ⟨g1, g2⟩
          · split
            · exact firstBad_not_waits g3
            · exact g2 (by simp [Waits])
          · rw [g1]; exact g2
        generalize (if na = true then firstBad cs' else st) = st' at hW ⊢
        refine
          { emits := .inr ⟨st', _, _, d', rfl, he, .inr ⟨hW, leaves_callPost _ _ _ _⟩⟩
            reg := rfl
            act := (busyOf_ran hW).symm
            wait := ?_
            pause := ?_
            subPause := ?_ }
        · intro hh; cases hh; exact absurd (.inl rfl) hW
        · intro hh; cases hh; exact absurd (.inr rfl) hW
        · intro hh; cases hh
      · cases h
        refine
          { emits := .inr ⟨.wait, _, _, d', rfl, he, .inl ⟨.inl rfl, rfl, rfl, rfl⟩⟩
            reg := rfl
            act := rfl
            wait := fun _ => rfl
            pause := fun hh => by cases hh
            subPause := fun hh => by cases hh }
  · next hp =>
    cases h
    obtain ⟨hi, f, hf, hff⟩ := skips_callPre hp
    refine
      { emits := .inl ⟨rfl, hi, f, hf, hff⟩
        reg := rfl
        act := hi
        wait := fun hh => by cases hh
        pause := fun hh => by cases hh
        subPause := fun hh => by cases hh }

theorem runState_out (hl : Lawful o ok) {m : Mach D C} {s : St D C} {d : D} {dflt : Nat}
    {r : Outcome D C} (hk : OkKind ok s.kind) (h : runState o m s d dflt = some r) :
    RunOut o m.preason (active o s.kind) (kskel s.kind) dflt d r := by
  unfold runState at h
  split at h
  · next f hf =>
    cases h
    rw [hf]
    refine
      { emits := ⟨rfl, (f d dflt).2.1, rfl, counts_stateStatus _⟩
        reg := by simp [regOf]
        act := rfl
        wait := fun hh => by cases hh
        pause := fun hh => by cases hh
        subPause := fun hh => by cases hh }
  · next f hf =>
    cases h
    rw [hf]
    refine
      { emits := ⟨rfl, (f m.preason d dflt).2.1, rfl, counts_stateStatus _⟩
        reg := by simp [regOf]
        act := rfl
        wait := fun hh => by cases hh
        pause := fun hh => by cases hh
        subPause := fun hh => by cases hh }
  · next c pre post hf =>
    rw [hf] at hk ⊢
    exact runSub_out hl hk h
  · next cs pre post irun hf =>
    rw [hf]
    exact runInter_out h

theorem linearNext_follows : ∀ {ss : List (St D C)} {s : St D C}, (ss.map (·.id)).Nodup → s ∈ ss →
    Follows (ss.map (·.id)) s.id (linearNext ss s.id)
  | [], _, _, h => by cases h
  | [t], s, _, h => by
    simp only [List.mem_singleton] at h
    subst h
    exact .inr ⟨rfl, [], rfl⟩
  | t :: u :: ss, s, hn, h => by
    unfold linearNext
    by_cases ht : t.id = s.id
    · rw [if_pos ht]
      exact .inl ⟨[], ss.map (·.id), by simp [ht]⟩
    · rw [if_neg ht]
      have hs : s ∈ u :: ss := by
        rcases List.mem_cons.mp h with rfl | h
        · exact absurd rfl ht
        · exact h
      have hn' : ((u :: ss).map (·.id)).Nodup := (List.nodup_cons.mp hn).2
      rcases linearNext_follows hn' hs with ⟨a, b, e⟩ | ⟨e0, a, e⟩
      · exact .inl ⟨t.id :: a, b, by rw [List.map_cons, e]; rfl⟩
      · exact .inr ⟨e0, t.id :: a, by rw [List.map_cons, e]; rfl⟩

/-! ## Histories -/

/-- The cleanup list of the machine: also states that were skipped with CONTINUE. -/
def dueRaw : List (Ev D) → List Nat
  | [] => []
  | .visit id _ sub st _ _ _ :: past =>
    if regOf sub st (busy past) then id :: dueRaw past else dueRaw past
  | _ :: past => dueRaw past

theorem dueRaw_due {ss : List (Skel D)} : ∀ {past : List (Ev D)}, (∀ e ∈ past, Plain ss e) →
    (dueRaw past).filter (hasCleanup ss) = (due past).filter (hasCleanup ss)
  | [], _ => rfl
  | .clean .. :: past, h => dueRaw_due (past := past) fun e he => h e (by simp [he])
  | .drain .. :: past, h => dueRaw_due (past := past) fun e he => h e (by simp [he])
  | .visit id dflt sub st next d d' :: past, h => by
    have ih := dueRaw_due (past := past) fun e he => h e (by simp [he])
    have h0 := h _ (List.mem_cons_self ..)
    unfold dueRaw due
    cases sub with
    | notSub =>
      by_cases hc : st = .cont
      · subst hc
        have h0' : hasCleanup ss id = false := h0.1 ⟨rfl, rfl⟩
        have e1 : regOf .notSub .cont (busy past) = true := rfl
        have e2 : completes .notSub .cont (busy past) = false := rfl
        rw [if_pos e1, if_neg (by rw [e2]; decide), List.filter_cons_of_neg (by simp [h0']), ih]
      · have e : completes .notSub st (busy past) = regOf .notSub st (busy past) := by
          simp [completes, regOf, hc]
        rw [e]
        split
        · rw [List.filter_cons, List.filter_cons, ih]
        · exact ih
    | skipped => exact ih
    | ran cst =>
      have e : completes (.ran cst) st (busy past) = regOf (.ran cst) st (busy past) := rfl
      rw [e]
      split
      · rw [List.filter_cons, List.filter_cons, ih]
      · exact ih

theorem todo_cleanups {fl : Flags} {ss : List (Skel D)} {past : List (Ev D)}
    (hp : ∀ e ∈ past, Plain ss e) :
    todo fl.oneCleanup (hasCleanup ss) [] (dueRaw past) = cleanups fl ss past := by
  unfold todo cleanups
  split
  · have : ((dueRaw past).filter fun x => !([] : List Nat).contains x) = dueRaw past := by
      rw [List.filter_eq_self]; intro x _; rfl
    rw [this, ← firsts_filter, ← firsts_filter, dueRaw_due hp]
  · exact dueRaw_due hp

theorem todo_due {fl : Flags} {ss : List (Skel D)} {st : Status} {past : List (Ev D)}
    (hp : ∀ e ∈ past, Plain ss e) (h : ¬ (st = .done ∧ fl.doneCleanup = false)) :
    todo fl.oneCleanup (hasCleanup ss) [] (dueRaw past) = toClean fl ss st past := by
  rw [toClean, if_neg h]
  exact todo_cleanups hp

theorem goodStack_single : ∀ past : List (Ev D), (goodStack true past).length ≤ 1
  | [] => by simp [goodStack]
  | .clean .. :: past => goodStack_single past
  | .drain .. :: past => goodStack_single past
  | .visit id dflt sub st next d d' :: past => by
    have ih := goodStack_single past
    unfold goodStack
    split
    · simp
    · split
      · simp only [List.length_tail]; omega
      · exact ih

/-- Where a machine with the given history is. -/
inductive At (fl : Flags) (reason : Reason) (ss : List (Skel D)) : List (Ev D) → Nat → Prop where
  | first {s : Skel D} (h : ss.head? = some s) : At fl reason ss [] s.id
  | stay {s : Skel D} {e : Ev D} {past : List (Ev D)} (h : Works fl reason ss s (e :: past))
      (ht : afterEv fl ss past s e = .stay) : At fl reason ss (e :: past) s.id
  | goto {s : Skel D} {e : Ev D} {past : List (Ev D)} {id : Nat}
      (h : Works fl reason ss s (e :: past)) (ht : afterEv fl ss past s e = .goto id)
      (hm : ∃ t ∈ ss, t.id = id) : At fl reason ss (e :: past) id
  | bad {s : Skel D} {e : Ev D} {past : List (Ev D)} {id : Nat} (h : Works fl reason ss s (e :: past))
      (ht : afterEv fl ss past s e = .finish .errBadId) (hm : ∀ t ∈ ss, t.id ≠ id) :
      At fl reason ss (e :: past) id

theorem works_mem {fl : Flags} {reason : Reason} {ss : List (Skel D)} {s : Skel D} {l : List (Ev D)}
    (h : Works fl reason ss s l) : s ∈ ss := by
  cases h with
  | first _ hv => exact hv.mem
  | stay _ _ _ hv => exact hv.mem
  | goto _ _ hv => exact hv.mem

theorem works_visit {fl : Flags} {reason : Reason} {ss : List (Skel D)} {past : List (Ev D)}
    {s : Skel D} {e : Ev D} (ha : At fl reason ss past s.id) (hv : Visit fl reason ss past s e)
    (hn : (ss.map (·.id)).Nodup) : Works fl reason ss s (e :: past) := by
  generalize hi : s.id = i at ha
  cases ha with
  | first h =>
    next s0 =>
    have h0 : s0 ∈ ss := List.mem_of_mem_head? (by rw [h]; rfl)
    have : s = s0 := by
      clear h
      revert hn h0
      have hm := hv.mem
      intro hn h0
      clear hv
      induction ss with
      | nil => cases h0
      | cons a as ih =>
        simp only [List.map_cons, List.nodup_cons, List.mem_map, not_exists, not_and] at hn
        rcases List.mem_cons.mp hm with rfl | hm'
        · rcases List.mem_cons.mp h0 with rfl | h0'
          · rfl
          · exact absurd hi.symm (hn.1 _ h0')
        · rcases List.mem_cons.mp h0 with rfl | h0'
          · exact absurd hi (hn.1 _ hm')
          · exact ih hm' hn.2 h0'
    subst this
    exact .first h hv
  | stay h ht => exact .stay h ht hi hv
  | goto h ht hm => subst hi; exact .goto h ht hv
  | bad h ht hm => exact absurd hi (hm s hv.mem)

end Verif.StateMachine
