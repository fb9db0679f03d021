import Verif.StateMachine.StepLemmas

/-!
# Passes, runs and sessions
-/

namespace Verif.StateMachine
open Spec

variable {D C : Type} {o : Ops D C} {ok : C → Prop} {fl : Flags} {reason : Reason}
  {ss : List (Skel D)}

theorem WorkInv.lost {m : Mach D C} {past : List (Ev D)} (hi : WorkInv o ok fl reason ss m past)
    (hn : findSt m.states m.cur = none) :
    ∃ s e past', past = e :: past' ∧ Works fl reason ss s (e :: past') ∧
      afterEv fl ss past' s e = .finish .errBadId ∧
      CleanInv o ok fl reason ss m .errBadId (toClean fl ss .errBadId past) := by
  have hno := (mem_ids hi.skels _).mp hn
  have hc : CleanInv o ok fl reason ss m .errBadId (toClean fl ss .errBadId past) :=
    { flags := hi.flags
      preason := hi.preason
      skels := hi.skels
      nodup := hi.nodup
      running := hi.running
      ret1 := fun _ => rfl
      ret2 := fun h => absurd hn h
      fin := by simp [Final]
      todo := by rw [hi.seen, hi.ids, todo_due (st := .errBadId) hi.plain (by simp)]
      nonzero := by rw [hi.ids]; exact hi.nonzero
      okk := hi.okk
      idle := fun s hs => by
        rw [hi.act s hs, decide_eq_false (findSt_none hn s hs), Bool.false_and] }
  have ha := hi.at'
  generalize m.cur = i at ha hno
  cases ha with
  | first h => exact absurd rfl (hno _ (List.mem_of_mem_head? (by rw [h]; rfl)))
  | stay h _ => exact absurd rfl (hno _ (works_mem h))
  | goto _ _ hm => obtain ⟨t, ht, he⟩ := hm; exact absurd he (hno t ht)
  | bad h ht _ => exact ⟨_, _, _, rfl, h, ht, hc⟩

/-- The events of a pass. -/
def passEv : Pass D C → List (Ev D)
  | .again _ _ ev => ev
  | .ret _ _ _ ev => ev

theorem skels_ids {l : List (St D C)} (hs : l.map skel = ss) : l.map (·.id) = ss.map (·.id) := by
  rw [← hs, List.map_map]; rfl

theorem advance_ev (m : Mach D C) (s : St D C) (st : Status) (next : Nat) (sp : Bool) (d : D)
    (ev : List (Ev D)) : passEv (advance m s st next sp d ev) = ev := by
  have h1 : ∀ st, passEv (goNext m s st next d ev) = ev := by
    intro st
    unfold goNext
    dsimp only
    (repeat' split) <;> rfl
  have h2 : passEv (goPrev m d ev) = ev := by
    unfold goPrev
    (repeat' split) <;> rfl
  unfold advance
  split
  · exact h1 _
  · exact h1 _
  · split
    · rfl
    · exact h1 _
  · exact h2
  · rfl
  · split <;> rfl
  · rfl

theorem pass_work (hl : Lawful o ok) {m : Mach D C} {past : List (Ev D)} {d : D} {p : Pass D C}
    (hi : WorkInv o ok fl reason ss m past) (hf : findSt m.states m.cur ≠ none)
    (hp : ∀ e ∈ passEv p, Plain ss e) (h : pass o m d = some p) :
    ∃ s e d', Works fl reason ss s (e :: past) ∧ StepOut o ok fl reason ss past s e d' p := by
  unfold pass at h
  split at h
  · next hn => exact absurd hn hf
  · next s hs =>
    obtain ⟨hmem, hid⟩ := findSt_some hs
    rw [if_neg (by rw [hi.noReason]; simp)] at h
    dsimp only at h
    generalize hdf : (if m.flags.explicitNext then 0 else linearNext m.states m.cur) = dflt at h
    split at h
    · cases h
    · next r hr =>
      have hk := hi.okk s hmem
      have hk' := (okSt_iff.mp hk).2
      have hout := runState_out hl hk' hr
      obtain ⟨ho1, ho2⟩ := runState_ok hl hk' hr
      injection h with h
      have hpl : Plain ss (.visit s.id dflt r.sub r.st r.next d r.d) := by
        apply hp
        rw [← h, advance_ev, ← hid]
        exact List.mem_cons_self ..
      have hinside : active o s.kind = busy past := by
        rw [hi.act s hmem, decide_eq_true hid, Bool.true_and]
      have hvis : Visit fl reason ss past (skel s) (.visit s.id dflt r.sub r.st r.next d r.d) := by
        refine ⟨?_, dflt, r.sub, r.st, r.next, d, r.d, rfl, ?_, ?_⟩
        · rw [← hi.skels]; exact List.mem_map.mpr ⟨s, hmem, rfl⟩
        · rw [← hdf, hi.flags]
          split
          · rfl
          · rw [← skels_ids hi.skels, ← hid]
            exact linearNext_follows hi.nodup hmem
        · have := hout.emits
          rw [hinside, hi.preason] at this
          exact this
      have hnd : (ss.map (·.id)).Nodup := by rw [← skels_ids hi.skels]; exact hi.nodup
      have hw : Works fl reason ss (skel s) (.visit s.id dflt r.sub r.st r.next d r.d :: past) :=
        works_visit (by show At _ _ _ _ s.id; rw [hid]; exact hi.at') hvis hnd
      have hsk : (putSt m.states m.cur fun t => { t with kind := r.kind }).map skel = ss := by
        rw [← hi.skels]
        refine map_putSt skel fun t ht hti => ?_
        have : t = s := eq_of_nodup hi.nodup ht hmem (hti.trans hid.symm)
        subst this
        simp [skel, ho2]
      have hids : (putSt m.states m.cur fun t => { t with kind := r.kind }).map (·.id) =
          m.states.map (·.id) := map_putSt (·.id) fun t _ _ => rfl
      have hreg : (if r.reg then m.cur :: m.cleanupIds else m.cleanupIds) =
          dueRaw (.visit s.id dflt r.sub r.st r.next d r.d :: past) := by
        unfold dueRaw
        rw [hout.reg, hinside, hi.ids, hid]
      refine ⟨skel s, .visit s.id dflt r.sub r.st r.next d r.d, r.d, hw, ?_⟩
      rw [← h, ← hid]
      have hmid : MidInv o ok fl reason ss
          { m with
            states := putSt m.states m.cur fun s => { s with kind := r.kind }
            cleanupIds := if r.reg then m.cur :: m.cleanupIds else m.cleanupIds }
          past s dflt r.sub r.st r.next d r.d :=
        { flags := hi.flags
          preason := hi.preason
          skels := hsk
          nodup := by dsimp only; rw [hids]; exact hi.nodup
          nz := by
            dsimp only
            intro t ht
            obtain ⟨u, hu, h | h⟩ := mem_putSt ht
            · rw [h.2]; exact hi.nz u hu
            · rw [h.2]; exact hi.nz u hu
          running := hi.running
          noReason := hi.noReason
          seen := hi.seen
          prev := hi.prev
          conts := hi.conts
          ids := hreg
          act := by
            dsimp only
            intro t ht
            obtain ⟨u, hu, h | h⟩ := mem_putSt ht
            · rw [h.2, hi.act u hu, decide_eq_false h.1, Bool.false_and, Bool.false_and]
            · rw [h.2]
              dsimp only
              rw [hout.act, decide_eq_true h.1, Bool.true_and]
          good := hi.good
          nonzero := by
            rw [← hreg]
            intro x hx
            split at hx
            · rcases List.mem_cons.mp hx with rfl | hx
              · rw [← hid]; exact hi.nz s hmem
              · rw [hi.ids] at hx; exact hi.nonzero x hx
            · rw [hi.ids] at hx; exact hi.nonzero x hx
          okk := ok_putKind hi.okk m.cur ho1
          plain := by
            intro e he
            rcases List.mem_cons.mp he with rfl | he
            · exact hpl
            · exact hi.plain e he
          works := hw
          cur := hid.symm
          bwait := hout.wait
          bpause := fun h => (hout.pause h).1 }
      rw [hid]
      have := advance_step hmid (sp := r.subPause) (fun h => (hout.pause h).2) hout.subPause
      rw [hid] at this
      exact this

/-! ## Runs -/

theorem loop_clean (hl : Lawful o ok) {n : Nat} {m m' : Mach D C} {d d' : D} {ret st : Status}
    {L : List Nat} {ev : List (Ev D)} (hi : CleanInv o ok fl reason ss m ret L)
    (hg : Smooth fl ev) (h : loop o n m d = some (m', d', st, ev)) :
    CleanOut o ok fl reason ss ret L m' st ev := by
  cases n with
  | zero => cases h
  | succ n =>
    unfold loop at h
    cases hp : pass o m d with
    | none => rw [hp] at h; cases h
    | some p =>
      rw [hp] at h
      cases p with
      | ret m1 d1 st1 ev1 =>
        cases h
        obtain ⟨_, _, _, _, e, hc⟩ := cleanPass_spec hl hi (fun _ _ _ _ e => by cases e; exact hg) hp
        cases e
        exact hc
      | again m1 d1 ev1 =>
        obtain ⟨_, _, _, _, e, hc⟩ := cleanPass_spec hl hi (fun _ _ _ _ e => by cases e) hp
        cases e

/-- A machine that has returned, with the events so far. -/
def Res (o : Ops D C) (ok : C → Prop) (fl : Flags) (reason : Reason) (ss : List (Skel D))
    (tr : List (Ev D)) (m : Mach D C) (st : Status) : Prop :=
  (Waits st ∧ WorkInv o ok fl reason ss m tr.reverse ∧ Paused fl reason ss tr st) ∨
  (∃ st0 stq work clean s e past rest, Reported st0 stq ∧ Waits st ∧ tr = work ++ clean ∧
    work.reverse = e :: past ∧ Works fl reason ss s (e :: past) ∧ afterEv fl ss past s e = .finish st0 ∧
    Cleans (toClean fl ss st0 (e :: past)) clean rest ∧ rest ≠ [] ∧ LastStatus clean st ∧
    CleanInv o ok fl reason ss m stq rest) ∨
  (∃ st0, Reported st0 st ∧ Final st ∧ Complete fl reason ss tr st0 ∧ Over o ok fl reason ss m)

theorem lastStatus_append {a b : List (Ev D)} {st : Status} (h : LastStatus b st) :
    LastStatus (a ++ b) st := by
  rcases h with ⟨c, id, dflt, sub, next, d, d', rfl⟩ | ⟨c, id, d, d', rfl⟩
  · exact .inl ⟨a ++ c, id, dflt, sub, next, d, d', by simp⟩
  · exact .inr ⟨a ++ c, id, d, d', by simp⟩

theorem cleans_trans {L rest rest' : List Nat} {a b : List (Ev D)} (h : Cleans L a rest)
    (g : Cleans rest b rest') : Cleans L (a ++ b) rest' := by
  induction h with
  | nil => exact g
  | wait hw _ ih => exact .wait hw (ih g)
  | over hw _ ih => exact .over hw (ih g)

/-- A run that cleans up after `work` completes or goes on cleaning up. -/
theorem res_clean {work clean ev past : List (Ev D)} {s : Skel D} {e : Ev D} {st0 stq st : Status}
    {rest : List Nat} {m' : Mach D C} (hq : Reported st0 stq) (hfin : Final stq)
    (hr : work.reverse = e :: past)
    (hw : Works fl reason ss s (e :: past)) (ha : afterEv fl ss past s e = .finish st0)
    (hc : Cleans (toClean fl ss st0 (e :: past)) clean rest)
    (h : CleanOut o ok fl reason ss stq rest m' st ev) :
    Res o ok fl reason ss (work ++ clean ++ ev) m' st := by
  rcases h with ⟨rfl, h2, h3⟩ | ⟨h1, _, rest', h2, h3, h4, h5⟩
  · exact .inr (.inr ⟨st0, hq, hfin, ⟨work, clean ++ ev, s, e, past, by simp, hr, hw, ha,
      cleans_trans hc h2⟩, h3⟩)
  · exact .inr (.inl ⟨st0, stq, work, clean ++ ev, s, e, past, rest', hq, h1, by simp, hr, hw, ha,
      cleans_trans hc h3, h2, lastStatus_append h4, h5⟩)

theorem smooth_right {a b : List (Ev D)} (h : Smooth fl (a ++ b)) : Smooth fl b :=
  fun h1 e he => h h1 e (by simp [he])

theorem loop_work (hl : Lawful o ok) : ∀ (n : Nat) {m m' : Mach D C} {d d' : D} {st : Status}
    {past ev : List (Ev D)}, WorkInv o ok fl reason ss m past → (∀ e ∈ ev, Plain ss e) →
    Smooth fl ev → loop o n m d = some (m', d', st, ev) →
    Res o ok fl reason ss (past.reverse ++ ev) m' st := by
  intro n
  induction n with
  | zero => intro m m' d d' st past ev _ _ _ h; cases h
  | succ n ih =>
    intro m m' d d' st past ev hi hpl hsm h
    by_cases hn : findSt m.states m.cur = none
    · obtain ⟨s, e, past', rfl, hw, ha, hc⟩ := hi.lost hn
      have hout := loop_clean hl hc hsm h
      have := res_clean (work := (e :: past').reverse) (clean := []) (.inl rfl) hc.fin (by simp) hw ha
        (.nil _) hout
      simpa using this
    · unfold loop at h
      cases hp : pass o m d with
      | none => rw [hp] at h; cases h
      | some p =>
        rw [hp] at h
        cases p with
        | ret m1 d1 st1 ev1 =>
          cases h
          obtain ⟨s, e, d2, hw, he, hd, hs⟩ := pass_work hl hi hn (p := .ret _ _ _ _) hpl hp
          subst he
          rcases hs with ⟨h1, h2, h3, h4⟩ | ⟨h1, h2, h3, h4⟩
          · refine .inl ⟨h1, by simpa using h2, s, e, past, by simp, hw, h4, lastStatus_append h3⟩
          · subst h2
            refine .inr (.inr ⟨.done, .inl rfl, by simp [Final], ?_, h4⟩)
            refine ⟨past.reverse ++ [e], [], s, e, past, by simp, by simp, hw, h1, ?_⟩
            rw [toClean, if_pos ⟨rfl, h3⟩]
            exact .nil _
        | again m1 d1 ev1 =>
          dsimp only at h
          cases hlp : loop o n m1 d1 with
          | none => rw [hlp] at h; cases h
          | some r =>
            obtain ⟨m2, d2, st2, ev2⟩ := r
            rw [hlp] at h
            cases h
            obtain ⟨s, e, d3, hw, he, hd, hs⟩ := pass_work hl hi hn (p := .again _ _ _)
              (fun e he => hpl e (List.mem_append_left _ he)) hp
            subst he
            have hpl2 : ∀ e ∈ ev2, Plain ss e := fun e he => hpl e (List.mem_append_right _ he)
            rcases hs with h1 | ⟨st0, stq, h1, h2, h3, h4⟩
            · have := ih h1 hpl2 (smooth_right hsm) hlp
              simpa using this
            · have hout := loop_clean hl h4 (smooth_right hsm) hlp
              have := res_clean (work := past.reverse ++ [e]) (clean := []) h2 h4.fin (by simp) hw h1
                (.nil _) hout
              simpa using this

/-! ## Sessions -/

theorem run_running {m : Mach D C} (hr : m.running = true) (hne : m.states ≠ []) (fuel : Nat) (d : D) :
    run o fuel m d = loop o fuel m d := by
  unfold run
  rw [if_neg (by simpa using hne)]
  unfold start
  rw [if_pos hr]

theorem run_res (hl : Lawful o ok) {m m' : Mach D C} {d d' : D} {fuel : Nat} {st0 st : Status}
    {tr ev : List (Ev D)} (hne : ss ≠ []) (hi : Res o ok fl reason ss tr m st0) (hw : Waits st0)
    (hpl : ∀ e ∈ ev, Plain ss e) (hsm : Smooth fl ev) (h : run o fuel m d = some (m', d', st, ev)) :
    Res o ok fl reason ss (tr ++ ev) m' st := by
  have hst : ∀ {l : List (St D C)}, l.map skel = ss → l ≠ [] := by
    intro l hl he
    subst he
    exact hne hl.symm
  rcases hi with ⟨_, h2, _⟩ | ⟨s0, sq, work, clean, s, e, past, rest, h1, h2, rfl, h4, h5, h6, h7, h8, h9, h10⟩ |
      ⟨_, _, h2, _⟩
  · rw [run_running h2.running (hst h2.skels)] at h
    have := loop_work hl fuel h2 hpl hsm h
    simpa using this
  · rw [run_running h10.running (hst h10.skels)] at h
    exact res_clean h1 h10.fin h4 h5 h6 h7 (loop_clean hl h10 hsm h)
  · exact absurd hw (final_not_Waits h2)

theorem session_res (hl : Lawful o ok) (hne : ss ≠ []) {m m' : Mach D C} {st : Status} {tr2 : List (Ev D)}
    (h : Session o m m' st tr2) : ∀ {tr : List (Ev D)} {st0 : Status}, Res o ok fl reason ss tr m st0 →
    Waits st0 → (∀ e ∈ tr2, Plain ss e) → Smooth fl tr2 → Res o ok fl reason ss (tr ++ tr2) m' st := by
  induction h with
  | one h =>
    intro tr st0 hi hw hpl hsm
    exact run_res hl hne hi hw hpl hsm h
  | more h hw1 _ ih =>
    intro tr st0 hi hw hpl hsm
    have h1 := run_res hl hne hi hw (fun e he => hpl e (List.mem_append_left _ he))
      (fun h1 e he => hsm h1 e (List.mem_append_left _ he)) h
    have := ih h1 hw1 (fun e he => hpl e (List.mem_append_right _ he)) (smooth_right hsm)
    simpa using this

theorem start_work {m : Mach D C} (hr : Ready o m) (hk : OkM ok m) :
    WorkInv o ok m.flags m.preason (m.states.map skel) (start m) [] := by
  obtain ⟨s, rest, hs⟩ := List.exists_cons_of_ne_nil hr.nonempty
  unfold start
  rw [if_neg (by rw [hr.stopped]; simp)]
  exact
    { flags := rfl
      preason := rfl
      skels := rfl
      nodup := hr.nodup
      nz := hr.nonzero
      running := rfl
      noReason := rfl
      seen := rfl
      prev := rfl
      conts := rfl
      ids := rfl
      act := fun t ht => by rw [hr.idle t ht]; simp [busy]
      good := fun x hx => by cases hx
      nonzero := fun x hx => by cases hx
      okk := hk.2
      plain := fun e he => by cases he
      at' := by
        dsimp only [clearCleanup]
        rw [hs]
        exact .first (s := skel s) rfl }

theorem first_res (hl : Lawful o ok) {m m' : Mach D C} {d d' : D} {fuel : Nat} {st : Status}
    {ev : List (Ev D)} (hr : Ready o m) (hk : OkM ok m) (hpl : ∀ e ∈ ev, Plain (m.states.map skel) e)
    (hsm : Smooth m.flags ev) (h : run o fuel m d = some (m', d', st, ev)) :
    Res o ok m.flags m.preason (m.states.map skel) ev m' st := by
  unfold run at h
  rw [if_neg (by simpa using hr.nonempty)] at h
  exact loop_work hl fuel (start_work hr hk) hpl hsm h

theorem session_first (hl : Lawful o ok) {m m' : Mach D C} {st : Status} {tr : List (Ev D)}
    (hr : Ready o m) (hk : OkM ok m) (hpl : ∀ e ∈ tr, Plain (m.states.map skel) e)
    (hsm : Smooth m.flags tr) (h : Session o m m' st tr) :
    Res o ok m.flags m.preason (m.states.map skel) tr m' st := by
  cases h with
  | one h => exact first_res hl hr hk hpl hsm h
  | more h hw hs =>
    have h1 := first_res hl hr hk (fun e he => hpl e (List.mem_append_left _ he))
      (fun h1 e he => hsm h1 e (List.mem_append_left _ he)) h
    exact session_res hl (by simpa using hr.nonempty) hs h1 hw
      (fun e he => hpl e (List.mem_append_right _ he)) (smooth_right hsm)

end Verif.StateMachine
