import Verif.StateMachine.SessionLemmas

/-!
# Data, resets, continuations and interleaved machines
-/

namespace Verif.StateMachine
open Spec

variable {D C : Type} {o : Ops D C} {ok : C → Prop} {fl : Flags} {reason : Reason}
  {ss : List (Skel D)}

/-! ## Data -/

theorem threads_append {d d1 d2 : D} {a b : List (Ev D)} (h : Threads d a d1) (g : Threads d1 b d2) :
    Threads d (a ++ b) d2 := by
  induction h with
  | nil => exact g
  | visit _ ih => exact .visit (ih g)
  | clean _ ih => exact .clean (ih g)
  | drain _ ih => exact .drain (ih g)

theorem cleanLoop_threads (n : Nat) : ∀ {m m' : Mach D C} {d d' : D} {st : Status} {ev : List (Ev D)},
    cleanLoop o n m d = some (m', d', st, ev) → Threads d ev d' := by
  induction n with
  | zero => intro m m' d d' st ev h; cases h; exact .nil _
  | succ n ih =>
    intro m m' d d' st ev h
    unfold cleanLoop at h
    split at h
    · cases h; exact .nil _
    · split at h
      · cases h; exact .nil _
      · split at h
        · exact ih h
        · split at h
          · exact ih h
          · split at h
            · cases h
            · dsimp only at h
              split at h
              · cases h; exact .clean (.nil _)
              · split at h
                · cases h
                · next hr => cases h; exact .clean (ih hr)

theorem finishCleanup_threads {m : Mach D C} {d0 d : D} {ev0 : List (Ev D)} {p : Pass D C}
    (h0 : Threads d0 ev0 d) (h : finishCleanup o m d ev0 = some p) :
    ∃ m' d' st ev, p = .ret m' d' st ev ∧ Threads d0 ev d' := by
  unfold finishCleanup at h
  split at h
  · cases h
  · next m1 d1 st1 ev1 hr =>
    have ht : Threads d ev1 d1 := by
      unfold runCleanup at hr
      split at hr
      · cases hr; exact .nil _
      · exact cleanLoop_threads _ hr
    split at h
    · cases h; exact ⟨_, _, _, _, rfl, threads_append h0 ht⟩
    · cases h; exact ⟨_, _, _, _, rfl, threads_append h0 ht⟩

theorem cleanCurrent_threads {id : Nat} {k k' : Kind D C} {d d' : D} {r : Option Status}
    {ev : List (Ev D)} (h : cleanCurrent o id k d = some (k', d', r, ev)) : Threads d ev d' := by
  unfold cleanCurrent at h
  split at h
  · split at h
    · split at h
      · cases h
      · cases h; exact .drain (.nil _)
    · cases h; exact .nil _
  · split at h
    · split at h
      · cases h
      · cases h; exact .drain (.nil _)
      · cases h; exact .drain (.nil _)
    · cases h; exact .nil _
  · cases h; exact .nil _

theorem cleanPass_threads {m : Mach D C} {s : Option (St D C)} {d : D} {p : Pass D C}
    (h : cleanPass o m s d = some p) : ∃ m' d' st ev, p = .ret m' d' st ev ∧ Threads d ev d' := by
  unfold cleanPass at h
  split at h
  · exact finishCleanup_threads (.nil _) h
  · split at h
    · cases h
    · next hc =>
      dsimp only at h
      have := cleanCurrent_threads hc
      split at h
      · cases h; exact ⟨_, _, _, _, rfl, this⟩
      · exact finishCleanup_threads this h

/-- The data a pass ends with. -/
def passData : Pass D C → D
  | .again _ d _ => d
  | .ret _ d _ _ => d

theorem advance_data (m : Mach D C) (s : St D C) (st : Status) (next : Nat) (sp : Bool) (d : D)
    (ev : List (Ev D)) : passData (advance m s st next sp d ev) = d := by
  have h1 : ∀ st, passData (goNext m s st next d ev) = d := by
    intro st
    unfold goNext
    dsimp only
    (repeat' split) <;> rfl
  have h2 : passData (goPrev m d ev) = d := by
    unfold goPrev
    (repeat' split) <;> rfl
  unfold advance
  split
  · exact h1 _
  · exact h1 _
  · split
    · rfl
    · exact h1 _
  · exact h2
  · rfl
  · split <;> rfl
  · rfl

theorem pass_threads {m : Mach D C} {d : D} {p : Pass D C} (h : pass o m d = some p) :
    Threads d (passEv p) (passData p) := by
  unfold pass at h
  split at h
  · obtain ⟨_, _, _, _, rfl, ht⟩ := cleanPass_threads h
    exact ht
  · split at h
    · obtain ⟨_, _, _, _, rfl, ht⟩ := cleanPass_threads h
      exact ht
    · dsimp only at h
      split at h
      · cases h
      · injection h with h
        rw [← h, advance_ev, advance_data]
        exact .visit (.nil _)

theorem loop_threads (n : Nat) : ∀ {m m' : Mach D C} {d d' : D} {st : Status} {ev : List (Ev D)},
    loop o n m d = some (m', d', st, ev) → Threads d ev d' := by
  induction n with
  | zero => intro m m' d d' st ev h; cases h
  | succ n ih =>
    intro m m' d d' st ev h
    unfold loop at h
    split at h
    · cases h
    · next hp =>
      cases h
      exact pass_threads hp
    · next hp =>
      split at h
      · cases h
      · next hr =>
        cases h
        exact threads_append (pass_threads hp) (ih hr)

/-! ## Interleaved machines -/

theorem waits_false {st : Status} (h : ¬ waits st = true) : ¬ Waits st := fun g => h (waits_iff.mpr g)

theorem liveSub_iff {s : Status} : liveSub s = true ↔ s = .none ∨ Waits s := by
  cases s <;> simp [liveSub, Waits]

theorem interRound_spec (na : Bool) : ∀ (cs : List (C × Status)) {d d' : D} {st st' : Status}
    {a a' : Bool} {cs' : List (C × Status)},
    interRound o na cs d st a = some (cs', d', st', a') →
    ∃ r, Round o.run na cs d cs' d' r ∧
      (∀ e, r = some e → st' = e ∧ a' = true ∧ na = false) ∧
      (r = none → a' = (a && cs'.all fun c => !waits c.2) ∧
        (na = false → (∀ c ∈ cs', ¬ Waits c.2) → (st = .done ∨ ∃ c ∈ cs, liveSub c.2 = true) →
          st' = .done)) := by
  intro cs
  induction cs with
  | nil =>
    intro d d' st st' a a' cs' h
    cases h
    refine ⟨none, .nil _, fun e he => (by cases he), fun _ => ⟨by simp, fun _ _ h => ?_⟩⟩
    rcases h with h | ⟨c, hc, _⟩
    · exact h
    · cases hc
  | cons x cs ih =>
    obtain ⟨c, s⟩ := x
    intro d d' st st' a a' cs' h
    unfold interRound at h
    split at h
    · next hlive =>
      split at h
      · cases h
      · next c1 d1 st1 hrun =>
        dsimp only at h
        split at h
        · next hstop =>
          cases h
          simp only [Bool.and_eq_true, Bool.not_eq_true', Bool.or_eq_false_iff, decide_eq_false_iff_not]
            at hstop
          refine ⟨some _, .stop (liveSub_iff.mp hlive) hrun hstop.1 hstop.2.1
            (fun hw => ?_), fun e he => ?_, fun he => (by cases he)⟩
          · have := hstop.2.2
            rw [waits_iff.mpr hw] at this
            cases this
          · cases he; exact ⟨rfl, rfl, hstop.1⟩
        · next hstop =>
          split at h
          · cases h
          · next cs1 r1 hrec =>
            obtain ⟨d2, st2, a2⟩ := r1
            cases h
            obtain ⟨r, h1, h2, h3⟩ := ih hrec
            have hgo : na = true ∨ st1 = .done ∨ Waits st1 := by
              cases na with
              | true => exact .inl rfl
              | false =>
                by_cases hd : st1 = .done
                · exact .inr (.inl hd)
                · right; right
                  apply waits_iff.mp
                  cases hw : waits st1 with
                  | true => rfl
                  | false => exact absurd (by simp [hd, hw]) hstop
            refine ⟨r, .run (liveSub_iff.mp hlive) hrun hgo h1, h2, fun hr => ?_⟩
            obtain ⟨h4, h5⟩ := h3 hr
            refine ⟨?_, fun hna hall _ => ?_⟩
            · rw [h4]
              cases hw : waits st1 <;> simp [hw]
            · refine h5 hna (fun c hc => hall c (List.mem_cons_of_mem _ hc)) (.inl ?_)
              rcases hgo with h | h | h
              · rw [hna] at h; cases h
              · exact h
              · exact absurd h (hall _ (List.mem_cons_self ..))
    · next hlive =>
      split at h
      · cases h
      · next cs1 r1 hrec =>
        obtain ⟨d2, st2, a2⟩ := r1
        cases h
        obtain ⟨r, h1, h2, h3⟩ := ih hrec
        have hnl : ¬ (s = .none ∨ Waits s) := fun h => hlive (liveSub_iff.mpr h)
        refine ⟨r, .idle (fun h => hnl (.inl h)) (fun h => hnl (.inr h)) h1, h2, fun hr => ?_⟩
        obtain ⟨h4, h5⟩ := h3 hr
        have hw : waits s = false := by
          cases hw : waits s with
          | true => exact absurd (.inr (waits_iff.mp hw)) hnl
          | false => rfl
        refine ⟨by rw [h4]; simp [hw], fun hna hall hh => ?_⟩
        refine h5 hna (fun c hc => hall c (List.mem_cons_of_mem _ hc)) ?_
        rcases hh with hh | ⟨c', hc', hl'⟩
        · exact .inl hh
        · rcases List.mem_cons.mp hc' with rfl | hc'
          · exact absurd hl' hlive
          · exact .inr ⟨c', hc', hl'⟩

theorem round_statuses {run : C → D → Option (C × D × Status)} {na : Bool} {cs cs' : List (C × Status)}
    {d d' : D} {r : Option Status} (h : Round run na cs d cs' d' r) (hr : r = none) (hna : na = false)
    (hs : ∀ c ∈ cs, c.2 = .none ∨ Waits c.2 ∨ c.2 = .done) : ∀ c ∈ cs', Waits c.2 ∨ c.2 = .done := by
  induction h with
  | nil => intro c hc; cases hc
  | idle h hw _ ih =>
    intro c hc
    rcases List.mem_cons.mp hc with rfl | hc
    · rcases hs _ (List.mem_cons_self ..) with g | g | g
      · exact absurd g h
      · exact absurd g hw
      · exact .inr g
    · exact ih hr (fun c hc => hs c (List.mem_cons_of_mem _ hc)) c hc
  | run _ _ hst _ ih =>
    intro c hc
    rcases List.mem_cons.mp hc with rfl | hc
    · rcases hst with g | g | g
      · rw [hna] at g; cases g
      · exact .inr g
      · exact .inl g
    · exact ih hr (fun c hc => hs c (List.mem_cons_of_mem _ hc)) c hc
  | stop => cases hr

theorem firstBad_spec : ∀ cs : List (C × Status),
    (∀ s ∈ cs.map (·.2), s = .done) ∧ firstBad cs = .done ∨
    ∃ a b, cs.map (·.2) = a ++ firstBad cs :: b ∧ (∀ s ∈ a, s = .done) ∧ firstBad cs ≠ .done
  | [] => .inl ⟨fun s hs => (by cases hs), rfl⟩
  | (c, s) :: cs => by
    unfold firstBad
    by_cases hd : s = .done
    · rw [if_pos hd]
      rcases firstBad_spec cs with ⟨h1, h2⟩ | ⟨a, b, h1, h2, h3⟩
      · refine .inl ⟨fun t ht => ?_, h2⟩
        rcases List.mem_cons.mp ht with rfl | ht
        · exact hd
        · exact h1 t ht
      · refine .inr ⟨s :: a, b, by rw [List.map_cons, h1]; rfl, fun t ht => ?_, h3⟩
        rcases List.mem_cons.mp ht with rfl | ht
        · exact hd
        · exact h2 t ht
    · rw [if_neg hd]
      exact .inr ⟨[], cs.map (·.2), rfl, fun t ht => (by cases ht), hd⟩

/-! ## Continuations -/

theorem conts_nodup (hl : fl.contLoop = false) {s : Skel D} {l : List (Ev D)}
    (h : Works fl reason ss s l) : ∀ e past, l = e :: past →
      (contsSince past).Nodup ∧ (∀ x ∈ contsSince past, ∃ t ∈ ss, t.id = x) ∧
      (∀ id, afterEv fl ss past s e = .goto id → (contsSince (e :: past)).Nodup ∧
        ∀ x ∈ contsSince (e :: past), ∃ t ∈ ss, t.id = x) ∧
      (afterEv fl ss past s e = .stay → contsSince (e :: past) = []) := by
  have key : ∀ {s : Skel D} {e : Ev D} {past : List (Ev D)}, Visit fl reason ss past s e →
      (contsSince past).Nodup → (∀ x ∈ contsSince past, ∃ t ∈ ss, t.id = x) →
      (∀ id, afterEv fl ss past s e = .goto id → (contsSince (e :: past)).Nodup ∧
        ∀ x ∈ contsSince (e :: past), ∃ t ∈ ss, t.id = x) ∧
      (afterEv fl ss past s e = .stay → contsSince (e :: past) = []) := by
    intro s e past hv hn hm
    obtain ⟨_, dflt, sub, st, next, d, d', rfl, _, _⟩ := hv
    by_cases hc : st = .cont
    · subst hc
      have hmv : afterEv fl ss past s (.visit s.id dflt sub .cont next d d') =
          move fl ss past s .cont next := rfl
      rw [hmv]
      unfold move
      constructor
      · intro id hid
        split at hid
        · split at hid <;> cases hid
        · split at hid
          · cases hid
          · split at hid
            · cases hid
            · next hnot =>
              split at hid
              · cases hid
              · split at hid
                · next hmem =>
                  have hcs : contsSince (.visit s.id dflt sub .cont next d d' :: past) =
                      next :: contsSince past := rfl
                  rw [hcs]
                  refine ⟨List.nodup_cons.mpr ⟨fun hin => hnot ⟨rfl, hl, hin⟩, hn⟩, fun x hx => ?_⟩
                  rcases List.mem_cons.mp hx with rfl | hx
                  · exact hmem
                  · exact hm x hx
                · cases hid
      · intro hid
        (repeat' split at hid) <;> cases hid
    · by_cases hpv : st = .prev
      · subst hpv
        have hcs : contsSince (.visit s.id dflt sub .prev next d d' :: past) = contsSince past := rfl
        rw [hcs]
        refine ⟨fun _ _ => ⟨hn, hm⟩, fun hid => ?_⟩
        simp only [afterEv, after] at hid
        split at hid <;> cases hid
      · have hcs : contsSince (.visit s.id dflt sub st next d d' :: past) = [] := by
          unfold contsSince
          split
          · next h => cases h; exact absurd rfl hc
          · next h => cases h; exact absurd rfl hpv
          · rfl
        rw [hcs]
        exact ⟨fun _ _ => ⟨List.nodup_nil, fun x hx => (by cases hx)⟩, fun _ => rfl⟩
  induction h with
  | first h hv =>
    intro e past he
    cases he
    have h1 : (contsSince ([] : List (Ev D))).Nodup := List.nodup_nil
    have h2 : ∀ x ∈ contsSince ([] : List (Ev D)), ∃ t ∈ ss, t.id = x := fun x hx => by cases hx
    exact ⟨h1, h2, key hv h1 h2⟩
  | @stay s0 s1 e0 e1 past0 h ht hs hv ih =>
    intro e past he
    cases he
    have h3 := (ih _ _ rfl).2.2.2 ht
    have h1 : (contsSince (e0 :: past0)).Nodup := by rw [h3]; exact List.nodup_nil
    have h2 : ∀ x ∈ contsSince (e0 :: past0), ∃ t ∈ ss, t.id = x := by
      rw [h3]; intro x hx; cases hx
    exact ⟨h1, h2, key hv h1 h2⟩
  | goto h ht hv ih =>
    intro e past he
    cases he
    obtain ⟨h1, h2⟩ := (ih _ _ rfl).2.2.1 _ ht
    exact ⟨h1, h2, key hv h1 h2⟩

theorem length_le_of_nodup_subset : ∀ {l k : List Nat}, l.Nodup → (∀ x ∈ l, x ∈ k) → l.length ≤ k.length
  | [], _, _, _ => Nat.zero_le _
  | x :: l, k, hn, hs => by
    obtain ⟨h1, h2⟩ := List.nodup_cons.mp hn
    have hx := hs x (List.mem_cons_self ..)
    have := length_le_of_nodup_subset (k := k.erase x) h2 fun y hy =>
      (List.mem_erase_of_ne (fun e => h1 (by rw [← e]; exact hy))).mpr (hs y (List.mem_cons_of_mem _ hy))
    rw [List.length_erase_of_mem hx] at this
    have : 0 < k.length := List.length_pos_of_mem hx
    simp only [List.length_cons]
    omega

theorem conts_skips : ∀ (a : List (Ev D)) (past : List (Ev D)),
    (∀ e ∈ a, ∃ id dflt sub next d d', e = .visit id dflt sub .cont next d d') →
    a.length ≤ (contsSince (a ++ past)).length
  | [], _, _ => Nat.zero_le _
  | e :: a, past, h => by
    obtain ⟨id, dflt, sub, next, d, d', rfl⟩ := h e (List.mem_cons_self ..)
    have := conts_skips a past fun e he => h e (List.mem_cons_of_mem _ he)
    simp only [List.cons_append, contsSince, List.length_cons]
    omega

/-! ## Resets -/

theorem resetCurrent_idle (r : Reason) {m : Mach D C} {s : St D C} (hn : (m.states.map (·.id)).Nodup)
    (hs : s ∈ m.states) (hi : ∀ t ∈ m.states, active o t.kind = false) :
    (resetCurrent o r m s).states.map skel = m.states.map skel ∧
    (∀ t ∈ (resetCurrent o r m s).states, active o t.kind = false) ∧
    (resetCurrent o r m s).flags = m.flags ∧ (resetCurrent o r m s).preason = m.preason ∧
    (resetCurrent o r m s).cleanupIds = m.cleanupIds ∧ (resetCurrent o r m s).seen = m.seen ∧
    (resetCurrent o r m s).cur = m.cur := by
  have hlast : ∀ x : Mach D C, (match m.cleanupIds with
      | [] => m
      | id :: _ => { m with states := putSt m.states id fun t => { t with
                       cleanup := t.cleanup.map (o.reset · r) } } : Mach D C) = x →
      x.states.map skel = m.states.map skel ∧ (∀ t ∈ x.states, active o t.kind = false) ∧
      x.flags = m.flags ∧ x.preason = m.preason ∧ x.cleanupIds = m.cleanupIds ∧ x.seen = m.seen ∧
      x.cur = m.cur := by
    intro x hx
    subst hx
    split
    · exact ⟨rfl, hi, rfl, rfl, rfl, rfl, rfl⟩
    · refine ⟨map_putSt skel fun t _ _ => by simp [skel], ?_, rfl, rfl, rfl, rfl, rfl⟩
      intro t ht
      obtain ⟨u, hu, ⟨_, rfl⟩ | ⟨_, rfl⟩⟩ := mem_putSt ht
      · exact hi _ hu
      · exact hi u hu
  unfold resetCurrent
  dsimp only
  split
  · next c pre post hk =>
    have h0 := hi s hs
    rw [hk] at h0
    simp only [active] at h0
    rw [if_neg (by rw [h0]; simp)]
    exact hlast _ rfl
  · next cs pre post irun hk =>
    refine ⟨map_putSt skel fun t ht hti => ?_, ?_, rfl, rfl, rfl, rfl, rfl⟩
    · have : t = s := eq_of_nodup hn ht hs hti
      subst this
      simp [skel, hk, kskel]
    · intro t ht
      obtain ⟨u, hu, ⟨_, rfl⟩ | ⟨_, rfl⟩⟩ := mem_putSt ht
      · exact hi _ hu
      · rfl
  · exact hlast _ rfl

theorem reset_clean (hl : Lawful o ok) {r : Reason} (hr : r ≠ .none) {m : Mach D C} {past : List (Ev D)}
    (hi : WorkInv o ok fl reason ss m past) (hb : busy past = false)
    (hf : findSt m.states m.cur ≠ none) :
    CleanInv o ok fl reason ss (reset o m r) .done (cleanups fl ss past) := by
  have hidle : ∀ t ∈ m.states, active o t.kind = false := fun t ht => by
    rw [hi.act t ht, hb, Bool.and_false]
  unfold reset
  rw [if_neg (by rw [hi.running]; simp)]
  split
  · next h => exact absurd h hf
  · next s hs =>
    obtain ⟨h1, h2, h3, h4, h5, h6, h7⟩ := resetCurrent_idle r hi.nodup (findSt_some hs).1 hidle
    have hk := ok_resetCurrent hl r (findSt_some hs).1 hi.okk
    have hrun := resetCurrent_frame (o := o) r m s
    dsimp only
    rw [if_neg hr]
    exact
      { flags := h3.trans hi.flags
        preason := h4.trans hi.preason
        skels := h1.trans hi.skels
        nodup := nodup_of_skels h1 hi.nodup
        running := hrun.trans hi.running
        ret1 := fun h => absurd ((find_isSome_of_skels h1 _).mp (by rw [← h7]; exact h)) hf
        ret2 := fun _ => ⟨rfl, hr⟩
        fin := by simp [Final]
        todo := by
          show todo _ _ (resetCurrent o r m s).seen (resetCurrent o r m s).cleanupIds = _
          rw [h5, h6, hi.seen, hi.ids, todo_cleanups hi.plain]
        nonzero := by
          show ∀ x ∈ (resetCurrent o r m s).cleanupIds, _
          rw [h5, hi.ids]; exact hi.nonzero
        okk := hk
        idle := h2 }

theorem reset_none {m : Mach D C} {past : List (Ev D)} (hl : Lawful o ok)
    (hi : WorkInv o ok fl reason ss m past) (hb : busy past = false)
    (hf : findSt m.states m.cur ≠ none) : Over o ok fl reason ss (reset o m .none) := by
  have hidle : ∀ t ∈ m.states, active o t.kind = false := fun t ht => by
    rw [hi.act t ht, hb, Bool.and_false]
  unfold reset
  rw [if_neg (by rw [hi.running]; simp)]
  split
  · next h => exact absurd h hf
  · next s hs =>
    obtain ⟨h1, h2, h3, h4, h5, h6, h7⟩ := resetCurrent_idle (o := o) .none hi.nodup (findSt_some hs).1 hidle
    have hk := ok_resetCurrent hl .none (findSt_some hs).1 hi.okk
    dsimp only
    rw [if_pos rfl]
    exact ⟨h3.trans hi.flags, h4.trans hi.preason, h1.trans hi.skels, rfl, hk, h2⟩

/-- A machine that is being cleaned up goes on with that until it is over. -/
theorem session_clean (hl : Lawful o ok) (hne : ss ≠ []) {m m' : Mach D C} {st : Status}
    {tr : List (Ev D)} (h : Session o m m' st tr) : ∀ {ret : Status} {L : List Nat},
    CleanInv o ok fl reason ss m ret L → Smooth fl tr →
    CleanOut o ok fl reason ss ret L m' st tr := by
  have hst : ∀ {l : List (St D C)}, l.map skel = ss → l ≠ [] := by
    intro l hl he
    subst he
    exact hne hl.symm
  induction h with
  | one h =>
    intro ret L hi hsm
    rw [run_running hi.running (hst hi.skels)] at h
    exact loop_clean hl hi hsm h
  | more h hw hs ih =>
    intro ret L hi hsm
    rw [run_running hi.running (hst hi.skels)] at h
    have h1 := loop_clean hl hi (fun h1 e he => hsm h1 e (List.mem_append_left _ he)) h
    rcases h1 with ⟨e, _, h1⟩ | ⟨_, h2, rest, h3, h4, h5, h6⟩
    · rw [e] at hw; exact absurd hw (final_not_Waits hi.fin)
    · rcases ih h6 (smooth_right hsm) with ⟨e, g1, g2⟩ | ⟨g0, g1, rest', g2, g3, g4, g5⟩
      · exact .inl ⟨e, cleans_trans h4 g1, g2⟩
      · exact .inr ⟨g0, g1, rest', g2, cleans_trans h4 g3, lastStatus_append g4, g5⟩

theorem over_ready {m m' : Mach D C} (hr : Ready o m)
    (h : Over o ok m.flags m.preason (m.states.map skel) m') : Ready o m' where
  nodup := nodup_of_skels h.skels hr.nodup
  nonzero := by
    intro s hs
    have : skel s ∈ m.states.map skel := by rw [← h.skels]; exact List.mem_map.mpr ⟨s, hs, rfl⟩
    obtain ⟨t, ht, he⟩ := List.mem_map.mp this
    have : t.id = s.id := congrArg Skel.id he
    rw [← this]; exact hr.nonzero t ht
  nonempty := by
    intro he
    have := h.skels
    rw [he] at this
    exact hr.nonempty (by simpa using this.symm)
  idle := h.idle
  stopped := h.running

end Verif.StateMachine
