import Verif.StateMachine.OkLemmas

/-!
# The cleanup phase of a machine
-/

namespace Verif.StateMachine
open Spec

variable {D C : Type} {o : Ops D C} {ok : C → Prop}

theorem firsts_filter (p : Nat → Bool) (l : List Nat) :
    firsts (l.filter p) = (firsts l).filter p := by
  induction l with
  | nil => rfl
  | cons x xs ih =>
    by_cases hx : p x = true
    · rw [List.filter_cons_of_pos hx, firsts, firsts, List.filter_cons_of_pos hx, ih,
        List.filter_filter, List.filter_filter]
      congr 1
      refine List.filter_congr fun y _ => ?_
      rw [Bool.and_comm]
    · rw [List.filter_cons_of_neg hx, firsts, List.filter_cons_of_neg hx, ih, List.filter_filter]
      refine List.filter_congr fun y _ => ?_
      by_cases hy : p y = true
      · have : y ≠ x := fun h => hx (h ▸ hy)
        simp [hy, this]
      · simp [hy]

theorem has_iff {ss : List (St D C)} (hn : (ss.map (·.id)).Nodup) (id : Nat) :
    hasCleanup (ss.map skel) id = ((findSt ss id).bind (·.cleanup)).isSome := by
  cases hf : findSt ss id with
  | none =>
    have := findSt_none hf
    simp only [hasCleanup, List.any_map, Option.bind_none, Option.isSome_none]
    rw [List.any_eq_false]
    intro s hs
    simp [Function.comp, skel, this s hs]
  | some s =>
    obtain ⟨hs, hi⟩ := findSt_some hf
    simp only [hasCleanup, List.any_map, Option.bind_some]
    cases hc : s.cleanup with
    | none =>
      simp only [Option.isSome_none]
      rw [List.any_eq_false]
      intro t ht
      simp only [Function.comp, skel, Bool.and_eq_true, decide_eq_true_eq, not_and]
      intro hti
      have hti' : t.id = id := of_decide_eq_true hti
      have := eq_of_nodup hn ht hs (hti'.trans hi.symm)
      subst this
      simp [hc]
    | some c =>
      simp only [Option.isSome_some, List.any_eq_true]
      exact ⟨s, hs, by simp [skel, hi, hc]⟩

/-- The cleanups still to be run, in order. -/
def todo (one : Bool) (has : Nat → Bool) (seen ids : List Nat) : List Nat :=
  if one then (firsts (ids.filter fun x => !seen.contains x)).filter has else ids.filter has

theorem todo_nil (one : Bool) (has : Nat → Bool) (seen : List Nat) : todo one has seen [] = [] := by
  unfold todo; split <;> rfl

theorem todo_seen {has : Nat → Bool} {seen rest : List Nat} {id : Nat} (h : seen.contains id = true) :
    todo true has seen (id :: rest) = todo true has seen rest := by
  simp only [todo, if_true]
  rw [List.filter_cons_of_neg (by simp only [h]; decide)]

theorem todo_new {has : Nat → Bool} {seen rest : List Nat} {id : Nat} (h : seen.contains id = false) :
    todo true has seen (id :: rest) =
      if has id then id :: todo true has (id :: seen) rest else todo true has (id :: seen) rest := by
  simp only [todo, if_true]
  rw [List.filter_cons_of_pos (by simp only [h]; decide), firsts]
  have e : (firsts (rest.filter fun x => !seen.contains x)).filter (· ≠ id) =
      firsts (rest.filter fun x => !(id :: seen).contains x) := by
    rw [← firsts_filter, List.filter_filter]
    congr 1
    refine List.filter_congr fun y _ => ?_
    by_cases hy : y = id <;> simp [hy]
  rw [e]
  split
  · next hh => rw [List.filter_cons_of_pos hh]
  · next hh => rw [List.filter_cons_of_neg hh]

theorem todo_many {has : Nat → Bool} {seen rest : List Nat} {id : Nat} :
    todo false has seen (id :: rest) =
      if has id then id :: todo false has seen rest else todo false has seen rest := by
  simp only [todo, Bool.false_eq_true, if_false]
  split
  · next hh => rw [List.filter_cons_of_pos hh]
  · next hh => rw [List.filter_cons_of_neg hh]

theorem todo_seen_irrel {has : Nat → Bool} {seen seen' ids : List Nat} :
    todo false has seen ids = todo false has seen' ids := rfl

theorem nodup_of_skels {ss ss' : List (St D C)} (h : ss'.map skel = ss.map skel)
    (hn : (ss.map (·.id)).Nodup) : (ss'.map (·.id)).Nodup := by
  have e : ∀ l : List (St D C), l.map (·.id) = (l.map skel).map (·.id) := fun l => by
    rw [List.map_map]; rfl
  rw [e, h, ← e]; exact hn

/-- What the cleanup loop does. -/
def CleanRes (fl : Flags) (has : Nat → Bool) (L : List Nat) (m' : Mach D C) (st : Status)
    (ev : List (Ev D)) : Prop :=
  (st = .done ∧ Cleans L ev []) ∨
  (Waits st ∧ fl.oneCleanup = false ∧ ∃ rest, rest ≠ [] ∧ Cleans L ev rest ∧
    todo false has m'.seen m'.cleanupIds = rest ∧ LastStatus ev st ∧ ∀ x ∈ m'.cleanupIds, x ≠ 0)

theorem lastStatus_cons {e : Ev D} {ev : List (Ev D)} {st : Status} (h : LastStatus ev st) :
    LastStatus (e :: ev) st := by
  rcases h with ⟨a, id, dflt, sub, next, d, d', rfl⟩ | ⟨a, id, d, d', rfl⟩
  · exact .inl ⟨e :: a, id, dflt, sub, next, d, d', rfl⟩
  · exact .inr ⟨e :: a, id, d, d', rfl⟩

theorem cleanLoop_spec (hl : Lawful o ok) (n : Nat) : ∀ {m : Mach D C} {d : D} {m' : Mach D C} {d' : D}
    {st : Status} {ev : List (Ev D)}, (∀ s ∈ m.states, OkSt ok s) → (m.states.map (·.id)).Nodup →
    m.cleanupIds.length ≤ n → (∀ x ∈ m.cleanupIds, x ≠ 0) → Smooth m.flags ev →
    cleanLoop o n m d = some (m', d', st, ev) →
    CleanRes m.flags (hasCleanup (m.states.map skel))
      (todo m.flags.oneCleanup (hasCleanup (m.states.map skel)) m.seen m.cleanupIds) m' st ev := by
  induction n with
  | zero =>
    intro m d m' d' st ev hk hn hlen hz hg h
    simp only [cleanLoop, Option.some.injEq, Prod.mk.injEq] at h
    obtain ⟨rfl, rfl, rfl, rfl⟩ := h
    have : m.cleanupIds = [] := List.length_eq_zero_iff.mp (by omega)
    rw [this, todo_nil]
    exact .inl ⟨rfl, .nil _⟩
  | succ n ih =>
    intro m d m' d' st ev hk hn hlen hz hg h
    simp only [cleanLoop] at h
    cases hc : m.cleanupIds with
    | nil =>
      simp only [hc, Option.some.injEq, Prod.mk.injEq] at h
      obtain ⟨rfl, rfl, rfl, rfl⟩ := h
      rw [todo_nil]
      exact .inl ⟨rfl, .nil _⟩
    | cons id rest =>
      have hlen' : rest.length ≤ n := by rw [hc] at hlen; simpa using hlen
      have hz' : ∀ x ∈ rest, x ≠ 0 := fun x hx => hz x (by rw [hc]; simp [hx])
      simp only [hc] at h
      rw [if_neg (hz id (by rw [hc]; simp))] at h
      by_cases hone : m.flags.oneCleanup = true ∧ m.seen.contains id = true
      · rw [if_pos (by simp only [hone.1, hone.2]; decide)] at h
        have := ih (m := { m with cleanupIds := rest }) hk hn hlen' hz' hg h
        rw [hone.1, todo_seen hone.2]
        rw [show ({ m with cleanupIds := rest } : Mach D C).flags.oneCleanup = true from hone.1] at this
        exact this
      · rw [if_neg (by simpa using hone)] at h
        -- the machine with the id marked as seen
        have hmark : todo m.flags.oneCleanup (hasCleanup (m.states.map skel)) m.seen (id :: rest) =
            if hasCleanup (m.states.map skel) id then
              id :: todo m.flags.oneCleanup (hasCleanup (m.states.map skel))
                (markSeen { m with cleanupIds := rest } id).seen rest
            else todo m.flags.oneCleanup (hasCleanup (m.states.map skel))
                (markSeen { m with cleanupIds := rest } id).seen rest := by
          cases ho : m.flags.oneCleanup with
          | true =>
            have hs : m.seen.contains id = false := by
              cases hs : m.seen.contains id with
              | true => exact absurd ⟨ho, hs⟩ hone
              | false => rfl
            rw [todo_new hs]
            simp only [markSeen, ho, if_true]
          | false =>
            rw [todo_many]
            simp only [markSeen, ho, Bool.false_eq_true, if_false]
        rw [hmark]
        have hfl : (markSeen { m with cleanupIds := rest } id).flags = m.flags :=
          (frame_mark { m with cleanupIds := rest } id).flags
        have hst : (markSeen { m with cleanupIds := rest } id).states = m.states := states_mark _ id
        have hid : (markSeen { m with cleanupIds := rest } id).cleanupIds = rest := ids_mark _ id
        generalize markSeen { m with cleanupIds := rest } id = m1 at h hfl hst hid ⊢
        have hhas := has_iff hn id
        split at h
        · next hnone =>
          rw [hhas, hnone]
          simp only [Option.isSome_none, Bool.false_eq_true, if_false]
          have := ih (m := m1) (by rw [hst]; exact hk) (by rw [hst]; exact hn) (by rw [hid]; exact hlen')
            (by rw [hid]; exact hz') (by rw [hfl]; exact hg) h
          rw [hfl, hst, hid] at this
          exact this
        · next c hsome =>
          rw [hhas, hsome]
          simp only [Option.isSome_some, if_true]
          split at h
          · cases h
          · next c' d1 st1 hr =>
            obtain ⟨s, hs, _, hsc⟩ := find_cleanup hsome
            have hck := (hl.setReason m.reason ((hk s hs).1 c hsc)).1
            obtain ⟨hck', hfin⟩ := hl.run hck hr
            have hk1 : ∀ s ∈ (afterClean o m1 id c').states, OkSt ok s :=
              ok_afterClean hl (by rw [hst]; exact hk) id hck'
            have hf1 := frame_after o m1 id c'
            have hsk : (afterClean o m1 id c').states.map skel = m.states.map skel := by
              rw [hf1.skels, hst]
            have hseen : (afterClean o m1 id c').seen = m1.seen := rfl
            have hcid : (afterClean o m1 id c').cleanupIds = rest := hid
            have hfl2 : (afterClean o m1 id c').flags = m.flags := by rw [hf1.flags, hfl]
            generalize afterClean o m1 id c' = m2 at h hk1 hsk hseen hcid hfl2
            rcases hfin with ⟨hw, _⟩ | ⟨hff, _⟩
            · rw [if_pos (unfinished_waits hw)] at h
              simp only [Option.some.injEq, Prod.mk.injEq] at h
              obtain ⟨rfl, rfl, rfl, rfl⟩ := h
              have ho : m.flags.oneCleanup = false := by
                cases ho : m.flags.oneCleanup with
                | false => rfl
                | true =>
                  have := hg ho (.clean id st1 d d1) (by simp) id st1 d d1 rfl
                  subst this
                  rcases hw with h | h <;> cases h
              rw [ho]
              refine .inr ⟨hw, ho, _, ?_, .wait hw (.nil _), ?_, .inr ⟨[], id, d, d1, rfl⟩, ?_⟩
              · simp
              · show todo false _ m2.seen (id :: rest) = _
                rw [todo_many, hhas, hsome]
                rfl
              · intro x hx
                exact hz x (by rw [hc]; exact hx)
            · rw [if_neg (by rw [unfinished_final hff]; decide)] at h
              split at h
              · cases h
              · next m3 d3 st3 ev3 hrec =>
                simp only [Option.some.injEq, Prod.mk.injEq] at h
                obtain ⟨rfl, rfl, rfl, rfl⟩ := h
                have hg' : Smooth m.flags ev3 := fun ho e he => hg ho e (by simp [he])
                have hm3 : ∃ m4 : Mach D C, (if st1 = .done then m2 else unmarkSeen m2 id) = m4 ∧
                    m4.states = m2.states ∧ m4.flags = m2.flags ∧ m4.cleanupIds = m2.cleanupIds ∧
                    (m.flags.oneCleanup = true → m4.seen = m2.seen) := by
                  by_cases hd : st1 = .done
                  · rw [if_pos hd]; exact ⟨_, rfl, rfl, rfl, rfl, fun _ => rfl⟩
                  · rw [if_neg hd]
                    refine ⟨_, rfl, states_unmark _ _, (frame_unmark _ _).flags, ids_unmark _ _, ?_⟩
                    intro ho
                    exact absurd (hg ho (.clean id st1 d d1) (by simp) id st1 d d1 rfl) hd
                obtain ⟨m4, e4, s4, f4, i4, n4⟩ := hm3
                rw [e4] at hrec
                have := ih (m := m4) (by rw [s4]; exact hk1)
                  (by rw [s4]; exact nodup_of_skels hsk hn) (by rw [i4, hcid]; exact hlen')
                  (by rw [i4, hcid]; exact hz') (by rw [f4, hfl2]; exact hg') hrec
                rw [f4, hfl2, s4, hsk, i4, hcid] at this
                have ht : todo m.flags.oneCleanup (hasCleanup (m.states.map skel)) m4.seen rest =
                    todo m.flags.oneCleanup (hasCleanup (m.states.map skel)) m1.seen rest := by
                  cases ho : m.flags.oneCleanup with
                  | false => rfl
                  | true => rw [n4 ho, hseen]
                rw [ht] at this
                rcases this with ⟨a, b⟩ | ⟨a, b, rs, c1, c2, c3, c4, c5⟩
                · exact .inl ⟨a, .over hff b⟩
                · exact .inr ⟨a, b, rs, c1, .over hff c2, c3, lastStatus_cons c4, c5⟩

/-! ## The invariant of a machine that is being cleaned up -/

/-- A machine that is being cleaned up, has the cleanups `L` to run and will then return `ret`. -/
structure CleanInv (o : Ops D C) (ok : C → Prop) (fl : Flags) (reason : Reason) (ss : List (Skel D))
    (m : Mach D C) (ret : Status) (L : List Nat) : Prop where
  flags : m.flags = fl
  preason : m.preason = reason
  skels : m.states.map skel = ss
  nodup : (m.states.map (·.id)).Nodup
  running : m.running = true
  ret1 : findSt m.states m.cur = none → ret = .errBadId
  ret2 : findSt m.states m.cur ≠ none → m.ret = ret ∧ m.reason ≠ .none
  fin : Final ret
  todo : todo fl.oneCleanup (hasCleanup ss) m.seen m.cleanupIds = L
  nonzero : ∀ x ∈ m.cleanupIds, x ≠ 0
  okk : ∀ s ∈ m.states, OkSt ok s
  idle : ∀ s ∈ m.states, active o s.kind = false

/-- A machine that is over: it can be run again. -/
structure Over (o : Ops D C) (ok : C → Prop) (fl : Flags) (reason : Reason) (ss : List (Skel D))
    (m : Mach D C) : Prop where
  flags : m.flags = fl
  preason : m.preason = reason
  skels : m.states.map skel = ss
  running : m.running = false
  okk : ∀ s ∈ m.states, OkSt ok s
  idle : ∀ s ∈ m.states, active o s.kind = false

theorem putSt_self {ss : List (St D C)} (hn : (ss.map (·.id)).Nodup) {s : St D C} (hs : s ∈ ss) :
    putSt ss s.id (fun t => { t with kind := s.kind }) = ss := by
  unfold putSt
  conv => rhs; rw [← List.map_id ss]
  refine List.map_congr_left fun t ht => ?_
  split
  · next h => rw [eq_of_nodup hn ht hs h]; rfl
  · rfl

theorem cleanCurrent_idle {id : Nat} {k : Kind D C} {d : D} (h : active o k = false) :
    cleanCurrent o id k d = some (k, d, none, []) := by
  unfold cleanCurrent
  cases k with
  | func f => rfl
  | clean f => rfl
  | sub c pre post =>
    simp only [active] at h
    simp [h]
  | inter cs pre post irun =>
    simp only [active] at h
    simp [h]

theorem idle_of_kinds {m m' : Mach D C} (h : ∀ s ∈ m.states, active o s.kind = false)
    (hk : m'.states.map (fun s => (s.id, s.kind)) = m.states.map (fun s => (s.id, s.kind))) :
    ∀ s ∈ m'.states, active o s.kind = false := by
  intro s hs
  have : (s.id, s.kind) ∈ m.states.map (fun s => (s.id, s.kind)) := by
    rw [← hk]; exact List.mem_map.mpr ⟨s, hs, rfl⟩
  obtain ⟨t, ht, he⟩ := List.mem_map.mp this
  have : t.kind = s.kind := (Prod.mk.inj he).2
  rw [← this]; exact h t ht

/-- What a pass over a machine that is being cleaned up results in. -/
def CleanOut (o : Ops D C) (ok : C → Prop) (fl : Flags) (reason : Reason) (ss : List (Skel D))
    (ret : Status) (L : List Nat) (m' : Mach D C) (st : Status) (ev : List (Ev D)) : Prop :=
  (st = ret ∧ Cleans L ev [] ∧ Over o ok fl reason ss m') ∨
  (Waits st ∧ fl.oneCleanup = false ∧ ∃ rest, rest ≠ [] ∧ Cleans L ev rest ∧ LastStatus ev st ∧
    CleanInv o ok fl reason ss m' ret rest)

theorem find_isSome_of_skels {a b : List (St D C)} (h : a.map skel = b.map skel) (id : Nat) :
    findSt a id = none ↔ findSt b id = none := by
  have e : ∀ l : List (St D C), findSt l id = none ↔ ∀ t ∈ l.map skel, t.id ≠ id := by
    intro l
    constructor
    · intro hl t ht
      obtain ⟨s, hs, rfl⟩ := List.mem_map.mp ht
      exact findSt_none hl s hs
    · intro hl
      refine List.find?_eq_none.mpr fun s hs => ?_
      have := hl _ (List.mem_map.mpr ⟨s, hs, rfl⟩)
      simpa [skel] using this
  rw [e, e, h]

theorem finishCleanup_spec (hl : Lawful o ok) {fl : Flags} {reason : Reason} {ss : List (Skel D)}
    {m : Mach D C} {ret : Status} {L : List Nat} {d : D} {p : Pass D C}
    (hi : CleanInv o ok fl reason ss m ret L) (hr : m.ret = ret) (hn : m.reason ≠ .none)
    (hg : ∀ m' d' st ev, p = .ret m' d' st ev → Smooth fl ev)
    (h : finishCleanup o m d [] = some p) :
    ∃ m' d' st ev, p = .ret m' d' st ev ∧ CleanOut o ok fl reason ss ret L m' st ev := by
  unfold finishCleanup at h
  split at h
  · cases h
  · next m' d' st ev hc =>
    rw [runCleanup, if_neg hn] at hc
    obtain ⟨f, k, _⟩ := cleanLoop_ok hl _ hi.okk hc
    have hidle := idle_of_kinds hi.idle f.kinds
    have hsk : m'.states.map skel = ss := by rw [f.skels, hi.skels]
    have main : Smooth fl ev → CleanRes fl (hasCleanup ss) L m' st ev := by
      intro hsm
      have := cleanLoop_spec hl _ hi.okk hi.nodup (Nat.le_refl _) hi.nonzero
        (by rw [hi.flags]; exact hsm) hc
      rw [hi.flags, hi.skels, hi.todo] at this
      exact this
    split at h
    · next hw =>
      cases h
      refine ⟨m', d', st, _, rfl, ?_⟩
      rcases main (hg _ _ _ _ rfl) with ⟨rfl, _⟩ | ⟨a, b, rest, c1, c2, c3, c4, c5⟩
      · cases hw
      · refine .inr ⟨a, b, rest, c1, c2, c4, ?_⟩
        exact
          { flags := by rw [f.flags, hi.flags]
            preason := by rw [f.preason, hi.preason]
            skels := hsk
            nodup := nodup_of_skels f.skels hi.nodup
            running := by rw [f.running, hi.running]
            ret1 := fun hh => hi.ret1 (by
              rw [f.cur] at hh
              exact (find_isSome_of_skels f.skels _).mp hh)
            ret2 := fun _ => ⟨by rw [f.ret, hr], by rw [f.reason]; exact hn⟩
            fin := hi.fin
            todo := by rw [b]; exact c3
            nonzero := c5
            okk := k
            idle := hidle }
    · next hw =>
      cases h
      refine ⟨_, d', _, _, rfl, ?_⟩
      rcases main (hg _ _ _ _ rfl) with ⟨rfl, c⟩ | ⟨a, _⟩
      · refine .inl ⟨by rw [f.ret, hr], c, ?_⟩
        exact
          { flags := by show m'.flags = _; rw [f.flags, hi.flags]
            preason := by show m'.preason = _; rw [f.preason, hi.preason]
            skels := hsk
            running := rfl
            okk := k
            idle := hidle }
      · exact absurd (waits_iff.mpr a) hw

theorem cleanPass_spec (hl : Lawful o ok) {fl : Flags} {reason : Reason} {ss : List (Skel D)}
    {m : Mach D C} {ret : Status} {L : List Nat} {d : D} {p : Pass D C}
    (hi : CleanInv o ok fl reason ss m ret L)
    (hg : ∀ m' d' st ev, p = .ret m' d' st ev → Smooth fl ev)
    (h : pass o m d = some p) :
    ∃ m' d' st ev, p = .ret m' d' st ev ∧ CleanOut o ok fl reason ss ret L m' st ev := by
  unfold pass at h
  split at h
  · next hf =>
    have hi' : CleanInv o ok fl reason ss (fail m .errBadId) ret L :=
      { hi with ret2 := fun hh => absurd hf hh }
    exact finishCleanup_spec hl hi' (hi.ret1 hf).symm (by simp [fail]) hg h
  · next s hs =>
    obtain ⟨r1, r2⟩ := hi.ret2 (by rw [hs]; simp)
    rw [if_pos r2] at h
    simp only [cleanPass] at h
    rw [cleanCurrent_idle (hi.idle s (findSt_some hs).1)] at h
    dsimp only at h
    rw [putSt_self hi.nodup (findSt_some hs).1] at h
    exact finishCleanup_spec hl hi r1 r2 hg h

end Verif.StateMachine
