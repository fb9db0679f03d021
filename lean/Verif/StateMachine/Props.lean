import Verif.StateMachine.MoreLemmas

/-!
# State machines: what is proved

`m` is any machine as the user built it, over any user data and any callbacks; its children (cleanup
machines, sub machines, interleaved machines) are only assumed to be `Lawful`, which machines of
every nesting depth are.  `Session` runs the machine again and again while it returns WAIT or PAUSE.
-/

namespace Verif.StateMachine
open Spec

variable {D C : Type} {o : Ops D C} {ok : C → Prop}

/-- Whatever the callbacks do, the states are visited as documented: the first one first, then where
the status and `*next` of each visit lead (linear or explicit order, allowed transitions, PREV back
over the states that succeeded, CONTINUE at most once into each state), WAIT and PAUSE return to the
caller and are taken up where they were left; once a visit finishes the machine no state is visited
any more, the cleanups that are due are run in reverse order, each until it is over, and the status
that finished the machine is returned.  Then the machine is ready to be run again.

Partial: the code departs from its documentation at the places excluded by `Plain`, `Smooth` and
`Reported`, see the `_fails` theorems in `Witness.lean`. -/
theorem session_partial (hl : Lawful o ok) {m m' : Mach D C} {st : Status} {tr : List (Ev D)}
    (hr : Ready o m) (hk : OkM ok m) (hp : ∀ e ∈ tr, Plain (m.states.map skel) e)
    (hs : Smooth m.flags tr) (h : Session o m m' st tr) :
    (Waits st ∧ (Paused m.flags m.preason (m.states.map skel) tr st ∨
      ∃ st0, Tidying m.flags m.preason (m.states.map skel) tr st0 st)) ∨
    (Final st ∧ (∃ st0, Reported st0 st ∧ Complete m.flags m.preason (m.states.map skel) tr st0) ∧
      Ready o m' ∧ OkM ok m' ∧ m'.flags = m.flags ∧ m'.states.map skel = m.states.map skel) := by
  rcases session_first hl hr hk hp hs h with ⟨h1, _, h2⟩ |
    ⟨st0, _, work, clean, s, e, past, rest, _, h2, h3, h4, h5, h6, h7, h8, h9, _⟩ | ⟨st0, h1, h2, h3, h4⟩
  · exact .inl ⟨h1, .inl h2⟩
  · exact .inl ⟨h2, .inr ⟨st0, work, clean, s, e, past, rest, h3, h4, h5, h6, h7, h8, h9⟩⟩
  · exact .inr ⟨h2, ⟨st0, h1, h3⟩, over_ready hr h4,
      ⟨fun hh => absurd (h4.running.symm.trans hh) (by decide), h4.okk⟩, h4.flags, h4.skels⟩

/-- The same for machines whose children are machines, to any depth. -/
theorem tree_session_partial {fuel n : Nat} {m m' : Mach D (Tree D n)} {st : Status} {tr : List (Ev D)}
    (hr : Ready (treeOps D fuel n) m) (hk : OkTree D (n + 1) m)
    (hp : ∀ e ∈ tr, Plain (m.states.map skel) e) (hs : Smooth m.flags tr)
    (h : Session (treeOps D fuel n) m m' st tr) :
    (Waits st ∧ (Paused m.flags m.preason (m.states.map skel) tr st ∨
      ∃ st0, Tidying m.flags m.preason (m.states.map skel) tr st0 st)) ∨
    (Final st ∧ (∃ st0, Reported st0 st ∧ Complete m.flags m.preason (m.states.map skel) tr st0) ∧
      Ready (treeOps D fuel n) m' ∧ OkTree D (n + 1) m' ∧ m'.flags = m.flags ∧
      m'.states.map skel = m.states.map skel) :=
  session_partial (tree_lawful D fuel n) hr hk hp hs h

/-- The data passes from callback to callback: nothing touches it in between, and the caller gets
what the last one left. -/
theorem run_threads {fuel : Nat} {m m' : Mach D C} {d d' : D} {st : Status} {ev : List (Ev D)}
    (h : run o fuel m d = some (m', d', st, ev)) : Threads d ev d' := by
  unfold run at h
  split at h
  · cases h; exact .nil _
  · exact loop_threads _ h

/-! ## CONTINUE -/

theorem works_suffix {fl : Flags} {reason : Reason} {ss : List (Skel D)} : ∀ (a : List (Ev D))
    {s : Skel D} {b : List (Ev D)}, b ≠ [] → Works fl reason ss s (a ++ b) → ∃ s', Works fl reason ss s' b
  | [], s, _, _, h => ⟨s, h⟩
  | x :: a, s, b, hb, h => by
    rw [List.cons_append] at h
    generalize hl : a ++ b = l at h
    have hne : l ≠ [] := by rw [← hl]; simp [hb]
    cases h with
    | first => exact absurd rfl hne
    | stay h _ _ _ => rw [← hl] at h; exact works_suffix a hb h
    | goto h _ _ => rw [← hl] at h; exact works_suffix a hb h

theorem cleans_clean {L rest : List Nat} {ev : List (Ev D)} (h : Cleans L ev rest) :
    ∀ e ∈ ev, ∃ id st d d', e = .clean id st d d' := by
  induction h with
  | nil => intro e he; cases he
  | wait _ _ ih =>
    intro e he
    rcases List.mem_cons.mp he with rfl | he
    · exact ⟨_, _, _, _, rfl⟩
    · exact ih e he
  | over _ _ ih =>
    intro e he
    rcases List.mem_cons.mp he with rfl | he
    · exact ⟨_, _, _, _, rfl⟩
    · exact ih e he

theorem works_of_session (hl : Lawful o ok) {m m' : Mach D C} {st : Status} {tr : List (Ev D)}
    (hr : Ready o m) (hk : OkM ok m) (hp : ∀ e ∈ tr, Plain (m.states.map skel) e)
    (hs : Smooth m.flags tr) (h : Session o m m' st tr) :
    ∃ work clean s, tr = work ++ clean ∧ Works m.flags m.preason (m.states.map skel) s work.reverse ∧
      ∀ e ∈ clean, ∃ id st d d', e = .clean id st d d' := by
  rcases session_partial hl hr hk hp hs h with ⟨_, ⟨s, e, past, h1, h2, _⟩ |
      ⟨_, work, clean, s, e, past, rest, h1, h2, h3, _, h5, _⟩⟩ | ⟨_, ⟨_, _, work, clean, s, e, past, h1, h2, h3, _, h5⟩, _⟩
  · exact ⟨tr, [], s, by simp, by rw [h1]; exact h2, fun e he => by cases he⟩
  · exact ⟨work, clean, s, h1, by rw [h2]; exact h3, cleans_clean h5⟩
  · exact ⟨work, clean, s, h1, by rw [h2]; exact h3, cleans_clean h5⟩

/-- Unless the user asked for such loops, states that keep skipping with CONTINUE come to an end:
there are never more CONTINUEs in a row than there are states, plus the one that is refused. -/
theorem continue_ends_partial (hl : Lawful o ok) {m m' : Mach D C} {st : Status} {tr : List (Ev D)}
    (hr : Ready o m) (hk : OkM ok m) (hp : ∀ e ∈ tr, Plain (m.states.map skel) e)
    (hs : Smooth m.flags tr) (h : Session o m m' st tr) (hc : m.flags.contLoop = false)
    {a blk b : List (Ev D)} (he : tr = a ++ blk ++ b)
    (hb : ∀ e ∈ blk, ∃ id dflt sub next d d', e = .visit id dflt sub .cont next d d') :
    blk.length ≤ m.states.length + 1 := by
  obtain ⟨work, clean, s, h1, h2, h3⟩ := works_of_session hl hr hk hp hs h
  rcases List.eq_nil_or_concat blk with rfl | ⟨pre, last, rfl⟩
  · exact Nat.zero_le _
  have hz : ∃ z, work = a ++ (pre ++ [last]) ++ z := by
    rw [h1] at he
    rcases List.append_eq_append_iff.mp he with ⟨z, hz, hz'⟩ | ⟨z, hz, hz'⟩
    · rcases List.eq_nil_or_concat z with rfl | ⟨z', l', rfl⟩
      · exact ⟨[], by simpa using hz.symm⟩
      · have hlast : l' = last := by
          have hz2 : (a ++ pre) ++ [last] = (work ++ z') ++ [l'] := by simpa using hz
          have := List.append_inj' hz2 rfl
          simpa using this.2.symm
        obtain ⟨id, st1, d1, d1', e1⟩ := h3 l' (by rw [hz']; simp)
        obtain ⟨id2, dflt, sub, next, d, d', e2⟩ := hb last (by simp)
        rw [← hlast, e1] at e2
        cases e2
    · exact ⟨z, by simpa using hz⟩
  obtain ⟨z, hz⟩ := hz
  rw [hz] at h2
  have hrev : (a ++ (pre ++ [last]) ++ z).reverse = z.reverse ++ (last :: (pre.reverse ++ a.reverse)) := by
    simp
  rw [hrev] at h2
  obtain ⟨s', hw⟩ := works_suffix z.reverse (by simp) h2
  obtain ⟨g1, g2, _⟩ := conts_nodup hc hw last (pre.reverse ++ a.reverse) rfl
  have hlen := conts_skips pre.reverse a.reverse fun e he => hb e (by
    have := List.mem_reverse.mp he
    simp [this])
  have := length_le_of_nodup_subset (k := (m.states.map skel).map (·.id)) g1 fun x hx => by
    obtain ⟨t, ht, hti⟩ := g2 x hx
    exact List.mem_map.mpr ⟨t, ht, hti⟩
  simp only [List.length_map, List.length_reverse, List.length_append, List.length_singleton,
    List.length_concat] at *
  omega

/-! ## Resets -/

theorem eq_of_nodup_map {α : Type} (f : α → Nat) : ∀ {l : List α}, (l.map f).Nodup → ∀ {a b : α}, a ∈ l →
    b ∈ l → f a = f b → a = b
  | [], _, a, _, ha, _, _ => by cases ha
  | x :: l, hn, a, b, ha, hb, h => by
    obtain ⟨h1, h2⟩ := List.nodup_cons.mp hn
    rcases List.mem_cons.mp ha with rfl | ha
    · rcases List.mem_cons.mp hb with rfl | hb
      · rfl
      · exact absurd (List.mem_map.mpr ⟨b, hb, h.symm⟩) h1
    · rcases List.mem_cons.mp hb with rfl | hb
      · exact absurd (List.mem_map.mpr ⟨a, by assumption, h⟩ : f b ∈ l.map f) h1
      · exact eq_of_nodup_map f h2 ha hb h

theorem works_id {fl : Flags} {reason : Reason} {ss : List (Skel D)} {s : Skel D} {e : Ev D}
    {past : List (Ev D)} (h : Works fl reason ss s (e :: past)) :
    ∃ dflt sub st next d d', e = .visit s.id dflt sub st next d d' := by
  have key : ∀ {p}, Visit fl reason ss p s e → ∃ dflt sub st next d d',
      e = .visit s.id dflt sub st next d d' := by
    intro p hv
    obtain ⟨_, dflt, sub, st, next, d, d', rfl, _⟩ := hv
    exact ⟨_, _, _, _, _, _, rfl⟩
  cases h with
  | first _ hv => exact key hv
  | stay _ _ _ hv => exact key hv
  | goto _ _ hv => exact key hv

theorem works_unique {fl : Flags} {reason : Reason} {ss : List (Skel D)} (hn : (ss.map (·.id)).Nodup)
    {s s' : Skel D} {e : Ev D} {past : List (Ev D)} (h : Works fl reason ss s (e :: past))
    (h' : Works fl reason ss s' (e :: past)) : s = s' := by
  obtain ⟨_, _, _, _, _, _, e1⟩ := works_id h
  obtain ⟨_, _, _, _, _, _, e2⟩ := works_id h'
  rw [e1] at e2
  injection e2 with e2
  exact eq_of_nodup_map (·.id) hn (works_mem h) (works_mem h') e2

/-- A machine that waits while at work. -/
theorem waiting (hl : Lawful o ok) {m m1 : Mach D C} {st1 : Status} {tr : List (Ev D)}
    (hr : Ready o m) (hk : OkM ok m) (hp : ∀ e ∈ tr, Plain (m.states.map skel) e)
    (hs : Smooth m.flags tr) (h : Session o m m1 st1 tr) (hw : Waits st1)
    (hv : ∀ id st d d', Ev.clean id st d d' ∉ tr) :
    WorkInv o ok m.flags m.preason (m.states.map skel) m1 tr.reverse ∧
      findSt m1.states m1.cur ≠ none := by
  rcases session_first hl hr hk hp hs h with ⟨_, h1, s, e, past, h2, h3, h4, _⟩ |
    ⟨st0, _, work, clean, s, e, past, rest, _, h2, h3, h4, h5, h6, h7, h8, h9, _⟩ | ⟨st0, h1, h2, _⟩
  · refine ⟨h1, fun hn => ?_⟩
    obtain ⟨s', e', past', g1, g2, g3, _⟩ := h1.lost hn
    rw [h2] at g1
    cases g1
    have hnd : ((m.states.map skel).map (·.id)).Nodup := by
      rw [← skels_ids rfl]; exact hr.nodup
    cases works_unique hnd h3 g2
    rcases h4 with h4 | ⟨_, _, h4⟩
    · rw [h4] at g3; cases g3
    · rw [h4] at g3; cases g3
  · exfalso
    rcases h9 with ⟨a, id, dflt, sub, next, d, d', rfl⟩ | ⟨a, id, d, d', rfl⟩
    · obtain ⟨_, _, _, _, e1⟩ := cleans_clean h7 (.visit id dflt sub st1 next d d') (by simp)
      cases e1
    · exact hv id st1 d d' (by rw [h3]; simp)
  · exact absurd hw (final_not_Waits h2)

/-- A machine that waits and is reset with a reason visits no further state: it runs the cleanups
that are due, in reverse order and each until it is over, and returns DONE; then it is ready to be
run again.

Partial: the machine must be waiting in a state of its own, not inside a sub machine
(see `reset_interleaved_fails`), and the hypotheses of `session_partial` apply. -/
theorem reset_partial (hl : Lawful o ok) {m m1 m2 : Mach D C} {r : Reason} {st1 st : Status}
    {tr tr2 : List (Ev D)} (hr : Ready o m) (hk : OkM ok m) (hp : ∀ e ∈ tr, Plain (m.states.map skel) e)
    (hs : Smooth m.flags tr) (h : Session o m m1 st1 tr) (hw : Waits st1)
    (hv : ∀ id st d d', Ev.clean id st d d' ∉ tr) (hb : busy tr.reverse = false) (hne : r ≠ .none)
    (hs2 : Smooth m.flags tr2) (h2 : Session o (reset o m1 r) m2 st tr2) :
    (st = .done ∧ Cleans (cleanups m.flags (m.states.map skel) tr.reverse) tr2 [] ∧ Ready o m2 ∧
      m2.states.map skel = m.states.map skel) ∨
    (Waits st ∧ LastStatus tr2 st ∧
      ∃ rest, rest ≠ [] ∧ Cleans (cleanups m.flags (m.states.map skel) tr.reverse) tr2 rest) := by
  obtain ⟨h3, h4⟩ := waiting hl hr hk hp hs h hw hv
  have hc := reset_clean hl hne h3 hb h4
  rcases session_clean hl (by simpa using hr.nonempty) h2 hc hs2 with ⟨e, g1, g2⟩ |
    ⟨g0, _, rest, g1, g2, g3, _⟩
  · exact .inl ⟨e, g1, over_ready hr g2, g2.skels⟩
  · exact .inr ⟨g0, g3, rest, g1, g2⟩

/-- A machine that waits and is reset without a reason is ready to be run again from its first state,
without any cleanup. -/
theorem reset_silent_partial (hl : Lawful o ok) {m m1 : Mach D C} {st1 : Status} {tr : List (Ev D)}
    (hr : Ready o m) (hk : OkM ok m) (hp : ∀ e ∈ tr, Plain (m.states.map skel) e)
    (hs : Smooth m.flags tr) (h : Session o m m1 st1 tr) (hw : Waits st1)
    (hv : ∀ id st d d', Ev.clean id st d d' ∉ tr) (hb : busy tr.reverse = false) :
    Ready o (reset o m1 .none) ∧ OkM ok (reset o m1 .none) ∧
      (reset o m1 .none).states.map skel = m.states.map skel := by
  obtain ⟨h3, h4⟩ := waiting hl hr hk hp hs h hw hv
  have ho := reset_none hl h3 hb h4
  exact ⟨over_ready hr ho, ⟨fun hh => absurd (ho.running.symm.trans hh) (by decide), ho.okk⟩, ho.skels⟩

/-! ## Interleaved machines -/

/-- The statuses of interleaved machines between two visits: one of them is not over, and unless
errors are passed over those that are over are DONE. -/
def Spec.Steady (noAbort : Bool) (cs : List (C × Status)) : Prop :=
  (∃ c ∈ cs, c.2 = .none ∨ Waits c.2) ∧
  (noAbort = false → ∀ c ∈ cs, c.2 = .none ∨ Waits c.2 ∨ c.2 = .done)

theorem round_stop {run : C → D → Option (C × D × Status)} {na : Bool} {cs cs' : List (C × Status)}
    {d d' : D} {r : Option Status} (h : Round run na cs d cs' d' r) : ∀ e, r = some e → ¬ Waits e := by
  induction h with
  | nil => intro e he; cases he
  | idle _ _ _ ih => exact ih
  | run _ _ _ _ ih => exact ih
  | stop _ _ _ _ hw => intro e he; cases he; exact hw

/-- A visit of a state with interleaved machines: the pre function on entry only; then each machine
that is not over is run once, in order, on the same data; while one of them waits the visit ends
with WAIT and the next visit goes on with exactly those that are not over; once all are over, or one
has failed, the post function gets the verdict and the machines are made ready for the next entry. -/
theorem inter_visit {na : Bool} {cs : List (C × Status)} {pre : Option (PreFn D)}
    {post : Option (Status → Fn D)} {irun : Bool} {d : D} {dflt : Nat} {r : Outcome D C}
    (hst : Spec.Steady na cs) (h : runInter o na cs pre post irun d dflt = some r) :
    (r.sub = .skipped ∧ irun = false ∧ r.kind = .inter cs pre post irun) ∨
    ∃ d1 n1 cs' d2 stop st, Enters pre irun d dflt d1 n1 ∧ Round o.run na cs d1 cs' d2 stop ∧
      Verdict (cs'.map (·.2)) stop st ∧ r.sub = .ran st ∧
      ((st = .wait ∧ stop = none ∧ r.kind = .inter cs' pre post true ∧ r.d = d2 ∧ r.st = .wait ∧
          Spec.Steady na cs') ∨
       (¬ Waits st ∧ Leaves post st d2 n1 r.d r.st r.next ∧
          r.kind = .inter (cs'.map fun c => (c.1, .none)) pre post false)) := by
  unfold runInter at h
  dsimp only at h
  split at h
  · next hpre =>
    right
    split at h
    · cases h
    · next cs' d2 st a hr =>
      obtain ⟨stop, h1, h2, h3⟩ := interRound_spec na cs hr
      have hent := enters_callPre hpre
      refine ⟨(callPre pre irun d dflt).1, (callPre pre irun d dflt).2.2.2, cs', d2, stop, ?_⟩
      split at h
      · next ha =>
        cases h
        subst ha
        cases stop with
        | some e =>
          obtain ⟨rfl, _, rfl⟩ := h2 e rfl
          have hnw : ¬ Waits st := round_stop h1 st rfl
          refine ⟨st, hent, h1, rfl, by simp, .inr ⟨hnw, ?_, rfl⟩⟩
          exact leaves_callPost post st d2 _
        | none =>
          obtain ⟨h4, h5⟩ := h3 rfl
          have hall : ∀ c ∈ cs', ¬ Waits c.2 := by
            intro c hc hw
            rw [Bool.true_and] at h4
            have := List.all_eq_true.mp h4.symm c hc
            rw [waits_iff.mpr hw] at this
            cases this
          have hfin : ∀ st', (if na = true then firstBad cs' else st) = st' →
              Verdict (cs'.map (·.2)) none st' ∧ ¬ Waits st' := by
            intro st' he
            have hall' : ∀ s ∈ cs'.map (·.2), ¬ Waits s := by
              intro s hs
              obtain ⟨c, hc, rfl⟩ := List.mem_map.mp hs
              exact hall c hc
            cases na with
            | true =>
              rw [if_pos rfl] at he
              subst he
              exact ⟨.inr ⟨hall', firstBad_spec cs'⟩, firstBad_not_waits hall⟩
            | false =>
              rw [if_neg (by simp)] at he
              subst he
              obtain ⟨c, hc, hl⟩ := hst.1
              have hd := h5 rfl hall (.inr ⟨c, hc, liveSub_iff.mpr hl⟩)
              refine ⟨.inr ⟨hall', .inl ⟨?_, hd⟩⟩, by rw [hd]; simp [Waits]⟩
              intro s hs
              obtain ⟨c, hc, rfl⟩ := List.mem_map.mp hs
              rcases round_statuses h1 rfl rfl (hst.2 rfl) c hc with g | g
              · exact absurd g (hall c hc)
              · exact g
          obtain ⟨hv, hnw⟩ := hfin _ rfl
          exact ⟨_, hent, h1, hv, rfl, .inr ⟨hnw, leaves_callPost post _ d2 _, rfl⟩⟩
      · next ha =>
        cases h
        have ha' : a = false := by simpa using ha
        subst ha'
        cases stop with
        | some e => exact absurd (h2 e rfl).2.1 (by decide)
        | none =>
          obtain ⟨h4, _⟩ := h3 rfl
          have hex : ∃ c ∈ cs', Waits c.2 := by
            rw [Bool.true_and] at h4
            have := List.all_eq_false.mp h4.symm
            obtain ⟨c, hc, hw⟩ := this
            exact ⟨c, hc, waits_iff.mp (by simpa using hw)⟩
          obtain ⟨c, hc, hw⟩ := hex
          refine ⟨.wait, hent, h1, .inl ⟨⟨c.2, List.mem_map.mpr ⟨c, hc, rfl⟩, hw⟩, rfl⟩, rfl,
            .inl ⟨rfl, rfl, rfl, rfl, rfl, ⟨c, hc, .inr hw⟩, fun hna c hc => ?_⟩⟩
          exact .inr (round_statuses h1 rfl hna (hst.2 hna) c hc)
  · next hpre =>
    cases h
    exact .inl ⟨rfl, (skips_callPre hpre).1, rfl⟩

/-! ## Building machines -/

/-- Adding a state keeps ids distinct and not 0; it fails exactly if the id is 0 or taken, and then
changes nothing. -/
theorem insert_state (m : Mach D C) (s : St D C) (hn : (m.states.map (·.id)).Nodup)
    (hz : ∀ t ∈ m.states, t.id ≠ 0) :
    ((insertState m s).1.states.map (·.id)).Nodup ∧ (∀ t ∈ (insertState m s).1.states, t.id ≠ 0) ∧
    ((insertState m s).2 = true ↔ s.id ≠ 0 ∧ ∀ t ∈ m.states, t.id ≠ s.id) ∧
    (insertState m s).1.states = if (insertState m s).2 then m.states ++ [s] else m.states := by
  unfold insertState
  by_cases h : (s.id = 0 || (findSt m.states s.id).isSome) = true
  · rw [if_pos h]
    refine ⟨hn, hz, ?_, by simp⟩
    simp only [Bool.false_eq_true, false_iff]
    rintro ⟨h1, h2⟩
    simp only [Bool.or_eq_true, decide_eq_true_eq] at h
    rcases h with h | h
    · exact h1 h
    · obtain ⟨t, ht⟩ := Option.isSome_iff_exists.mp h
      exact h2 t (findSt_some ht).1 (findSt_some ht).2
  · rw [if_neg h]
    simp only [Bool.or_eq_true, decide_eq_true_eq, not_or] at h
    obtain ⟨h1, h2⟩ := h
    have h3 : findSt m.states s.id = none := by
      cases hf : findSt m.states s.id with
      | none => rfl
      | some t => rw [hf] at h2; exact absurd rfl h2
    have h4 := findSt_none h3
    refine ⟨?_, ?_, ?_, by simp⟩
    · rw [List.map_append, List.map_singleton, List.nodup_append]
      refine ⟨hn, by simp, ?_⟩
      intro a ha b hb hab
      obtain ⟨t, ht, rfl⟩ := List.mem_map.mp ha
      rw [List.mem_singleton] at hb
      exact h4 t ht (hab.trans hb)
    · intro t ht
      rcases List.mem_append.mp ht with ht | ht
      · exact hz t ht
      · rw [List.mem_singleton] at ht
        rw [ht]; exact h1
    · simp only [true_iff]
      exact ⟨h1, h4⟩

end Verif.StateMachine
