import Verif.StateMachine.Spec

/-!
# Lemmas about state machines
-/

namespace Verif.StateMachine
open Spec

variable {D C : Type}

theorem findSt_some {ss : List (St D C)} {id : Nat} {s : St D C} (h : findSt ss id = some s) :
    s ∈ ss ∧ s.id = id := by
  refine ⟨List.mem_of_find?_eq_some h, ?_⟩
  have := List.find?_some h
  simpa using this

theorem findSt_none {ss : List (St D C)} {id : Nat} (h : findSt ss id = none) :
    ∀ s ∈ ss, s.id ≠ id := by
  intro s hs
  have := List.find?_eq_none.mp h s hs
  simpa using this

theorem mem_putSt {ss : List (St D C)} {id : Nat} {f : St D C → St D C} {t : St D C}
    (h : t ∈ putSt ss id f) : ∃ s ∈ ss, (s.id ≠ id ∧ t = s) ∨ (s.id = id ∧ t = f s) := by
  obtain ⟨s, hs, rfl⟩ := List.mem_map.mp h
  refine ⟨s, hs, ?_⟩
  by_cases hi : s.id = id
  · right; simp [hi]
  · left; simp [hi]

theorem map_putSt {α : Type} {ss : List (St D C)} {id : Nat} {f : St D C → St D C} (g : St D C → α)
    (h : ∀ s ∈ ss, s.id = id → g (f s) = g s) : (putSt ss id f).map g = ss.map g := by
  simp only [putSt, List.map_map]
  refine List.map_congr_left fun s hs => ?_
  simp only [Function.comp]
  split
  · next hi => exact h s hs hi
  · rfl

theorem eq_of_nodup {ss : List (St D C)} (hn : (ss.map (·.id)).Nodup) {s t : St D C} (hs : s ∈ ss)
    (ht : t ∈ ss) (h : s.id = t.id) : s = t := by
  induction ss with
  | nil => cases hs
  | cons a as ih =>
    simp only [List.map_cons, List.nodup_cons, List.mem_map, not_exists, not_and] at hn
    rcases List.mem_cons.mp hs with rfl | hs'
    · rcases List.mem_cons.mp ht with rfl | ht'
      · rfl
      · exact absurd h.symm (hn.1 t ht')
    · rcases List.mem_cons.mp ht with rfl | ht'
      · exact absurd h (hn.1 s hs')
      · exact ih hn.2 hs' ht'

theorem waits_iff {st : Status} : waits st = true ↔ Waits st := by
  cases st <;> simp [waits, Waits]

theorem not_waits_iff {st : Status} : waits st = false ↔ ¬ Waits st := by
  cases st <;> simp [waits, Waits]

theorem unfinished_waits {st : Status} (h : Waits st) : unfinished st = true := by
  rcases h with rfl | rfl <;> rfl

theorem unfinished_final {st : Status} (h : Final st) : unfinished st = false := by
  obtain ⟨h1, h2, h3, h4, h5⟩ := h
  cases st <;> simp_all [unfinished]

theorem final_not_waits {st : Status} (h : Final st) : waits st = false := by
  obtain ⟨h1, h2, h3, h4, h5⟩ := h
  cases st <;> simp_all [waits]

theorem final_not_Waits {st : Status} (h : Final st) : ¬ Waits st := by
  rintro (rfl | rfl)
  · exact h.1 rfl
  · exact h.2.1 rfl

/-! ## What cleaning up leaves alone -/

/-- Everything but the cleanup machines, the cleanup list and the ids seen. -/
structure Frame (m m' : Mach D C) : Prop where
  flags : m'.flags = m.flags
  reason : m'.reason = m.reason
  preason : m'.preason = m.preason
  ret : m'.ret = m.ret
  conts : m'.conts = m.conts
  prevIds : m'.prevIds = m.prevIds
  cur : m'.cur = m.cur
  running : m'.running = m.running
  skels : m'.states.map skel = m.states.map skel
  kinds : m'.states.map (fun s => (s.id, s.kind)) = m.states.map (fun s => (s.id, s.kind))

theorem Frame.refl (m : Mach D C) : Frame m m := ⟨rfl, rfl, rfl, rfl, rfl, rfl, rfl, rfl, rfl, rfl⟩

theorem Frame.trans {a b c : Mach D C} (h : Frame a b) (g : Frame b c) : Frame a c :=
  ⟨g.flags.trans h.flags, g.reason.trans h.reason, g.preason.trans h.preason, g.ret.trans h.ret,
    g.conts.trans h.conts, g.prevIds.trans h.prevIds, g.cur.trans h.cur, g.running.trans h.running,
    g.skels.trans h.skels, g.kinds.trans h.kinds⟩

theorem frame_of_eq {m m' : Mach D C} (cl : List Nat) (cc : Nat) (se : List Nat)
    (h : m' = { m with cleanupIds := cl, curClean := cc, seen := se }) : Frame m m' := by
  subst h; exact ⟨rfl, rfl, rfl, rfl, rfl, rfl, rfl, rfl, rfl, rfl⟩

theorem frame_clear (m : Mach D C) : Frame m (clearCleanup m) := frame_of_eq [] 0 [] rfl

theorem frame_ids (m : Mach D C) (ids : List Nat) : Frame m { m with cleanupIds := ids } :=
  frame_of_eq ids m.curClean m.seen rfl

theorem frame_mark (m : Mach D C) (id : Nat) : Frame m (markSeen m id) := by
  unfold markSeen
  split
  · exact frame_of_eq m.cleanupIds m.curClean (id :: m.seen) rfl
  · exact Frame.refl m

theorem frame_unmark (m : Mach D C) (id : Nat) : Frame m (unmarkSeen m id) := by
  unfold unmarkSeen
  split
  · exact frame_of_eq m.cleanupIds m.curClean (m.seen.filter (· ≠ id)) rfl
  · exact Frame.refl m

theorem frame_after (o : Ops D C) (m : Mach D C) (id : Nat) (c : C) :
    Frame m (afterClean o m id c) := by
  refine ⟨rfl, rfl, rfl, rfl, rfl, rfl, rfl, rfl, ?_, ?_⟩
  · exact map_putSt skel fun s _ _ => by simp [skel]
  · exact map_putSt _ fun s _ _ => rfl

theorem states_mark (m : Mach D C) (id : Nat) : (markSeen m id).states = m.states := by
  unfold markSeen; split <;> rfl

theorem states_unmark (m : Mach D C) (id : Nat) : (unmarkSeen m id).states = m.states := by
  unfold unmarkSeen; split <;> rfl

theorem ids_mark (m : Mach D C) (id : Nat) : (markSeen m id).cleanupIds = m.cleanupIds := by
  unfold markSeen; split <;> rfl

theorem ids_unmark (m : Mach D C) (id : Nat) : (unmarkSeen m id).cleanupIds = m.cleanupIds := by
  unfold unmarkSeen; split <;> rfl

/-! ## Children stay lawful -/

variable {o : Ops D C} {ok : C → Prop}

theorem ok_afterClean (hl : Lawful o ok) {m : Mach D C} (h : ∀ s ∈ m.states, OkSt ok s) (id : Nat)
    {c : C} (hc : ok c) : ∀ s ∈ (afterClean o m id c).states, OkSt ok s := by
  intro t ht
  obtain ⟨s, hs, ⟨_, rfl⟩ | ⟨_, rfl⟩⟩ := mem_putSt ht
  · exact h _ hs
  · refine ⟨?_, (h s hs).2⟩
    intro c' hc'
    simp only [Option.map_eq_some_iff] at hc'
    obtain ⟨_, _, rfl⟩ := hc'
    exact (hl.setReason _ hc).1

theorem find_cleanup {ss : List (St D C)} {id : Nat} {c : C}
    (h : (findSt ss id).bind (·.cleanup) = some c) :
    ∃ s ∈ ss, s.id = id ∧ s.cleanup = some c := by
  obtain ⟨s, hs, hc⟩ := Option.bind_eq_some_iff.mp h
  exact ⟨s, (findSt_some hs).1, (findSt_some hs).2, hc⟩

theorem cleanLoop_ok (hl : Lawful o ok) (n : Nat) : ∀ {m : Mach D C} {d : D} {m' : Mach D C} {d' : D}
    {st : Status} {ev : List (Ev D)}, (∀ s ∈ m.states, OkSt ok s) →
    cleanLoop o n m d = some (m', d', st, ev) →
    Frame m m' ∧ (∀ s ∈ m'.states, OkSt ok s) ∧ (Waits st ∨ st = .done) := by
  induction n with
  | zero =>
    intro m d m' d' st ev hk h
    simp only [cleanLoop, Option.some.injEq, Prod.mk.injEq] at h
    obtain ⟨rfl, rfl, rfl, rfl⟩ := h
    exact ⟨frame_clear m, hk, .inr rfl⟩
  | succ n ih =>
    intro m d m' d' st ev hk h
    simp only [cleanLoop] at h
    cases hc : m.cleanupIds with
    | nil =>
      simp only [hc, Option.some.injEq, Prod.mk.injEq] at h
      obtain ⟨rfl, rfl, rfl, rfl⟩ := h
      exact ⟨frame_clear m, hk, .inr rfl⟩
    | cons id rest =>
      simp only [hc] at h
      split at h
      · simp only [Option.some.injEq, Prod.mk.injEq] at h
        obtain ⟨rfl, rfl, rfl, rfl⟩ := h
        exact ⟨frame_clear m, hk, .inr rfl⟩
      · split at h
        · obtain ⟨f, g⟩ := ih (m := { m with cleanupIds := rest }) hk h
          exact ⟨(frame_ids m rest).trans f, g⟩
        · split at h
          · obtain ⟨f, g⟩ := ih (by rw [states_mark]; exact hk) h
            exact ⟨((frame_ids m rest).trans (frame_mark _ id)).trans f, g⟩
          · next c hfind =>
            split at h
            · cases h
            · next c' d1 st1 hr =>
              obtain ⟨s, hs, _, hsc⟩ := find_cleanup hfind
              have hck := (hl.setReason m.reason ((hk s hs).1 c hsc)).1
              obtain ⟨hck', hfin⟩ := hl.run hck hr
              have hk1 : ∀ s ∈ (afterClean o (markSeen { m with cleanupIds := rest } id) id c').states,
                  OkSt ok s := ok_afterClean hl (by rw [states_mark]; exact hk) id hck'
              have hf1 := ((frame_ids m rest).trans (frame_mark { m with cleanupIds := rest } id)).trans
                (frame_after o (markSeen { m with cleanupIds := rest } id) id c')
              split at h
              · next hu =>
                simp only [Option.some.injEq, Prod.mk.injEq] at h
                obtain ⟨rfl, rfl, rfl, rfl⟩ := h
                refine ⟨hf1.trans (frame_ids _ (id :: rest)), hk1, .inl ?_⟩
                rcases hfin with hw | hw
                · exact hw.1
                · rw [unfinished_final hw.1] at hu; cases hu
              · split at h
                · cases h
                · next m2 d2 st2 ev2 hrec =>
                  simp only [Option.some.injEq, Prod.mk.injEq] at h
                  obtain ⟨rfl, rfl, rfl, rfl⟩ := h
                  by_cases hd : st1 = .done
                  · rw [if_pos hd] at hrec
                    obtain ⟨f, g⟩ := ih hk1 hrec
                    exact ⟨hf1.trans f, g⟩
                  · rw [if_neg hd] at hrec
                    obtain ⟨f, g⟩ := ih (by rw [states_unmark]; exact hk1) hrec
                    exact ⟨(hf1.trans (frame_unmark _ id)).trans f, g⟩

end Verif.StateMachine
