import Verif.ConnPool.Inv
/-! Every step keeps the invariant. -/
namespace Verif.ConnPool
open Verif.Sql (CState)

theorem upd_same {β : Type _} (f : Nat → β) (i : Nat) (v : β) : upd f i v i = v := by simp [upd]
theorem upd_ne {β : Type _} (f : Nat → β) {i j : Nat} (v : β) (h : j ≠ i) : upd f i v j = f j := by simp [upd, h]

theorem nodup_mid {α : Type _} {a : α} {A B : List α} : (A ++ a :: B).Nodup ↔ (a :: (A ++ B)).Nodup :=
  List.perm_middle.nodup_iff

/-- A thread moves on. -/
theorem Inv.move {s : St} {x y : T} {R : List T} (h : Inv s (y :: R)) (hp : pend x = pend y) (hh : Verif.ConnPool.held x = Verif.ConnPool.held y)
    (hm : Verif.ConnPool.made x = Verif.ConnPool.made y) (ha : asleep x = asleep y) (hf : ∀ id, x ≠ .enter false (some id))
    (hb : T.sleep ∈ x :: R → ∃ z ∈ x :: R, active z = true) : Inv s (x :: R) := by
  have e1 : (x :: R).filterMap pend = (y :: R).filterMap pend := by simp [List.filterMap_cons, hp]
  have e2 : (x :: R).filterMap Verif.ConnPool.held = (y :: R).filterMap Verif.ConnPool.held := by simp [List.filterMap_cons, hh]
  have e3 : (x :: R).filterMap Verif.ConnPool.made = (y :: R).filterMap Verif.ConnPool.made := by simp [List.filterMap_cons, hm]
  have e4 : (x :: R).countP asleep = (y :: R).countP asleep := by simp [List.countP_cons, ha]
  have e5 : ids s (x :: R) = ids s (y :: R) := by simp only [ids, e1]
  have e6 : live s (x :: R) = live s (y :: R) := by simp only [live, e3]
  refine ⟨h.max, ?_, ?_, ?_, ?_, h.bound, ?_, ?_, ?_, ?_, h.idle, ?_, ?_, hb, h.stopped⟩
  · rw [e5]; exact h.nodup
  · rw [e5]; exact h.up
  · rw [e5]; exact h.all
  · rw [e1]; exact h.new
  · rw [e2]; exact h.held
  · rw [e4]; exact h.wait
  · rw [e6]; exact h.uids
  · rw [e6]; exact h.fresh
  · rw [e3]; exact h.made
  · intro id hi
    rcases List.mem_cons.1 hi with hi | hi
    · exact hf id hi.symm
    · exact h.failed id (List.mem_cons_of_mem _ hi)

theorem woken_in {s : St} {R : List T} (h : Inv s (.woken :: R)) : Inv { s with waiters := s.waiters - 1 } (.enter true none :: R) := by
  have hw := h.wait
  simp only [List.countP_cons, asleep, if_true] at hw
  refine ⟨h.max, by simpa [ids, pend, List.filterMap_cons] using h.nodup, by simpa [ids, pend, List.filterMap_cons] using h.up, by simpa [ids, pend, List.filterMap_cons] using h.all, by simpa [pend, List.filterMap_cons] using h.new,
    h.bound, by simpa [Verif.ConnPool.held, List.filterMap_cons] using h.held, ?_, by simpa [live, Verif.ConnPool.made, List.filterMap_cons] using h.uids,
    by simpa [live, Verif.ConnPool.made, List.filterMap_cons] using h.fresh, h.idle, by simpa [Verif.ConnPool.made, List.filterMap_cons] using h.made, ?_, ?_, ?_⟩
  · show s.waiters - 1 = _
    simp [List.countP_cons, asleep, hw]
  · intro id hi
    exact h.failed id (by simpa using hi)
  · intro _
    exact ⟨_, List.mem_cons_self .., rfl⟩
  · intro h0
    have := h.stopped h0
    exact ⟨this.1, this.2.1, by show s.waiters - 1 = 0; omega, this.2.2.2⟩

theorem failed_in {s : St} {R : List T} {w : Bool} {id : Nat} (h : Inv s (.enter w (some id) :: R)) :
    w = true ∧ Inv { s with newConns := s.newConns - 1, info := upd s.info id .failed } (.enter true none :: R) := by
  have hw : w = true := by
    cases w
    · exact absurd (List.mem_cons_self ..) (h.failed id)
    · rfl
  subst hw
  refine ⟨rfl, ?_⟩
  have hn := h.new
  simp only [List.filterMap_cons, pend, List.length_cons] at hn
  have hids : ∃ A B, ids s (.enter true (some id) :: R) = A ++ id :: B ∧
      ids { s with newConns := s.newConns - 1, info := upd s.info id .failed } (.enter true none :: R) = A ++ B :=
    ⟨s.conns.map (·.id) ++ s.used.map (·.id), R.filterMap pend, by simp [ids, pend, List.filterMap_cons], by simp [ids, pend, List.filterMap_cons]⟩
  obtain ⟨A, B, e1, e2⟩ := hids
  have hnd := h.nodup
  rw [e1, nodup_mid] at hnd
  obtain ⟨hni, hnd⟩ := List.nodup_cons.1 hnd
  refine ⟨h.max, by rw [e2]; exact hnd, ?_, ?_, ?_, ?_, by simpa [Verif.ConnPool.held, List.filterMap_cons] using h.held,
    by simpa [List.countP_cons, asleep] using h.wait, by simpa [live, Verif.ConnPool.made, List.filterMap_cons] using h.uids,
    by simpa [live, Verif.ConnPool.made, List.filterMap_cons] using h.fresh, h.idle, by simpa [Verif.ConnPool.made, List.filterMap_cons] using h.made, ?_, ?_, ?_⟩
  · rw [e2]
    intro i hi
    have hne : i ≠ id := by rintro rfl; exact hni hi
    have := h.up i (by rw [e1]; simp only [List.mem_append, List.mem_cons] at hi ⊢; grind)
    exact ⟨by show upd _ _ _ _ = _; rw [upd_ne _ _ hne]; exact this.1, this.2⟩
  · rw [e2]
    intro h0 i hi
    have hne : i ≠ id := by rintro rfl; simp [upd_same] at hi
    have := h.all h0 i (by simpa [upd_ne _ _ hne] using hi)
    rw [e1] at this
    simp only [List.mem_append, List.mem_cons] at this ⊢
    grind
  · show s.newConns - 1 = _
    simp [List.filterMap_cons, pend, hn]
  · have := h.bound
    show s.conns.length + (s.used.length + (s.newConns - 1)) ≤ s.max
    omega
  · intro i hi
    exact h.failed i (List.mem_cons_of_mem _ (by simpa using hi))
  · intro _
    exact ⟨_, List.mem_cons_self .., rfl⟩
  · intro h0
    have := h.stopped h0
    exact ⟨this.1, by show s.newConns - 1 = 0; omega, this.2.2⟩

theorem body_inv {s : St} {R : List T} {w : Bool} (h : Inv s (.enter w none :: R)) (h0 : s.started = true) (i : Nat) (exp : Bool) :
    ∃ x, (body s i w exp).thr = s.thr.set i x ∧ Inv (body s i w exp) (x :: R) := by
  have hp : (T.enter w none :: R).filterMap pend = R.filterMap pend := by simp [pend, List.filterMap_cons]
  have hh : (T.enter w none :: R).filterMap Verif.ConnPool.held = R.filterMap Verif.ConnPool.held := by simp [Verif.ConnPool.held, List.filterMap_cons]
  have hm : (T.enter w none :: R).filterMap Verif.ConnPool.made = R.filterMap Verif.ConnPool.made := by simp [Verif.ConnPool.made, List.filterMap_cons]
  have hc : (T.enter w none :: R).countP asleep = R.countP asleep := by simp [List.countP_cons, asleep]
  have hfail : ∀ id, T.enter false (some id) ∉ R := fun id hi => h.failed id (List.mem_cons_of_mem _ hi)
  have hnew := h.new
  have hheld := h.held
  have hwait := h.wait
  rw [hp] at hnew
  rw [hh] at hheld
  rw [hc] at hwait
  unfold body
  split
  · rename_i hcond
    refine ⟨_, rfl, ⟨h.max, by simpa [ids, pend, List.filterMap_cons] using h.nodup, by simpa [ids, pend, List.filterMap_cons] using h.up, by simpa [ids, pend, List.filterMap_cons] using h.all,
      by simpa [pend, List.filterMap_cons] using h.new, h.bound, by simpa [Verif.ConnPool.held, List.filterMap_cons] using h.held, ?_, by simpa [live, Verif.ConnPool.made, List.filterMap_cons] using h.uids,
      by simpa [live, Verif.ConnPool.made, List.filterMap_cons] using h.fresh, h.idle, by simpa [Verif.ConnPool.made, List.filterMap_cons] using h.made, ?_, ?_, ?_⟩⟩
    · show s.waiters + 1 = _
      rw [List.countP_cons_of_pos (by rfl), hwait]
    · intro id hi
      exact hfail id (by simpa using hi)
    · intro _
      have key : ∃ z ∈ R, active z = true := by
        rcases hcond with ⟨hw1, hw2⟩ | ⟨hc1, hc2⟩
        · have : 0 < R.countP asleep := by omega
          obtain ⟨z, hz, hz2⟩ := List.countP_pos_iff.1 this
          cases z with
          | woken => exact ⟨_, hz, rfl⟩
          | sleep =>
            obtain ⟨u, hu, hu2⟩ := h.busy (List.mem_cons_of_mem _ hz)
            rcases List.mem_cons.1 hu with rfl | hu
            · simp [active, hw2] at hu2
            · exact ⟨u, hu, hu2⟩
          | _ => simp [asleep] at hz2
        · have hpos := h.max
          by_cases hu : s.used = []
          · have : 0 < (R.filterMap pend).length := by rw [← hnew]; simp [hu] at hc2; omega
            obtain ⟨id, hid⟩ := List.exists_mem_of_length_pos this
            obtain ⟨z, hz, hz2⟩ := List.mem_filterMap.1 hid
            refine ⟨z, hz, ?_⟩
            cases z with
            | enter w f =>
              cases f with
              | none => simp [pend, List.filterMap_cons] at hz2
              | some id' =>
                cases w with
                | true => rfl
                | false => exact absurd hz (hfail _)
            | connecting _ => rfl
            | connected _ => rfl
            | _ => simp [pend, List.filterMap_cons] at hz2
          · obtain ⟨c, hc⟩ := List.exists_mem_of_ne_nil _ hu
            obtain ⟨z, hz, hz2⟩ := List.mem_filterMap.1 (hheld.mem_iff.1 hc)
            refine ⟨z, hz, ?_⟩
            cases z with
            | has _ => rfl
            | _ => simp [Verif.ConnPool.held, List.filterMap_cons] at hz2
      obtain ⟨z, hz, hz2⟩ := key
      exact ⟨z, List.mem_cons_of_mem _ hz, hz2⟩
    · intro hs
      simp [h0] at hs
  · rename_i hcond
    split
    · rename_i c rest hconns
      have hids : ids s (.enter w none :: R) = c.id :: (rest.map (·.id) ++ (s.used.map (·.id) ++ R.filterMap pend)) := by simp [ids, hconns, pend, List.filterMap_cons]
      have hlive : live s (.enter w none :: R) = c.uid :: (rest.map (·.uid) ++ (s.used.map (·.uid) ++ ((R.filterMap Verif.ConnPool.made).map (·.uid) ++ s.dead))) := by
        simp [live, hconns, Verif.ConnPool.made, List.filterMap_cons]
      have hnd := h.nodup
      have hup := h.up
      have hall := h.all h0
      have hun := h.uids
      have hfr := h.fresh
      have hbd := h.bound
      rw [hids] at hnd hup hall
      rw [hlive] at hun hfr
      rw [hconns] at hbd
      simp only [List.length_cons] at hbd
      split
      · -- it was idle for too long
        rename_i hexp
        obtain ⟨hni, hnd'⟩ := List.nodup_cons.1 hnd
        refine ⟨_, rfl, ⟨h.max, ?_, ?_, ?_, h.new, by show rest.length + (s.used.length + s.newConns) ≤ s.max; omega, h.held, h.wait, ?_, ?_, ?_, h.made, h.failed, ?_, ?_⟩⟩
        · simpa [ids, pend, List.filterMap_cons] using hnd'
        · intro j hj
          have hj : j ∈ rest.map (·.id) ++ (s.used.map (·.id) ++ R.filterMap pend) := by simpa [ids, pend, List.filterMap_cons] using hj
          have hne : j ≠ c.id := by rintro rfl; exact hni hj
          have := hup j (List.mem_cons_of_mem _ hj)
          exact ⟨by show upd _ _ _ _ = _; rw [upd_ne _ _ hne]; exact this.1, this.2⟩
        · intro _ j hj
          have hne : j ≠ c.id := by rintro rfl; simp [upd_same] at hj
          have := hall j (by simpa [upd_ne _ _ hne] using hj)
          have := (List.mem_cons.1 this).resolve_left hne
          simpa [ids, pend, List.filterMap_cons] using this
        · have : (rest.map (·.uid) ++ (s.used.map (·.uid) ++ ((R.filterMap Verif.ConnPool.made).map (·.uid) ++ c.uid :: s.dead))).Nodup := by
            refine List.Perm.nodup ?_ hun
            rw [← List.append_assoc, ← List.append_assoc, ← List.append_assoc, ← List.append_assoc]
            exact List.perm_middle.symm
          simpa [live, Verif.ConnPool.made, List.filterMap_cons] using this
        · intro u
          rw [← hfr u]
          simp only [live, hm, List.mem_append, List.mem_cons]
          grind
        · intro d hd
          exact h.idle d (by rw [hconns]; exact List.mem_cons_of_mem _ hd)
        · intro hs
          cases w with
          | true => exact ⟨_, List.mem_cons_self .., rfl⟩
          | false =>
            exfalso
            have hs : T.sleep ∈ R := by simpa using hs
            have : 0 < R.countP asleep := List.countP_pos_iff.2 ⟨_, hs, rfl⟩
            exact hcond (.inl ⟨by omega, rfl⟩)
        · intro hs
          simp [h0] at hs
      · refine ⟨_, rfl, ⟨h.max, ?_, ?_, ?_, ?_, ?_, ?_, ?_, ?_, ?_, ?_, ?_, ?_, ?_, ?_⟩⟩
        · refine List.Perm.nodup ?_ hnd
          simp only [ids, List.filterMap_cons, pend, List.map_append, List.map_cons, List.map_nil, List.append_assoc, List.singleton_append]
          rw [← List.append_assoc, ← List.append_assoc]
          exact List.perm_middle.symm
        · intro j hj
          apply hup
          simp only [ids, List.filterMap_cons, pend, List.map_append, List.map_cons, List.map_nil, List.mem_append, List.mem_cons, List.not_mem_nil] at hj ⊢
          grind
        · intro _ j hj
          have := hall j hj
          simp only [ids, List.filterMap_cons, pend, List.map_append, List.map_cons, List.map_nil, List.mem_append, List.mem_cons, List.not_mem_nil] at this ⊢
          grind
        · simpa [pend, List.filterMap_cons] using hnew
        · show rest.length + ((s.used ++ [c]).length + s.newConns) ≤ s.max
          simp only [List.length_append, List.length_cons, List.length_nil]
          omega
        · show (s.used ++ [c]).Perm _
          simp only [List.filterMap_cons, Verif.ConnPool.held]
          exact List.perm_append_comm.trans (hheld.cons c)
        · simpa [List.countP_cons, asleep] using hwait
        · refine List.Perm.nodup ?_ hun
          simp only [live, List.filterMap_cons, Verif.ConnPool.made, List.map_append, List.map_cons, List.map_nil, List.append_assoc, List.singleton_append]
          rw [← List.append_assoc, ← List.append_assoc (List.map (·.uid) rest) (List.map (·.uid) s.used) (_ :: _)]
          exact List.perm_middle.symm
        · intro u
          rw [← hfr u]
          simp only [live, List.filterMap_cons, Verif.ConnPool.made, List.map_append, List.map_cons, List.map_nil, List.mem_append, List.mem_cons, List.not_mem_nil]
          grind
        · intro d hd
          exact h.idle d (by rw [hconns]; exact List.mem_cons_of_mem _ hd)
        · simpa [Verif.ConnPool.made, List.filterMap_cons] using h.made
        · intro id hi
          exact hfail id (by simpa using hi)
        · intro _
          exact ⟨_, List.mem_cons_self .., rfl⟩
        · intro hs
          simp [h0] at hs
    · rename_i hconns
      have hlt : s.conns.length + (s.used.length + s.newConns) < s.max := by
        have h1 := h.bound
        have h2 : ¬ (s.used.length + s.newConns = s.max) := fun he => hcond (.inr ⟨hconns, he⟩)
        simp only [hconns, List.length_nil] at h1 ⊢
        omega
      obtain ⟨hu1, hu2⟩ := unused h h0 hlt
      generalize getUnused s = id at hu1 hu2
      have hni : id ∉ ids s (.enter w none :: R) := fun hi => hu2 (h.up id hi).1
      have hids : ids s (.enter w none :: R) = s.used.map (·.id) ++ R.filterMap pend := by simp [ids, hconns, pend, List.filterMap_cons]
      have hids2 : ∀ st : St, st.conns = s.conns → st.used = s.used → ids st (.connecting id :: R) = s.used.map (·.id) ++ id :: R.filterMap pend := by
        intro st h1 h2; simp [ids, h1, h2, hconns, pend, List.filterMap_cons]
      have hnd := h.nodup
      have hup := h.up
      have hall := h.all h0
      rw [hids] at hnd hup hall hni
      refine ⟨_, rfl, ⟨h.max, ?_, ?_, ?_, ?_, by show s.conns.length + (s.used.length + (s.newConns + 1)) ≤ s.max; omega, by simpa [Verif.ConnPool.held, List.filterMap_cons] using h.held,
        by simpa [List.countP_cons, asleep] using hwait, by simpa [live, Verif.ConnPool.made, List.filterMap_cons] using h.uids,
        by simpa [live, Verif.ConnPool.made, List.filterMap_cons] using h.fresh, by simpa using h.idle, by simpa [Verif.ConnPool.made, List.filterMap_cons] using h.made, ?_, ?_, ?_⟩⟩
      · rw [hids2 { s with newConns := s.newConns + 1, info := upd s.info id .up, thr := s.thr.set i (.connecting id) } rfl rfl]
        exact nodup_mid.2 (List.nodup_cons.2 ⟨hni, hnd⟩)
      · rw [hids2 { s with newConns := s.newConns + 1, info := upd s.info id .up, thr := s.thr.set i (.connecting id) } rfl rfl]
        intro j hj
        show upd _ _ _ _ = _ ∧ _
        by_cases hne : j = id
        · subst hne; exact ⟨upd_same .., hu1⟩
        · rw [upd_ne _ _ hne]
          apply hup
          simp only [List.mem_append, List.mem_cons] at hj ⊢
          grind
      · rw [hids2 { s with newConns := s.newConns + 1, info := upd s.info id .up, thr := s.thr.set i (.connecting id) } rfl rfl]
        intro _ j hj
        by_cases hne : j = id
        · subst hne; simp
        · have hj : upd s.info id .up j = .up := hj
          rw [upd_ne _ _ hne] at hj
          have := hall j hj
          simp only [List.mem_append, List.mem_cons] at this ⊢
          grind
      · show s.newConns + 1 = _
        simp [List.filterMap_cons, pend, hnew]
      · intro j hi
        exact hfail j (by simpa using hi)
      · intro _
        exact ⟨_, List.mem_cons_self .., rfl⟩
      · intro hs
        simp [h0] at hs

theorem release_inv {s : St} {R : List T} {c : Conn} (h : Inv s (.has c :: R)) (hb : T.sleep ∈ R → ∃ z ∈ R, active z = true) (i : Nat) (exp : Bool) :
    Inv (release s i c exp) (.out :: R) := by
  have hh : s.used.Perm (c :: R.filterMap Verif.ConnPool.held) := by simpa [List.filterMap_cons, Verif.ConnPool.held] using h.held
  have hc : c ∈ s.used := hh.mem_iff.2 (List.mem_cons_self ..)
  have he : s.used.Perm (c :: s.used.erase c) := List.perm_cons_erase hc
  have hh2 : (s.used.erase c).Perm (R.filterMap Verif.ConnPool.held) := (List.perm_cons c).1 (he.symm.trans hh)
  have hst : s.started = true := by
    cases hs : s.started
    · have := (h.stopped hs).1
      simp [this] at hc
    · rfl
  have hlen : s.used.length = (s.used.erase c).length + 1 := by simpa using he.length_eq
  have hbd := h.bound
  have pids : (ids s (.has c :: R)).Perm (c.id :: (s.conns.map (·.id) ++ ((s.used.erase c).map (·.id) ++ R.filterMap pend))) := by
    have : ids s (.has c :: R) = s.conns.map (·.id) ++ (s.used.map (·.id) ++ R.filterMap pend) := by simp [ids, List.filterMap_cons, pend]
    rw [this]
    refine (List.Perm.append_left _ (List.Perm.append_right _ (he.map _))).trans ?_
    exact List.perm_middle
  have plive : (live s (.has c :: R)).Perm (c.uid :: (s.conns.map (·.uid) ++ ((s.used.erase c).map (·.uid) ++ ((R.filterMap Verif.ConnPool.made).map (·.uid) ++ s.dead)))) := by
    have : live s (.has c :: R) = s.conns.map (·.uid) ++ (s.used.map (·.uid) ++ ((R.filterMap Verif.ConnPool.made).map (·.uid) ++ s.dead)) := by
      simp [live, List.filterMap_cons, Verif.ConnPool.made]
    rw [this]
    refine (List.Perm.append_left _ (List.Perm.append_right _ (he.map _))).trans ?_
    exact List.perm_middle
  have hnd := pids.nodup h.nodup
  have hun := plive.nodup h.uids
  have hup : ∀ j ∈ (c.id :: (s.conns.map (·.id) ++ ((s.used.erase c).map (·.id) ++ R.filterMap pend))), s.info j = .up ∧ j < s.max :=
    fun j hj => h.up j (pids.mem_iff.2 hj)
  have hall : ∀ j, s.info j = .up → j ∈ (c.id :: (s.conns.map (·.id) ++ ((s.used.erase c).map (·.id) ++ R.filterMap pend))) :=
    fun j hj => pids.mem_iff.1 (h.all hst j hj)
  have hfr : ∀ u, u ∈ (c.uid :: (s.conns.map (·.uid) ++ ((s.used.erase c).map (·.uid) ++ ((R.filterMap Verif.ConnPool.made).map (·.uid) ++ s.dead)))) ↔ u < s.fresh :=
    fun u => plive.mem_iff.symm.trans (h.fresh u)
  have hfail : ∀ id, T.enter false (some id) ∉ T.out :: R := fun id hi => h.failed id (List.mem_cons_of_mem _ (by simpa using hi))
  have hnew : s.newConns = (R.filterMap pend).length := by simpa [List.filterMap_cons, pend] using h.new
  have hwait : s.waiters = R.countP asleep := by simpa [List.countP_cons, asleep] using h.wait
  have hmade : ∀ c ∈ R.filterMap Verif.ConnPool.made, s.state c.uid = .ok := by simpa [List.filterMap_cons, Verif.ConnPool.made] using h.made
  have hbusy : T.sleep ∈ T.out :: R → ∃ z ∈ T.out :: R, active z = true := by
    intro hs
    obtain ⟨z, hz, hz2⟩ := hb (by simpa using hs)
    exact ⟨z, List.mem_cons_of_mem _ hz, hz2⟩
  obtain ⟨hni, hnd'⟩ := List.nodup_cons.1 hnd
  obtain ⟨hnu, hun'⟩ := List.nodup_cons.1 hun
  have drop : ∀ v : Info, v ≠ .up → Inv { s with used := s.used.erase c, thr := s.thr.set i .out, info := upd s.info c.id v, dead := c.uid :: s.dead } (.out :: R) := by
    intro v hv
    refine ⟨h.max, by simpa [ids, List.filterMap_cons, pend] using hnd', ?_, ?_, by simpa [List.filterMap_cons, pend] using hnew,
      by show s.conns.length + ((s.used.erase c).length + s.newConns) ≤ s.max; omega,
      by simpa [List.filterMap_cons, Verif.ConnPool.held] using hh2, by simpa [List.countP_cons, asleep] using hwait, ?_, ?_, h.idle,
      by simpa [List.filterMap_cons, Verif.ConnPool.made] using hmade, hfail, hbusy, fun hs => by simp [hst] at hs⟩
    · intro j hj
      have hj : j ∈ s.conns.map (·.id) ++ ((s.used.erase c).map (·.id) ++ R.filterMap pend) := by simpa [ids, List.filterMap_cons, pend] using hj
      have hne : j ≠ c.id := by rintro rfl; exact hni hj
      show upd _ _ _ _ = _ ∧ _
      rw [upd_ne _ _ hne]
      exact hup j (List.mem_cons_of_mem _ hj)
    · intro _ j hj
      have hj : upd s.info c.id v j = .up := hj
      have hne : j ≠ c.id := by rintro rfl; rw [upd_same] at hj; exact hv hj
      rw [upd_ne _ _ hne] at hj
      have := (List.mem_cons.1 (hall j hj)).resolve_left hne
      simpa [ids, List.filterMap_cons, pend] using this
    · have : (s.conns.map (·.uid) ++ ((s.used.erase c).map (·.uid) ++ ((R.filterMap Verif.ConnPool.made).map (·.uid) ++ c.uid :: s.dead))).Nodup := by
        refine List.Perm.nodup ?_ hun
        rw [← List.append_assoc, ← List.append_assoc, ← List.append_assoc, ← List.append_assoc]
        exact List.perm_middle.symm
      simpa [live, List.filterMap_cons, Verif.ConnPool.made] using this
    · intro u
      rw [← hfr u]
      simp only [live, List.filterMap_cons, Verif.ConnPool.made, List.mem_append, List.mem_cons]
      grind
  unfold release
  dsimp only
  split
  · exact drop .failed (by simp)
  · split
    · exact drop .new (by simp)
    · refine ⟨h.max, ?_, ?_, ?_, by simpa [List.filterMap_cons, pend] using hnew, ?_,
        by simpa [List.filterMap_cons, Verif.ConnPool.held] using hh2, by simpa [List.countP_cons, asleep] using hwait, ?_, ?_, ?_, ?_, hfail,
        hbusy, fun hs => by simp [hst] at hs⟩
      · refine List.Perm.nodup ?_ hnd
        simp only [ids, List.filterMap_cons, pend, List.map_append, List.map_cons, List.map_nil, List.append_assoc, List.singleton_append]
        exact List.perm_middle.symm
      · intro j hj
        apply hup
        simp only [ids, List.filterMap_cons, pend, List.map_append, List.map_cons, List.map_nil, List.mem_append, List.mem_cons, List.not_mem_nil] at hj ⊢
        grind
      · intro _ j hj
        have := hall j hj
        simp only [ids, List.filterMap_cons, pend, List.map_append, List.map_cons, List.map_nil, List.mem_append, List.mem_cons, List.not_mem_nil] at this ⊢
        grind
      · show (s.conns ++ [c]).length + ((s.used.erase c).length + s.newConns) ≤ s.max
        simp only [List.length_append, List.length_cons, List.length_nil]
        omega
      · refine List.Perm.nodup ?_ hun
        simp only [live, List.filterMap_cons, Verif.ConnPool.made, List.map_append, List.map_cons, List.map_nil, List.append_assoc, List.singleton_append]
        exact List.perm_middle.symm
      · intro u
        rw [← hfr u]
        simp only [live, List.filterMap_cons, Verif.ConnPool.made, List.map_append, List.map_cons, List.map_nil, List.mem_append, List.mem_cons, List.not_mem_nil]
        grind
      · intro d hd
        show upd _ _ _ _ = _
        by_cases hne : d.uid = c.uid
        · rw [hne]; exact upd_same ..
        · rw [upd_ne _ _ hne]
          have hd : d ∈ s.conns ++ [c] := hd
          rcases List.mem_append.1 hd with hd | hd
          · exact h.idle d hd
          · simp only [List.mem_singleton] at hd
            exact absurd (by rw [hd]) hne
      · intro d hd
        have hd : d ∈ R.filterMap Verif.ConnPool.made := by simpa [List.filterMap_cons, Verif.ConnPool.made] using hd
        show upd _ _ _ _ = _
        by_cases hne : d.uid = c.uid
        · rw [hne]; exact upd_same ..
        · rw [upd_ne _ _ hne]
          exact hmade d hd

theorem mark_inv {s : St} {R : List T} {c : Conn} (h : Inv s (.has c :: R)) (st : CState) : Inv { s with state := upd s.state c.uid st } (.has c :: R) := by
  have hh : s.used.Perm (c :: R.filterMap Verif.ConnPool.held) := by simpa [List.filterMap_cons, Verif.ConnPool.held] using h.held
  have hc : c ∈ s.used := hh.mem_iff.2 (List.mem_cons_self ..)
  have hun := h.uids
  have e : live s (.has c :: R) = s.conns.map (·.uid) ++ (s.used.map (·.uid) ++ ((R.filterMap Verif.ConnPool.made).map (·.uid) ++ s.dead)) := by
    simp [live, List.filterMap_cons, Verif.ConnPool.made]
  rw [e] at hun
  obtain ⟨_, h2, h3⟩ := List.nodup_append.1 hun
  obtain ⟨_, _, h4⟩ := List.nodup_append.1 h2
  have hcu : c.uid ∈ s.used.map (·.uid) := List.mem_map_of_mem hc
  refine ⟨h.max, h.nodup, h.up, h.all, h.new, h.bound, h.held, h.wait, h.uids, h.fresh, ?_, ?_, h.failed, h.busy, h.stopped⟩
  · intro d hd
    have hne : d.uid ≠ c.uid := h3 _ (List.mem_map_of_mem hd) _ (List.mem_append_left _ hcu)
    show upd _ _ _ _ = _
    rw [upd_ne _ _ hne]
    exact h.idle d hd
  · intro d hd
    have hd' : d ∈ R.filterMap Verif.ConnPool.made := by simpa [List.filterMap_cons, Verif.ConnPool.made] using hd
    have hne : d.uid ≠ c.uid := fun he => h4 _ hcu _ (List.mem_append_left _ (List.mem_map_of_mem hd')) he.symm
    show upd _ _ _ _ = _
    rw [upd_ne _ _ hne]
    exact h.made d hd

theorem connOk_inv {s : St} {R : List T} {id : Nat} (h : Inv s (.connecting id :: R)) (thr : List T) :
    Inv { s with thr := thr, fresh := s.fresh + 1, state := upd s.state s.fresh .ok } (.connected ⟨s.fresh, id⟩ :: R) := by
  have e : live s (.connecting id :: R) = s.conns.map (·.uid) ++ (s.used.map (·.uid) ++ ((R.filterMap Verif.ConnPool.made).map (·.uid) ++ s.dead)) := by
    simp [live, List.filterMap_cons, Verif.ConnPool.made]
  have hun := h.uids
  have hfr := h.fresh
  rw [e] at hun hfr
  refine ⟨h.max, by simpa [ids, List.filterMap_cons, pend] using h.nodup, by simpa [ids, List.filterMap_cons, pend] using h.up,
    by simpa [ids, List.filterMap_cons, pend] using h.all, by simpa [List.filterMap_cons, pend] using h.new, h.bound,
    by simpa [List.filterMap_cons, Verif.ConnPool.held] using h.held, by simpa [List.countP_cons, asleep] using h.wait, ?_, ?_, ?_, ?_, ?_, ?_, h.stopped⟩
  · have : (s.fresh :: (s.conns.map (·.uid) ++ (s.used.map (·.uid) ++ ((R.filterMap Verif.ConnPool.made).map (·.uid) ++ s.dead)))).Nodup :=
      List.nodup_cons.2 ⟨fun hi => Nat.lt_irrefl _ ((hfr _).1 hi), hun⟩
    refine List.Perm.nodup ?_ this
    simp only [live, List.filterMap_cons, Verif.ConnPool.made, List.map_cons]
    rw [List.cons_append, ← List.append_assoc, ← List.append_assoc (List.map (·.uid) s.conns) (List.map (·.uid) s.used) (_ :: _)]
    exact List.perm_middle.symm
  · intro u
    have h1 : u < s.fresh + 1 ↔ u < s.fresh ∨ u = s.fresh := by omega
    show _ ↔ u < s.fresh + 1
    rw [h1, ← hfr u]
    simp only [live, List.filterMap_cons, Verif.ConnPool.made, List.map_cons, List.mem_append, List.mem_cons]
    grind
  · intro d hd
    have := (hfr d.uid).1 (by simp only [List.mem_append]; exact .inl (List.mem_map_of_mem hd))
    show upd _ _ _ _ = _
    rw [upd_ne _ _ (by omega)]
    exact h.idle d hd
  · intro d hd
    show upd _ _ _ _ = _
    by_cases hne : d.uid = s.fresh
    · rw [hne]; exact upd_same ..
    · rw [upd_ne _ _ hne]
      apply h.made
      simp only [List.filterMap_cons, Verif.ConnPool.made, List.mem_cons] at hd ⊢
      rcases hd with rfl | hd
      · exact absurd rfl hne
      · exact hd
  · intro j hj
    exact h.failed j (List.mem_cons_of_mem _ (by simpa using hj))
  · intro _
    exact ⟨_, List.mem_cons_self .., rfl⟩

theorem use_inv {s : St} {R : List T} {c : Conn} (h : Inv s (.connected c :: R)) (thr : List T) :
    Inv { s with thr := thr, used := s.used ++ [c], newConns := s.newConns - 1 } (.has c :: R) := by
  have hn : s.newConns = (R.filterMap pend).length + 1 := by simpa [List.filterMap_cons, pend] using h.new
  have e1 : ids s (.connected c :: R) = s.conns.map (·.id) ++ (s.used.map (·.id) ++ c.id :: R.filterMap pend) := by
    simp [ids, List.filterMap_cons, pend]
  have e2 : ids { s with thr := thr, used := s.used ++ [c], newConns := s.newConns - 1 } (.has c :: R) = ids s (.connected c :: R) := by
    simp [ids, List.filterMap_cons, pend]
  have e3 : live { s with thr := thr, used := s.used ++ [c], newConns := s.newConns - 1 } (.has c :: R) = live s (.connected c :: R) := by
    simp [live, List.filterMap_cons, Verif.ConnPool.made]
  refine ⟨h.max, by rw [e2]; exact h.nodup, by rw [e2]; exact h.up, by rw [e2]; exact h.all, ?_, ?_, ?_,
    by simpa [List.countP_cons, asleep] using h.wait, by rw [e3]; exact h.uids, by rw [e3]; exact h.fresh, h.idle, ?_, ?_, ?_, ?_⟩
  · show s.newConns - 1 = _
    simp [List.filterMap_cons, pend, hn]
  · have := h.bound
    show s.conns.length + ((s.used ++ [c]).length + (s.newConns - 1)) ≤ s.max
    simp only [List.length_append, List.length_cons, List.length_nil]
    omega
  · have : s.used.Perm (R.filterMap Verif.ConnPool.held) := by simpa [List.filterMap_cons, Verif.ConnPool.held] using h.held
    show (s.used ++ [c]).Perm _
    simp only [List.filterMap_cons, Verif.ConnPool.held]
    exact List.perm_append_comm.trans (this.cons c)
  · intro d hd
    apply h.made
    simp only [List.filterMap_cons, Verif.ConnPool.made, List.mem_cons] at hd ⊢
    exact .inr hd
  · intro j hj
    exact h.failed j (List.mem_cons_of_mem _ (by simpa using hj))
  · intro _
    exact ⟨_, List.mem_cons_self .., rfl⟩
  · intro hs
    have := (h.stopped hs).2.1
    omega

theorem init_inv {max k n : Nat} (hm : 0 < max) (hk : k ≤ max) : Inv (init max k n) (init max k n).thr := by
  have e : ∀ {β : Type} (f : T → Option β), f .out = none → (List.replicate n T.out).filterMap f = [] := by
    intro β f hf
    simp only [List.filterMap_eq_nil_iff]
    intro a ha
    rw [List.eq_of_mem_replicate ha]; exact hf
  have e1 : ids (init max k n) (init max k n).thr = List.range k := by
    simp only [ids, init, e pend rfl, List.map_nil, List.append_nil, List.map_map]
    exact List.map_id' _
  have e2 : live (init max k n) (init max k n).thr = List.range k := by
    simp only [live, init, e Verif.ConnPool.made rfl, List.map_nil, List.append_nil, List.map_map]
    exact List.map_id' _
  refine ⟨hm, by rw [e1]; exact List.nodup_range, ?_, ?_, ?_, ?_, ?_, ?_, by rw [e2]; exact List.nodup_range, ?_, ?_, ?_, ?_, ?_, ?_⟩
  · rw [e1]
    intro i hi
    have := List.mem_range.1 hi
    exact ⟨by simp [init, this], by show i < max; omega⟩
  · rw [e1]
    intro _ i hi
    refine List.mem_range.2 ?_
    simp only [init] at hi
    split at hi
    · assumption
    · exact absurd hi (by simp)
  · simp [init, e pend rfl]
  · simp [init]; exact hk
  · simp [init, e Verif.ConnPool.held rfl]
  · simp [init, List.countP_replicate, asleep]
  · rw [e2]
    intro u
    exact List.mem_range
  · intro c _; rfl
  · intro c hc; rfl
  · intro id hi
    have := List.eq_of_mem_replicate hi
    simp at this
  · intro hs
    have := List.eq_of_mem_replicate hs
    simp at this
  · intro hs
    simp [init] at hs

theorem Step.inv {s s' : St} (h : Inv s s.thr) (st : Step s s') : Inv s' s'.thr := by
  cases st with
  | call i hi =>
    obtain ⟨R, p, q⟩ := split hi
    have h := h.perm p
    refine Inv.perm (l := .enter false none :: R) ?_ (q _).symm
    refine Inv.thr (h := ?_) _
    refine h.move rfl rfl rfl rfl (by simp) ?_
    intro hs
    obtain ⟨z, hz, hz2⟩ := h.busy (by simpa using hs)
    rcases List.mem_cons.1 hz with rfl | hz
    · simp [active] at hz2
    · exact ⟨z, List.mem_cons_of_mem _ hz, hz2⟩
  | top i w f exp hi =>
    obtain ⟨R, p, q⟩ := split hi
    have h := h.perm p
    unfold Verif.ConnPool.top
    split
    · rename_i h0
      refine Inv.perm (l := .refused :: R) ?_ (q _).symm
      refine Inv.thr (h := ?_) _
      obtain ⟨_, h2, h3, _⟩ := h.stopped h0
      have hf : f = none := by
        cases f with
        | none => rfl
        | some id =>
          have := h.new
          simp [h2, List.filterMap_cons, pend] at this
      subst hf
      refine h.move rfl rfl rfl rfl (by simp) ?_
      intro hs
      exfalso
      have hw := h.wait
      rw [h3] at hw
      have : 0 < (T.enter w none :: R).countP asleep := List.countP_pos_iff.2 ⟨.sleep, by simpa using hs, rfl⟩
      omega
    · rename_i h0
      have h0 : s.started = true := by simpa using h0
      split
      · obtain ⟨x, e, hx⟩ := body_inv h h0 i exp
        rw [e]
        exact hx.perm (q _).symm
      · rename_i id
        obtain ⟨rfl, h'⟩ := failed_in h
        obtain ⟨x, e, hx⟩ := body_inv h' h0 i exp
        rw [e]
        exact hx.perm (q _).symm
  | wake i hi =>
    obtain ⟨R, p, q⟩ := split hi
    have h := h.perm p
    refine Inv.perm (l := .woken :: R) ?_ (q _).symm
    refine Inv.thr (h := ?_) _
    exact h.move rfl rfl rfl rfl (by simp) (fun _ => ⟨_, List.mem_cons_self .., rfl⟩)
  | resume i exp hi =>
    obtain ⟨R, p, q⟩ := split hi
    have h := h.perm p
    have h0 : s.started = true := by
      cases hs : s.started
      · have h3 := (h.stopped hs).2.2.1
        have hw := h.wait
        rw [h3, List.countP_cons_of_pos (by rfl)] at hw
        omega
      · rfl
    obtain ⟨x, e, hx⟩ := body_inv (woken_in h) h0 i exp
    unfold Verif.ConnPool.resume
    rw [e]
    exact hx.perm (q _).symm
  | connOk i id hi =>
    obtain ⟨R, p, q⟩ := split hi
    exact (connOk_inv (h.perm p) _).perm (q _).symm
  | connFail i id hi =>
    obtain ⟨R, p, q⟩ := split hi
    have h := h.perm p
    refine Inv.perm (l := .enter true (some id) :: R) ?_ (q _).symm
    refine Inv.thr (h := ?_) _
    exact h.move rfl rfl rfl rfl (by simp) (fun _ => ⟨_, List.mem_cons_self .., rfl⟩)
  | use i c hi =>
    obtain ⟨R, p, q⟩ := split hi
    exact (use_inv (h.perm p) _).perm (q _).symm
  | mark i c st hi =>
    obtain ⟨R, p, q⟩ := split hi
    exact (mark_inv (h.perm p) st).perm p.symm
  | release i c exp thr hi hsig =>
    obtain ⟨R, p, q⟩ := split hi
    have h := h.perm p
    have ht : (Verif.ConnPool.release s i c exp).thr = s.thr.set i .out := by
      unfold Verif.ConnPool.release; dsimp only; split
      · rfl
      · split <;> rfl
    rw [ht] at hsig
    show Inv _ thr
    refine Inv.thr (h := ?_) _
    rcases hsig with ⟨j, hj, rfl⟩ | ⟨hno, rfl⟩
    · obtain ⟨R2, p2, q2⟩ := split hj
      refine Inv.perm (l := .woken :: R2) ?_ (q2 _).symm
      -- `R` is `sleep` and the rest
      have hin : T.sleep ∈ R := by
        have : T.sleep ∈ s.thr.set i .out := p2.mem_iff.2 (List.mem_cons_self ..)
        simpa using (q _).mem_iff.1 this
      have pR : R.Perm (.sleep :: R.erase .sleep) := List.perm_cons_erase hin
      have pR2 : R2.Perm (.out :: R.erase .sleep) := by
        have : (T.sleep :: R2).Perm (.sleep :: .out :: R.erase .sleep) :=
          (p2.symm.trans (q _)).trans ((pR.cons _).trans (List.Perm.swap ..))
        exact (List.perm_cons _).1 this
      have h1 : Inv s (.sleep :: .has c :: R.erase .sleep) := h.perm ((pR.cons _).trans (List.Perm.swap ..))
      have h2 : Inv s (.woken :: .has c :: R.erase .sleep) :=
        h1.move rfl rfl rfl rfl (by simp) (fun _ => ⟨.woken, List.mem_cons_self .., rfl⟩)
      have h3 := release_inv (h2.perm (List.Perm.swap ..)) (fun _ => ⟨.woken, List.mem_cons_self .., rfl⟩) i exp
      exact h3.perm ((List.Perm.swap ..).trans (pR2.symm.cons _))
    · have hno' : T.sleep ∉ R := fun hs => hno _ ((q _).mem_iff.2 (List.mem_cons_of_mem _ hs)) rfl
      exact (release_inv h (fun hs => absurd hs hno') i exp).perm (q _).symm
  | stop h1 h2 h3 =>
    refine ⟨h.max, ?_, ?_, fun hs => by simp at hs, h.new, ?_, h.held, h.wait, ?_, ?_, fun c hc => by simp at hc, h.made, h.failed, h.busy,
      fun _ => ⟨h1, h3, h2, rfl⟩⟩
    · exact (List.nodup_append.1 h.nodup).2.1
    · intro i hi
      exact h.up i (List.mem_append_right _ hi)
    · show 0 + _ ≤ _
      have := h.bound
      show 0 + (s.used.length + s.newConns) ≤ s.max
      omega
    · refine List.Perm.nodup ?_ h.uids
      simp only [live, List.map_nil, List.nil_append]
      have aux : ∀ a b c d : List Nat, (a ++ (b ++ (c ++ d))).Perm (b ++ (c ++ (a ++ d))) := by
        intro a b c d
        have h1 : (a ++ (b ++ c) ++ d).Perm ((b ++ c) ++ a ++ d) := List.Perm.append_right _ List.perm_append_comm
        simpa [List.append_assoc] using h1
      exact aux ..
    · intro u
      rw [← h.fresh u]
      simp only [live, List.map_nil, List.nil_append, List.mem_append]
      grind

theorem Reach.inv {s0 s : St} (h0 : Inv s0 s0.thr) (h : Reach s0 s) : Inv s s.thr := by
  induction h with
  | init => exact h0
  | step _ st ih => exact st.inv ih

end Verif.ConnPool
