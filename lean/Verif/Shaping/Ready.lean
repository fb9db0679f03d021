import Verif.Shaping.Runs

/-! From the timer to the bytes. -/
namespace Verif.Shaping

/-- From time `t` on nothing is held back. -/
structure Ready (t : Nat) (rd : Bool) (d : Dir) : Prop where
  good : Good t d
  free : ∀ t', t ≤ t' → Free t' d
  lat : ∀ t', t ≤ t' → ∀ k, latency (still t') rd d k = 0

theorem Ready.mono {t t' : Nat} {rd : Bool} {d : Dir} (h : Ready t rd d) (ht : t ≤ t') : Ready t' rd d :=
  ⟨h.good.mono ht, fun u hu => h.free u (by omega), fun u hu => h.lat u (by omega)⟩

theorem Ready.timeout {t : Nat} {rd disc : Bool} {d : Dir} (h : Ready t rd d) (hw : Waits rd disc d) (k : Nat) :
    ∃ x, timeoutDir (still t) rd disc d k = some x ∧ x.1 = 0 ∧ Ready t rd x.2.1 ∧ Waits rd disc x.2.1 := by
  have hnz : nextMs (still t) d.conf d.tr k = some (0, (maxSize (still t) d.conf d.tr k).2) := by
    unfold nextMs
    dsimp only
    rw [if_pos (h.free t (Nat.le_refl _) k)]
  obtain ⟨x, hx⟩ := timeoutDir_total h.good (still t) rd disc k
  have hx0 : x.1 = 0 ∧ x.2.1 = { d with tr := (maxSize (still t) d.conf d.tr k).2.1 } := by
    unfold timeoutDir at hx
    split at hx
    · rename_i hd
      rcases hw.1 with h1 | h1 <;> simp [h1] at hd
    split at hx
    · rename_i hd
      exact absurd hw.2.1 (by rintro (h1 | h1); exact h1 hd.1; exact h1 hd.2)
    split at hx
    · rename_i hd
      rw [hw.2.2] at hd; cases hd
    · rw [hnz] at hx
      cases hx
      exact ⟨by show max 0 _ = 0; rw [h.lat t (Nat.le_refl _)]; rfl, rfl⟩
  obtain ⟨_, ex⟩ := timeoutDir_exact h.good hx
  obtain ⟨_, _, e3, _⟩ := ex hw
  refine ⟨x, hx, hx0.1, ⟨h.good.q (timeoutDir_q hx), fun u hu => (e3 u (by omega)).1, fun u hu => (e3 u (by omega)).2⟩, ?_⟩
  rw [hx0.2]
  exact hw

theorem timeoutDir_waits {c : Nat → Nat} {rd disc : Bool} {d : Dir} {k : Nat} {r : Nat × Dir × Nat} (h : timeoutDir c rd disc d k = some r) :
    r.2.1.conf = d.conf ∧ r.2.1.waiting = d.waiting ∧ r.2.1.last = d.last ∧ r.2.1.full = d.full := by
  unfold timeoutDir at h
  split at h
  · cases h; exact ⟨rfl, rfl, rfl, rfl⟩
  split at h
  · cases h; exact ⟨rfl, rfl, rfl, rfl⟩
  split at h
  · cases h; exact ⟨rfl, rfl, rfl, rfl⟩
  · cases hn : nextMs c d.conf d.tr k with
    | none => rw [hn] at h; cases h
    | some x => rw [hn] at h; cases h; exact ⟨rfl, rfl, rfl, rfl⟩

theorem waits_iff {c : Nat → Nat} {rd disc : Bool} {d : Dir} {k : Nat} {r : Nat × Dir × Nat} (h : timeoutDir c rd disc d k = some r) :
    Waits rd disc r.2.1 ↔ Waits rd disc d := by
  have := timeoutDir_waits h
  unfold Waits
  rw [this.1, this.2.1]

theorem setTimeout_eq {c : Nat → Nat} {h : H} {k : Nat} {r : H × Nat} (hs : setTimeout c h k = some r) :
    ∃ i o, timeoutDir c true h.disc h.inn k = some i ∧ timeoutDir c false h.disc h.out i.2.2 = some o ∧
      r.1 = { h with inn := i.2.1, out := o.2.1, timer := arm i.1 o.1 } := by
  unfold setTimeout at hs
  split at hs
  · cases hs
  · rename_i i hi
    split at hs
    · cases hs
    · rename_i o ho
      cases hs
      exact ⟨i, o, hi, ho, rfl⟩

/-- A direction is ready and stays so when the timer is set. -/
theorem setTimeout_ready {t : Nat} {h : H} (hg : ∀ rd, Good t (get h rd)) {k : Nat} {r : H × Nat} (hs : setTimeout (still t) h k = some r)
    {y : Bool} (hy : Ready t y (get h y)) (hw : Waits y h.disc (get h y)) : Ready t y (get r.1 y) ∧ Waits y r.1.disc (get r.1 y) := by
  obtain ⟨i, o, hi, ho, hr⟩ := setTimeout_eq hs
  rw [hr]
  cases y
  · obtain ⟨x, hx, _, hxr, hxw⟩ := hy.timeout hw i.2.2
    have hx : timeoutDir (still t) false h.disc h.out i.2.2 = some x := hx
    rw [ho] at hx
    cases hx
    exact ⟨hxr, hxw⟩
  · obtain ⟨x, hx, _, hxr, hxw⟩ := hy.timeout hw k
    have hx : timeoutDir (still t) true h.disc h.inn k = some x := hx
    rw [hi] at hx
    cases hx
    exact ⟨hxr, hxw⟩

/-- Setting the timer while something waits starts it. -/
theorem setTimeout_armed {t : Nat} {h : H} (hg : ∀ rd, Good t (get h rd)) {k : Nat} {r : H × Nat} (hs : setTimeout (still t) h k = some r)
    {y : Bool} (hw : Waits y r.1.disc (get r.1 y)) : r.1.timer ≠ none := by
  obtain ⟨i, o, hi, ho, hr⟩ := setTimeout_eq hs
  rw [hr] at hw ⊢
  have g1 := timeoutDir_exact (hg true) hi
  have g2 := timeoutDir_exact (hg false) ho
  have : min i.1 o.1 ≠ inf := by
    cases y
    · have := (g2.2 ((waits_iff ho).mp hw)).1
      omega
    · have := (g1.2 ((waits_iff hi).mp hw)).1
      omega
  show arm i.1 o.1 ≠ none
  unfold arm
  rw [if_neg this]
  exact Option.some_ne_none _

theorem soft_mem {y : Bool} {i o : Nat} (h : Ev.soft y ∈ softIf true i ++ softIf false o) : (if y then i else o) = 0 := by
  unfold softIf at h
  cases y <;> (split at h <;> split at h <;> simp_all)

theorem soft_in {i : Nat} (h : i = 0) : Ev.soft true ∈ softIf true i := by unfold softIf; rw [if_pos h]; simp
theorem soft_in' {i : Nat} (h : i = 0) : Ev.soft false ∈ softIf false i := by unfold softIf; rw [if_pos h]; simp

/-- A direction that was given time 0. -/
theorem timeoutDir_zero {t : Nat} {d : Dir} (h : Good t d) {rd disc : Bool} {k : Nat} {r : Nat × Dir × Nat}
    (ht : timeoutDir (still t) rd disc d k = some r) (hz : r.1 = 0) : Ready t rd r.2.1 ∧ Waits rd disc r.2.1 := by
  obtain ⟨e1, e2⟩ := timeoutDir_exact h ht
  have hw : Waits rd disc d := by
    apply Classical.byContradiction
    intro hn
    have := e1 hn
    rw [hz] at this
    exact absurd this (by decide)
  obtain ⟨_, _, e3, _⟩ := e2 hw
  exact ⟨⟨h.q (timeoutDir_q ht), fun u hu => (e3 u (by omega)).1, fun u hu => (e3 u (by omega)).2⟩, (waits_iff ht).mpr hw⟩

/-- The callback of the timer: those it wakes are ready, and the timer runs again for the others. -/
theorem timer_wakes {t : Nat} {h : H} (hg : ∀ rd, Good t (get h rd)) :
    ∃ r, timerCb (still t) h = some r ∧ (∀ rd, Good t (get r.1 rd)) ∧ r.1.disc = h.disc ∧
      (∀ y, (∃ x, timeoutDir (still t) y h.disc (get h y) 0 = some x ∧ x.1 = 0) → .soft y ∈ r.2) ∧
      (∀ y, .soft y ∈ r.2 → Ready t y (get r.1 y) ∧ Waits y r.1.disc (get r.1 y)) ∧
      (∀ y, Waits y r.1.disc (get r.1 y) → .soft y ∈ r.2 ∨ r.1.timer ≠ none) := by
  obtain ⟨r, hr, hgr⟩ := step_safe (x := ⟨.timer, still t⟩) hg (mono_still t) (Nat.le_refl t) (fun _ => Nat.le_refl t) trivial trivial
  have hr : timerCb (still t) h = some r := hr
  refine ⟨r, hr, hgr, ?_⟩
  unfold timerCb at hr
  split at hr
  · cases hr
  · rename_i i hi
    split at hr
    · cases hr
    · rename_i o ho
      -- the value does not depend on the number of the reading
      have hsame : ∀ x, timeoutDir (still t) false h.disc h.out 0 = some x → x.1 = 0 → o.1 = 0 := by
        intro x hx hz
        obtain ⟨g1, g2⟩ := timeoutDir_zero (hg false) hx hz
        have hw : Waits false h.disc h.out := (waits_iff hx).mp g2
        have hzero : ∀ k, latency (still t) false h.out k = 0 := by
          intro k
          have := g1.lat t (Nat.le_refl _) k
          have e := timeoutDir_waits hx
          unfold latency at this ⊢
          rw [e.1, e.2.2.1, e.2.2.2] at this
          exact this
        have hmax : ∀ k, (maxSize (still t) h.out.conf h.out.tr k).1 ≠ 0 := by
          intro k
          rw [maxSize_still t _ _ k 0]
          intro hm
          unfold timeoutDir at hx
          split at hx
          · cases hx; exact absurd (show inf = 0 from hz) (by decide)
          split at hx
          · cases hx; exact absurd (show inf = 0 from hz) (by decide)
          split at hx
          · cases hx; exact absurd (show inf = 0 from hz) (by decide)
          · cases hn : nextMs (still t) h.out.conf h.out.tr 0 with
            | none => rw [hn] at hx; cases hx
            | some n =>
              rw [hn] at hx
              cases hx
              obtain ⟨_, a2, _⟩ := nextMs_exact (hg false) hn
              have hn0 : n.1 = 0 := by
                have : max n.1 _ = 0 := hz
                omega
              have : nextMs (still t) h.out.conf h.out.tr 0 = some n := hn
              unfold nextMs at this
              dsimp only at this
              rw [if_neg (by simpa using hm)] at this
              split at this
              · cases this
              · rename_i w hw'
                cases this
                -- a wait is never zero
                have hpos : wsub w.2 (elapsed w.1.start (still t (maxSize (still t) h.out.conf h.out.tr 0).2.2)) ≠ 0 := by
                  intro hbad
                  have hb3 := a2 t (by rw [hn0]; exact Nat.le_refl _) 0
                  have hb3 : (maxSize (still t) h.out.conf (maxSize (still t) h.out.conf h.out.tr 0).2.1 0).1 ≠ 0 := hb3
                  have hid : (maxSize (still t) h.out.conf (maxSize (still t) h.out.conf h.out.tr 0).2.1 0).1 = (maxSize (still t) h.out.conf h.out.tr 0).1 := by
                    have hg0 := (hg false).exp (still t) 0
                    have hfix : (expired (still t) h.out.conf (expired (still t) h.out.conf h.out.tr 0).1 0).1 = (expired (still t) h.out.conf h.out.tr 0).1 := by
                      obtain ⟨_, e4⟩ := expired_cases (t := t) (hg false) 0
                      have e4 : ∀ s rest, (expired (still t) h.out.conf h.out.tr 0).1.slots = s :: rest → t < s.start + h.out.conf.period * 1000 := e4
                      generalize expired (still t) h.out.conf h.out.tr 0 = ex at *
                      unfold expired
                      cases hsl : ex.1.slots with
                      | nil => simp only [expire]; rw [← hsl]
                      | cons s rest =>
                        have hlt := e4 s rest hsl
                        simp only [expire]
                        have hless := (hg false).conf.less
                        have hlt2 : elapsed s.start (still t 0) < periodMs h.out.conf := by
                          rw [show h.out.conf = (get h false).conf from rfl, (hg false).conf.pm]
                          show t - s.start < h.out.conf.period * 1000
                          have hless : h.out.conf.freq < h.out.conf.period * 1000 := hless
                          omega
                        rw [if_pos hlt2]
                        dsimp only
                        rw [← hsl]
                    show (allowed _ _ _ _).1 = (allowed _ _ _ _).1
                    rw [maxSize_tr, hfix]
                    exact allowed_still t _ _ _ _
                  exact hb3 (hid.trans hm)
                exact hpos hn0
        unfold timeoutDir at ho
        split at ho
        · rename_i hd
          rcases hw.1 with h1 | h1
          · cases h1
          · simp [h1] at hd
        split at ho
        · rename_i hd
          exact absurd hw.2.1 (by rintro (h1 | h1); exact h1 hd.1; exact h1 hd.2)
        split at ho
        · rename_i hd
          rw [hw.2.2] at hd; cases hd
        · have hnz : nextMs (still t) h.out.conf h.out.tr i.2.2 = some (0, (maxSize (still t) h.out.conf h.out.tr i.2.2).2) := by
            unfold nextMs
            dsimp only
            rw [if_pos (hmax _)]
          rw [hnz] at ho
          cases ho
          show max 0 _ = 0
          rw [hzero]
          rfl
      have q1 := timeoutDir_q hi
      have q2 := timeoutDir_q ho
      have hsoft : ∀ y, (∃ x, timeoutDir (still t) y h.disc (get h y) 0 = some x ∧ x.1 = 0) → Ev.soft y ∈ softIf true i.1 ++ softIf false o.1 := by
        rintro y ⟨x, hx, hz⟩
        cases y
        · exact List.mem_append.mpr (.inr (soft_in' (hsame x hx hz)))
        · have hx : timeoutDir (still t) true h.disc h.inn 0 = some x := hx
          rw [hi] at hx
          cases hx
          exact List.mem_append.mpr (.inl (soft_in hz))
      have hready : ∀ y, Ev.soft y ∈ softIf true i.1 ++ softIf false o.1 →
          Ready t y (get { h with inn := i.2.1, out := o.2.1, timer := none } y) ∧
          Waits y h.disc (get { h with inn := i.2.1, out := o.2.1, timer := none } y) := by
        intro y hy
        have := soft_mem hy
        cases y
        · exact timeoutDir_zero (hg false) ho this
        · exact timeoutDir_zero (hg true) hi this
      have hg2 : ∀ rd, Good t (get { h with inn := i.2.1, out := o.2.1, timer := none } rd) := by
        intro rd
        cases rd
        · exact (hg false).q q2
        · exact (hg true).q q1
      split at hr
      · cases hst : setTimeout (still t) { h with inn := i.2.1, out := o.2.1, timer := none } o.2.2 with
        | none => rw [hst] at hr; cases hr
        | some z =>
          rw [hst] at hr
          cases hr
          refine ⟨(setTimeout_q hst).2.2, hsoft, ?_, ?_⟩
          · intro y hy
            exact setTimeout_ready hg2 hst (hready y hy).1 (hready y hy).2
          · intro y hw
            exact .inr (setTimeout_armed hg2 hst hw)
      · rename_i hnw
        cases hr
        refine ⟨rfl, hsoft, hready, ?_⟩
        intro y hw
        left
        have e1 := timeoutDir_waits hi
        have e2 := timeoutDir_waits ho
        unfold numWait at hnw
        have hi0 : i.1 = 0 → h.inn.waiting = true := fun hz => by
          have := (timeoutDir_zero (hg true) hi hz).2.2.2
          rw [e1.2.1] at this
          exact this
        have ho0 : o.1 = 0 → h.out.waiting = true := fun hz => by
          have := (timeoutDir_zero (hg false) ho hz).2.2.2
          rw [e2.2.1] at this
          exact this
        cases y
        · have hwt : h.out.waiting = true := by rw [← e2.2.1]; exact hw.2.2
          by_cases hz : o.1 = 0
          · exact List.mem_append.mpr (.inr (soft_in' hz))
          · exfalso
            rw [if_pos hwt, if_neg hz] at hnw
            by_cases hz2 : i.1 = 0
            · rw [if_pos (hi0 hz2), if_pos hz2] at hnw
              omega
            · rw [if_neg hz2] at hnw
              omega
        · have hwt : h.inn.waiting = true := by rw [← e1.2.1]; exact hw.2.2
          by_cases hz : i.1 = 0
          · exact List.mem_append.mpr (.inl (soft_in hz))
          · exfalso
            rw [if_pos hwt, if_neg hz] at hnw
            by_cases hz2 : o.1 = 0
            · rw [if_pos (ho0 hz2), if_pos hz2] at hnw
              omega
            · rw [if_neg hz2] at hnw
              omega

/-- An event for a direction that is ready passes, and the direction stays ready. -/
theorem event_passes {t : Nat} {h : H} (hg : ∀ rd, Good t (get h rd)) {y : Bool} (hy : Ready t y (get h y)) (hw : Waits y h.disc (get h y)) :
    ∃ h3, processCb (still t) h y = some (h3, [.pass y]) ∧ (∀ rd, Good t (get h3 rd)) ∧ Ready t y (get h3 y) := by
  obtain ⟨x, hx, hx0, hxr, hxw⟩ := hy.timeout hw 0
  obtain ⟨r, hr, hgr⟩ := step_safe (x := ⟨.event y, still t⟩) hg (mono_still t) (Nat.le_refl t) (fun _ => Nat.le_refl t) trivial trivial
  have hr : processCb (still t) h y = some r := hr
  have hr' := hr
  unfold processCb at hr
  have hnd : ¬ (!y && h.disc) = true := by rcases hw.1 with h1 | h1 <;> simp [h1]
  rw [if_neg hnd] at hr
  simp only [hx] at hr
  rw [if_pos hx0] at hr
  cases hst : setTimeout (still t) (put h y { x.2.1 with waiting := false }) x.2.2 with
  | none => rw [hst] at hr; cases hr
  | some z =>
    rw [hst] at hr
    cases hr
    refine ⟨z.1, hr', hgr, ?_⟩
    -- the direction does not wait any more, so its part of the timer leaves it alone
    have hkeep : ∀ {k : Nat} {d : Dir} {rd disc : Bool} {r : Nat × Dir × Nat}, d.waiting = false → timeoutDir (still t) rd disc d k = some r → r.2.1 = d := by
      intro k d rd disc r hwf hh
      unfold timeoutDir at hh
      split at hh
      · cases hh; rfl
      split at hh
      · cases hh; rfl
      · cases hh; rfl
    obtain ⟨i, o, hi, ho, hz⟩ := setTimeout_eq hst
    have hfin : get z.1 y = { x.2.1 with waiting := false } := by
      rw [hz]
      cases y
      · exact hkeep (d := { x.2.1 with waiting := false }) rfl ho
      · exact hkeep (d := { x.2.1 with waiting := false }) rfl hi
    rw [hfin]
    exact ⟨hxr.good.flags false x.2.1.full, hxr.free, hxr.lat⟩

theorem slack_nonneg (t : Nat) (f : Conf) (j : Nat) : still t (j + 3) ≤ still t j + slack f := Nat.le_add_right _ _

/-- A direction that is ready moves bytes. -/
theorem ready_moves {t : Nat} {h : H} (hg : ∀ rd, Good t (get h rd)) {y : Bool} (hy : Ready t y (get h y)) {len n : Nat} (hl : 1 ≤ len) (hn : 1 ≤ n) :
    ∃ h4 m, io (still t) h y len (.ok n) = some (h4, [.moved y t m]) ∧ 1 ≤ m := by
  obtain ⟨r, hr, hgr⟩ := step_safe (x := ⟨.io y len (.ok n), still t⟩) hg (mono_still t) (Nat.le_refl t) (fun _ => Nat.le_refl t) ⟨hl, hn⟩
    (fun j => slack_nonneg t _ j)
  have hr : io (still t) h y len (.ok n) = some r := hr
  have hr' := hr
  unfold io at hr
  split at hr
  · cases hr
  · rename_i x hx
    have hev : ∃ m, x.2.1 = .moved y t m ∧ 1 ≤ m := by
      unfold xfer at hx
      rw [if_neg (by simpa using hy.lat t (Nat.le_refl _) 0)] at hx
      dsimp only at hx
      have hf := hy.free t (Nat.le_refl _) 1
      rw [if_neg hf] at hx
      unfold go at hx
      dsimp only at hx
      cases ht : transfer (still t) (min n (min len (maxSize (still t) (get h y).conf (get h y).tr 1).1)) _ _ with
      | none => rw [ht] at hx; cases hx
      | some u =>
        rw [ht] at hx
        cases hx
        exact ⟨_, rfl, by omega⟩
    obtain ⟨m, hm, hm1⟩ := hev
    cases hst : setTimeout (still t) (put h y x.1) x.2.2 with
    | none => rw [hst] at hr; cases hr
    | some z =>
      rw [hst] at hr
      cases hr
      exact ⟨z.1, m, by rw [hr', hm], hm1⟩

/-- A direction that is held back moves nothing. -/
theorem held_blocks {t : Nat} {h : H} (hg : ∀ rd, Good t (get h rd)) {y : Bool}
    (hy : (∀ k, latency (still t) y (get h y) k ≠ 0) ∨ ∀ k, (maxSize (still t) (get h y).conf (get h y).tr k).1 = 0) (len : Nat) (res : Lower) :
    ∃ h4, io (still t) h y len res = some (h4, [.block y]) := by
  have hx : ∃ d k, xfer (still t) y (get h y) len res = some (d, .block y, k) ∧ Good t d := by
    unfold xfer
    by_cases hl : latency (still t) y (get h y) 0 = 0
    · rw [if_neg (by simpa using hl)]
      have hm : (maxSize (still t) (get h y).conf (get h y).tr 1).1 = 0 := by
        rcases hy with h1 | h1
        · exact absurd hl (h1 0)
        · exact h1 1
      dsimp only
      rw [if_pos hm]
      exact ⟨_, _, rfl, ((hg y).exp (still t) 1).flags true (get h y).full⟩
    · rw [if_pos hl]
      exact ⟨_, _, rfl, (hg y).flags true (get h y).full⟩
  obtain ⟨d, k, hx, hd⟩ := hx
  obtain ⟨z, hz⟩ := setTimeout_total (get_put_good hg y hd) (still t) k
  unfold io
  simp only [hx, hz]
  exact ⟨z.1, rfl⟩

end Verif.Shaping
