import Verif.Shaping.Ready

/-! Properties of the layer that limits the rate of reads and writes (C113). -/
namespace Verif.Shaping

/-- **Rate.**  After any calls, over any further calls that do not change how the rate of a direction is limited: when the mode is burst and
the rate is limited, then in every window of time shorter than the period less the sample frequency not more than `Bps * period` bytes
are moved.  The full claim is the same for every window as long as the period; it is false, see `window_fails`. -/
theorem window_partial (pre seg : List Call) (rd : Bool) (h h' : H) (evs0 evs : List Ev) (t0 t1 : Nat)
    (o1 : Ordered 0 pre t0) (r1 : run create pre = some (h, evs0)) (o2 : Ordered t0 seg t1) (r2 : run h seg = some (h', evs))
    (keep : ∀ x ∈ seg, Keeps rd x.op) (hb : (confAfter rd pre).burst = true) (h0 : (confAfter rd pre).bps ≠ 0)
    (hp : (confAfter rd pre).period * 1000 < 2 ^ 64) (a : Nat) :
    movedIn rd a (a + ((confAfter rd pre).period * 1000 - (confAfter rd pre).freq)) evs ≤ (confAfter rd pre).bps * (confAfter rd pre).period := by
  have hc := conf_create (rd := rd) r1
  have hl := run_light (rd := rd) o1 r1 (light_create rd)
  rw [← hc] at hb h0 hp ⊢
  have hpm : periodMs (get h rd).conf = (get h rd).conf.period * 1000 := Nat.mod_eq_of_lt hp
  have := run_cover (rd := rd) hb h0 hl.freq (es := []) o2 r2 keep ⟨⟨rfl, rfl, rfl, rfl⟩, hl.sum, fun T _ => Nat.zero_le _⟩
    (fun a => Nat.zero_le _) a
  rw [hpm] at this
  exact Nat.le_trans this (Nat.mod_le _ _)

/-- **Totals.**  The number of bytes that is reported for a direction is the number of bytes moved since the beginning. -/
theorem total_exact (calls : List Call) (rd : Bool) (h : H) (evs : List Ev) (r : run create calls = some (h, evs)) (c : Nat → Nat) :
    step c h (.total rd) = some (h, [.total rd (movedAll rd evs)]) := by
  have := run_total (rd := rd) r
  have h0 : (get create rd).total = 0 := by cases rd <;> rfl
  rw [h0, Nat.zero_add] at this
  show some (h, [Ev.total rd (get h rd).total]) = _
  rw [this]

/-- **Latency.**  While the latency for writing is not changed, two writes are never closer together than it. -/
theorem latency_write (pre seg : List Call) (h h' : H) (evs0 evs : List Ev) (t0 t1 : Nat)
    (o1 : Ordered 0 pre t0) (r1 : run create pre = some (h, evs0)) (o2 : Ordered t0 seg t1) (r2 : run h seg = some (h', evs))
    (keep : ∀ x ∈ seg, KeepsLat false x.op) : Apart (confAfter false pre).lat evs := by
  have hc := conf_create (rd := false) r1
  have hl := run_light (rd := false) o1 r1 (light_create false)
  have := run_apart (es := []) o2 r2 keep (by rw [hc]) hl (by simp) List.Pairwise.nil
  simpa using this

/-- **Nothing set, nothing held back.**  A direction without limit and without latency moves whatever the layer below moves. -/
theorem transparent (calls : List Call) (rd : Bool) (h h' : H) (evs0 evs : List Ev) (r : run create calls = some (h, evs0))
    (h0 : (confAfter rd calls).bps = 0) (hl : (confAfter rd calls).lat = 0) (c : Nat → Nat) (len n : Nat) (hlen : len < 2 ^ 64)
    (hs : step c h (.io rd len (.ok n)) = some (h', evs)) : ∃ t, evs = [.moved rd t (min n len)] := by
  have hc := conf_create (rd := rd) r
  rw [← hc] at h0 hl
  have h0 : (get h rd).conf.bps = 0 := h0
  have hl : (get h rd).conf.lat = 0 := hl
  have hs : io c h rd len (.ok n) = some (h', evs) := hs
  unfold io at hs
  split at hs
  · cases hs
  · rename_i x hx
    cases hst : setTimeout c (put h rd x.1) x.2.2 with
    | none => rw [hst] at hs; cases hs
    | some z =>
      rw [hst] at hs
      cases hs
      have hlat : latency c rd (get h rd) 0 = 0 := by
        unfold latency
        rw [hl]
        split
        · rfl
        split
        · rfl
        · exact Nat.zero_sub _
      have hm : (maxSize c (get h rd).conf (get h rd).tr 1).1 = W - 1 := by
        unfold maxSize allowed
        simp only [if_pos h0]
      unfold xfer at hx
      rw [if_neg (by simpa using hlat)] at hx
      dsimp only at hx
      rw [hm, if_neg (by decide)] at hx
      unfold go at hx
      dsimp only at hx
      have hmin : min len (W - 1) = len := by unfold W; omega
      rw [hmin] at hx
      cases ht : transfer c (min n len) { get h rd with tr := (maxSize c (get h rd).conf (get h rd).tr 1).2.1, waiting := decide (W - 1 < len), full := rd && !decide (W - 1 < len) } (maxSize c (get h rd).conf (get h rd).tr 1).2.2 with
      | none => rw [ht] at hx; cases hx
      | some u =>
        rw [ht] at hx
        cases hx
        exact ⟨_, rfl⟩

/-- **Who is held up below is not woken from here.**  Without latency: if bytes would have moved had the layer below taken them, and it
takes none, then nobody waits in that direction, and no timer runs if nobody waits in the other. -/
theorem held_below (c : Nat → Nat) (h h2 h' : H) (rd : Bool) (len n t m : Nat) (evs : List Ev) (hl : (get h rd).conf.lat = 0)
    (hm : step c h (.io rd len (.ok n)) = some (h2, [.moved rd t m])) (hs : step c h (.io rd len .block) = some (h', evs)) :
    (get h' rd).waiting = false ∧ evs = [.block rd] ∧ ((get h (!rd)).waiting = false → h'.timer = none) := by
  have hm : io c h rd len (.ok n) = some (h2, [.moved rd t m]) := hm
  have hs : io c h rd len .block = some (h', evs) := hs
  have hlat : latency c rd (get h rd) 0 = 0 := by
    unfold latency
    rw [hl]
    split
    · rfl
    split
    · rfl
    · exact Nat.zero_sub _
  have hmax : (maxSize c (get h rd).conf (get h rd).tr 1).1 ≠ 0 := by
    intro hz
    unfold io xfer at hm
    rw [if_neg (by simpa using hlat)] at hm
    dsimp only at hm
    rw [if_pos hz] at hm
    dsimp only at hm
    cases hst : setTimeout c (put h rd { get h rd with tr := (maxSize c (get h rd).conf (get h rd).tr 1).2.1, waiting := true }) (maxSize c (get h rd).conf (get h rd).tr 1).2.2 with
    | none => rw [hst] at hm; simp at hm
    | some z => rw [hst] at hm; simp at hm
  unfold io xfer at hs
  rw [if_neg (by simpa using hlat)] at hs
  dsimp only at hs
  rw [if_neg hmax] at hs
  simp only [go, lessThan, hl] at hs
  have key : ∀ {rd disc : Bool} {d : Dir} {k : Nat} {r : Nat × Dir × Nat}, d.waiting = false → timeoutDir c rd disc d k = some r → r.1 = inf ∧ r.2.1 = d := by
    intro rd disc d k r hw hr
    unfold timeoutDir at hr
    split at hr
    · cases hr; exact ⟨rfl, rfl⟩
    split at hr
    · cases hr; exact ⟨rfl, rfl⟩
    · cases hr; exact ⟨rfl, rfl⟩
  unfold setTimeout at hs
  split at hs
  · simp at hs
  · next i hi =>
    split at hs
    · simp at hs
    · next o ho =>
      cases hs
      cases rd
      · have ko := key (by rfl) ho
        refine ⟨by show o.2.1.waiting = false; rw [ko.2]; rfl, rfl, fun hw => ?_⟩
        have ki := key (by exact hw) hi
        show arm i.1 o.1 = none
        rw [ki.1, ko.1]; rfl
      · have ki := key (by rfl) hi
        refine ⟨by show i.2.1.waiting = false; rw [ki.2]; rfl, rfl, fun hw => ?_⟩
        have ko := key (by exact hw) ho
        show arm i.1 o.1 = none
        rw [ki.1, ko.1]; rfl

/-- **No missing slot is used.**  With settings that fit and a layer below that answers in time, no call of any history fails.  The full
claim is the same for all settings and all times; it is false, see `full_fails`, `overflow_fails` and `accept_fails`. -/
theorem no_ub_partial (calls : List Call) (fin : Nat) (o : Ordered 0 calls fin) (hs : ∀ x ∈ calls, Sane x.op) (hc : Calm create calls) :
    ∃ r, run create calls = some r :=
  run_safe o hs hc (good_create 0)

/-- **Who waits is woken, at the right time.**  After any read or write (at one moment `t`), if some direction waits, then the timer
runs.  Before it is due nothing moves in a direction that waits.  When it is due (at `t1`), some direction is told; when that direction
is then served, the event passes and the next read or write moves bytes; and the timer runs on for those who were not told.  The full
claim is the same without the assumption that the clock stands still during a call; it is false, see `underflow_fails`. -/
theorem wake_partial (pre : List Call) (h h' : H) (evs0 evs : List Ev) (t0 t : Nat) (o1 : Ordered 0 pre t0)
    (r1 : run create pre = some (h, evs0)) (hsane : ∀ x ∈ pre, Sane x.op) (ht : t0 ≤ t) (rd : Bool) (len : Nat) (res : Lower)
    (hs1 : Sane (.io rd len res)) (hs : step (still t) h (.io rd len res) = some (h', evs)) (x : Bool) (hw : Waits x h'.disc (get h' x)) :
    ∃ dl, h'.timer = some dl ∧
      (∀ t1, t ≤ t1 → t1 < t + dl → ∀ y, Waits y h'.disc (get h' y) → ∀ len res, ∃ h2, step (still t1) h' (.io y len res) = some (h2, [.block y])) ∧
      (∀ t1, t + dl ≤ t1 → ∃ h2 ev2, step (still t1) h' .timer = some (h2, ev2) ∧
        (∃ y, Waits y h'.disc (get h' y) ∧ .soft y ∈ ev2) ∧
        (∀ y, Waits y h2.disc (get h2 y) → .soft y ∈ ev2 ∨ h2.timer ≠ none) ∧
        (∀ y, .soft y ∈ ev2 → ∀ t2, t1 ≤ t2 → ∃ h3, step (still t2) h2 (.event y) = some (h3, [.pass y]) ∧
          ∀ t3, t2 ≤ t3 → ∀ len n, 1 ≤ len → 1 ≤ n → ∃ h4 m, step (still t3) h3 (.io y len (.ok n)) = some (h4, [.moved y t3 m]) ∧ 1 ≤ m)) := by
  have hg0 := run_good o1 r1 hsane (good_create 0)
  have hg1 : ∀ rd, Good t (get h rd) := fun rd => (hg0 rd).mono ht
  have hg : ∀ rd, Good t (get h' rd) := fun rd' => (hg1 rd').did (mono_still t) (Nat.le_refl t) (fun _ => Nat.le_refl t) hs1 (step_did hs rd')
  -- the timer as it was set
  have hset : ∃ hm k y, (∀ rd, Good t (get hm rd)) ∧ setTimeout (still t) hm k = some y ∧ y.1 = h' := by
    have hs : io (still t) h rd len res = some (h', evs) := hs
    unfold io at hs
    split at hs
    · cases hs
    · rename_i u hu
      cases hst : setTimeout (still t) (put h rd u.1) u.2.2 with
      | none => rw [hst] at hs; cases hs
      | some z =>
        rw [hst] at hs
        cases hs
        exact ⟨_, _, z, get_put_good hg1 rd (xfer_good (hg1 rd) (mono_still t) (Nat.le_refl t) (fun _ => Nat.le_refl t) hs1 hu), hst, rfl⟩
  obtain ⟨hm, k, y0, hgm, hst, hy0⟩ := hset
  obtain ⟨i, o, hi, ho, hr⟩ := setTimeout_eq hst
  rw [hy0] at hr
  have xi := timeoutDir_exact (hgm true) hi
  have xo := timeoutDir_exact (hgm false) ho
  have hval : ∀ y, Waits y h'.disc (get h' y) → min i.1 o.1 ≤ (if y then i.1 else o.1) ∧ (if y then i.1 else o.1) < inf := by
    intro y hwy
    rw [hr] at hwy
    cases y
    · exact ⟨Nat.min_le_right _ _, (xo.2 ((waits_iff ho).mp hwy)).1⟩
    · exact ⟨Nat.min_le_left _ _, (xi.2 ((waits_iff hi).mp hwy)).1⟩
  have hmin : min i.1 o.1 ≠ inf := by
    have := hval x hw
    omega
  refine ⟨min i.1 o.1, ?_, ?_, ?_⟩
  · rw [hr]
    show arm i.1 o.1 = _
    unfold arm
    rw [if_neg hmin]
  · intro t1 h1 h2 y hwy len' res'
    have hge := (hval y hwy).1
    have hheld : (∀ k, latency (still t1) y (get h' y) k ≠ 0) ∨ ∀ k, (maxSize (still t1) (get h' y).conf (get h' y).tr k).1 = 0 := by
      rw [hr] at hwy ⊢
      cases y
      · exact (xo.2 ((waits_iff ho).mp hwy)).2.2.2 t1 h1 (by simp at hge; omega)
      · exact (xi.2 ((waits_iff hi).mp hwy)).2.2.2 t1 h1 (by simp at hge; omega)
    exact held_blocks (fun rd => (hg rd).mono h1) hheld len' res'
  · intro t1 h1
    obtain ⟨r, hr1, hgr, hdisc, w1, w2, w3⟩ := timer_wakes (fun rd => (hg rd).mono (by omega : t ≤ t1))
    refine ⟨r.1, r.2, hr1, ?_, w3, ?_⟩
    · -- the direction whose time is the earlier one
      by_cases hio : i.1 ≤ o.1
      · have hw1 : Waits true hm.disc hm.inn := by
          apply Classical.byContradiction
          intro hn
          have := xi.1 hn
          omega
        refine ⟨true, by rw [hr]; exact (waits_iff hi).mpr hw1, w1 true ?_⟩
        have := (xi.2 hw1).2.1 t1 (by omega) 0
        rw [hr]
        exact this
      · have hw1 : Waits false hm.disc hm.out := by
          apply Classical.byContradiction
          intro hn
          have h3 := xo.1 hn
          have h4 : i.1 ≤ inf := by
            by_cases hwi : Waits true hm.disc hm.inn
            · exact Nat.le_of_lt (xi.2 hwi).1
            · exact Nat.le_of_eq (xi.1 hwi)
          omega
        refine ⟨false, by rw [hr]; exact (waits_iff ho).mpr hw1, w1 false ?_⟩
        have := (xo.2 hw1).2.1 t1 (by omega) 0
        rw [hr]
        exact this
    · intro y hy t2 h2
      obtain ⟨rdy, rw'⟩ := w2 y hy
      obtain ⟨h3, hp, hg3, hrdy⟩ := event_passes (fun rd => (hgr rd).mono h2) (rdy.mono h2) rw'
      refine ⟨h3, hp, ?_⟩
      intro t3 h4 len' n hl hn
      exact ready_moves (fun rd => (hg3 rd).mono h4) (hrdy.mono h4) hl hn

/-! ### Cases -/

/-- 10 bytes per second, one second, samples of 100 ms, for writing. -/
def demo : List Call := [⟨.throttle false 10, still 900⟩, ⟨.period false 1 100, still 900⟩]

/-- The case of `held_below`. -/
example : ∃ h evs h2 h', run create demo = some (h, evs) ∧ step (still 1000) h (.io false 5 (.ok 5)) = some (h2, [.moved false 1000 5]) ∧
    step (still 1000) h (.io false 5 .block) = some (h', [.block false]) := by
  refine ⟨_, _, _, _, rfl, rfl, rfl⟩

/-- A write of `n` bytes at time `t`. -/
def wr (t n : Nat) : Call := ⟨.io false n (.ok n), still t⟩

/-- The settings of `demo`. -/
example : confAfter false demo = { bps := 10, burst := true, period := 1, freq := 100, lat := 0 } := by decide +kernel

/-- A write of 30 bytes moves 10; the next is held back until the second is over. -/
example : (run create (demo ++ [wr 1000 30, wr 1500 20, wr 1999 20, wr 2000 20])).map (·.2) =
    some [.moved false 1000 10, .block false, .block false, .moved false 2000 10] := by decide +kernel

/-- The timer after it: due at 2000, tells the writer, and the event passes. -/
example : ((run create (demo ++ [wr 1000 30])).map (·.1.timer)) = some (some 1000) ∧
    ((run create (demo ++ [wr 1000 30, ⟨.timer, still 2000⟩, ⟨.event false, still 2001⟩, wr 2002 20])).map (·.2)) =
      some [.moved false 1000 10, .soft false, .pass false, .moved false 2002 10] := by
  constructor <;> decide +kernel

/-- The hypotheses of `wake_partial` are met. -/
example : ∃ h evs, run create (demo ++ [wr 1000 30]) = some (h, evs) ∧ h.timer = some 1000 ∧ Waits false h.disc (get h false) := by
  refine ⟨_, _, rfl, ?_⟩
  decide +kernel

/-- Calls at moments are calm. -/
theorem calm_still : ∀ (calls : List Call), (∀ x ∈ calls, ∃ t, x.c = still t) → ∀ h, Calm h calls
  | [], _, _ => trivial
  | x :: xs, hx, h => by
    refine ⟨?_, fun r _ => calm_still xs (fun y hy => hx y (by simp [hy])) r.1⟩
    obtain ⟨t, ht⟩ := hx x (by simp)
    unfold CalmCall
    split
    · intro j; rw [ht]; exact slack_nonneg t _ j
    · trivial

/-- The hypotheses of `no_ub_partial` and of the others about time are met. -/
example : Ordered 0 (demo ++ [wr 1000 30, wr 1500 20]) 1500 ∧ Calm create (demo ++ [wr 1000 30, wr 1500 20]) ∧
    ∀ x ∈ demo ++ [wr 1000 30, wr 1500 20], Sane x.op := by
  refine ⟨⟨900, by decide, mono_still _, fun _ => Nat.le_refl _, 900, by decide, mono_still _, fun _ => Nat.le_refl _, 1000, by decide,
    mono_still _, fun _ => Nat.le_refl _, 1500, by decide, mono_still _, fun _ => Nat.le_refl _, Nat.le_refl _⟩, ?_, ?_⟩
  · exact calm_still _ (by simp [demo, wr]; exact ⟨⟨_, rfl⟩, ⟨_, rfl⟩, ⟨_, rfl⟩⟩) _
  · simp [demo, wr, Sane]

/-- Latency: a write 50 ms after another waits until 200 ms have passed. -/
example : (run create [⟨.latency false 200, still 900⟩, wr 1200 5, wr 1250 5, wr 1399 5, wr 1400 5]).map (·.2) =
    some [.moved false 1200 5, .block false, .block false, .moved false 1400 5] := by decide +kernel

/-- Totals and the rate. -/
example : (run create [wr 1000 500, wr 1100 700, ⟨.total false, still 2000⟩, ⟨.rate false, still 3000⟩]).map (·.2) =
    some [.moved false 1000 500, .moved false 1100 700, .total false 1200, .rate false 600] := by decide +kernel

/-- **A window as long as the period can carry almost twice the limit.**  A slot is dated by its first byte: 9 of the 10 bytes are
moved at 1100, and 10 more at 2000; from 1100 to 2100 that makes 19. -/
theorem window_fails : ∃ evs h, run create (demo ++ [wr 1000 1, wr 1100 9, wr 2000 10]) = some (h, evs) ∧
    movedIn false 1100 2100 evs = 19 ∧ (confAfter false demo).bps * (confAfter false demo).period = 10 := by
  refine ⟨_, _, rfl, ?_⟩
  decide +kernel

/-- **Trickle does not limit anything in one millisecond of each slot.**  With one byte per slot, the byte at 1000 fills the slot; at
1100, exactly the sample frequency later, the check says the slot is over and the bytes are put into the same slot, so that any number
of bytes can be moved. -/
theorem trickle_fails : ∃ evs h, run create (demo ++ [⟨.mode false false, still 900⟩, wr 1000 9] ++ List.replicate 50 (wr 1100 9)) = some (h, evs) ∧
    movedIn false 1000 1100 evs = 1 ∧ movedIn false 1100 1101 evs = 50 := by
  refine ⟨_, _, rfl, ?_⟩
  decide +kernel

/-- **Slots run out when the layer below is slow.**  One second with samples of 400 ms: three slots, begun at 1000, 1401 and 1802.
A write that is checked at 1999 and done at 2203 needs a fourth. -/
theorem full_fails : run create [⟨.period false 1 400, still 900⟩, wr 1000 1, wr 1401 1, wr 1802 1,
    ⟨.io false 1 (.ok 1), fun j => if j < 3 then 1999 else 2203⟩] = none := by
  decide +kernel

/-- **A rate that overflows.**  `2^63` bytes per second in two seconds are 0 modulo `2^64`: the first write uses a slot that is not there. -/
theorem overflow_fails : run create [⟨.throttle false (2 ^ 63), still 900⟩, ⟨.period false 2 100, still 900⟩, wr 1000 1] = none := by
  decide +kernel

/-- **A connection that is accepted has the settings of the listener but slots for the defaults.**  With a sample frequency of 15 ms in
10 s the 102nd write, all 16 ms apart, uses a slot that is not there. -/
theorem accept_fails : ∃ h evs, run create [⟨.period false 10 15, still 900⟩] = some (h, evs) ∧
    run (accepted h) ((List.range 102).map fun i => wr (1000 + 16 * i) 1) = none := by
  refine ⟨_, _, rfl, ?_⟩
  decide +kernel

/-- **A clock that moves during the call stops the timer.**  At 1999 the slot is still counted; when the time to wait is computed the
clock says 2001, and 1000 less 1001 is `M_TIMEOUT_INF`: the writer waits and the timer does not run. -/
theorem underflow_fails : ∃ h evs, run create (demo ++ [wr 1000 10, ⟨.io false 5 (.ok 5), fun j => if j < 3 then 1999 else 2001⟩]) = some (h, evs) ∧
    Waits false h.disc (get h false) ∧ h.timer = none ∧ evs = [.moved false 1000 10, .block false] := by
  refine ⟨_, _, rfl, ?_⟩
  decide +kernel

/-- **Lifting the limit leaves a writer waiting.**  After the limit is set to none, the timer tells nobody and stops. -/
theorem unthrottle_fails : ∃ h evs, run create (demo ++ [wr 1000 10, wr 1500 5, ⟨.throttle false 0, still 1600⟩, ⟨.timer, still 2000⟩]) = some (h, evs) ∧
    (get h false).waiting = true ∧ h.timer = none ∧ evs = [.moved false 1000 10, .block false] := by
  refine ⟨_, _, rfl, ?_⟩
  decide +kernel

end Verif.Shaping
