import Verif.Shaping.Safe

/-! The time that is waited is the right one, when the clock does not move during a call. -/
namespace Verif.Shaping

theorem mono_still (t : Nat) : Mono (still t) := fun _ _ _ => Nat.le_refl _

/-- What the layer does not hold back at time `t`. -/
def Free (t : Nat) (d : Dir) : Prop := ∀ k, (maxSize (still t) d.conf d.tr k).1 ≠ 0

theorem expire_still (t keep : Nat) : ∀ (sl : List Slot) (b k k' : Nat),
    (expire (still t) keep b sl k).1 = (expire (still t) keep b sl k').1 ∧
    (expire (still t) keep b sl k).2.1 = (expire (still t) keep b sl k').2.1 := by
  intro sl
  induction sl with
  | nil => intro b k k'; exact ⟨rfl, rfl⟩
  | cons s sl ih =>
    intro b k k'
    have e : ∀ k, expire (still t) keep b (s :: sl) k =
        if t - s.start < keep then (b, s :: sl, k + 1) else expire (still t) keep (b - s.bytes) sl (k + 1) := fun _ => rfl
    rw [e k, e k']
    by_cases h : t - s.start < keep
    · rw [if_pos h, if_pos h]; exact ⟨rfl, rfl⟩
    · rw [if_neg h, if_neg h]; exact ih _ _ _

theorem expired_still (t : Nat) (f : Conf) (tr : Track) (k k' : Nat) : (expired (still t) f tr k).1 = (expired (still t) f tr k').1 := by
  unfold expired
  have := expire_still t (periodMs f) tr.slots tr.bytes k k'
  simp only [this.1, this.2]

theorem allowed_still (t : Nat) (f : Conf) (tr : Track) (k k' : Nat) : (allowed (still t) f tr k).1 = (allowed (still t) f tr k').1 := by
  unfold allowed
  split
  · rfl
  split
  · rfl
  · have : (inPeriod (still t) f tr k).1 = (inPeriod (still t) f tr k').1 := by
      unfold inPeriod
      split
      · rfl
      · rename_i s _
        show (if t - s.start ≥ f.freq then (0, k + 1) else (s.bytes, k + 1)).1 = (if t - s.start ≥ f.freq then (0, k' + 1) else (s.bytes, k' + 1)).1
        split <;> rfl
    simp only [this]

theorem maxSize_still (t : Nat) (f : Conf) (tr : Track) (k k' : Nat) : (maxSize (still t) f tr k).1 = (maxSize (still t) f tr k').1 := by
  show (allowed _ _ _ _).1 = (allowed _ _ _ _).1
  rw [expired_still t f tr k k']
  exact allowed_still t f _ _ _

/-- Old slots are gone, at time `t`. -/
theorem expired_cases {now t : Nat} {d : Dir} (h : Good now d) (k : Nat) :
    (∃ gone, d.tr.slots = gone ++ (expired (still t) d.conf d.tr k).1.slots ∧
      (expired (still t) d.conf d.tr k).1.bytes + sumB gone = d.tr.bytes ∧ ∀ s ∈ gone, s.start + d.conf.period * 1000 ≤ t) ∧
    (∀ s rest, (expired (still t) d.conf d.tr k).1.slots = s :: rest → t < s.start + d.conf.period * 1000) := by
  have hless := h.conf.less
  have hp : 0 < periodMs d.conf := by rw [h.conf.pm]; omega
  obtain ⟨gone, h1, h2, h3, h4, h5⟩ := expire_spec (still t) (periodMs d.conf) hp d.tr.slots d.tr.bytes k
  have hsum := h.sum
  have hs2 : sumB d.tr.slots = sumB gone + sumB (expired (still t) d.conf d.tr k).1.slots := by
    conv => lhs; rw [h1]
    rw [sumB_append]
    rfl
  refine ⟨⟨gone, h1, ?_, ?_⟩, ?_⟩
  · show (expire (still t) (periodMs d.conf) d.tr.bytes d.tr.slots k).1 + _ = _
    rw [h2]
    omega
  · intro s hs
    obtain ⟨j, _, hj⟩ := h4 s hs
    rw [h.conf.pm] at hj
    exact hj
  · intro s rest hs
    obtain ⟨j, _, _, hj⟩ := h5 s rest hs
    rw [h.conf.pm] at hj
    have : t - s.start < d.conf.period * 1000 := hj
    omega

theorem inPeriod_none (c : Nat → Nat) (f : Conf) (tr : Track) (k : Nat) (h : tr.slots.getLast? = none) : (inPeriod c f tr k).1 = 0 := by
  unfold inPeriod; rw [h]

theorem inPeriod_some (t : Nat) (f : Conf) (tr : Track) (k : Nat) (s : Slot) (h : tr.slots.getLast? = some s) :
    (inPeriod (still t) f tr k).1 = if f.freq ≤ t - s.start then 0 else s.bytes := by
  unfold inPeriod; rw [h]
  show (if t - s.start ≥ f.freq then (0, k + 1) else (s.bytes, k + 1)).1 = _
  split
  · rfl
  · rfl

theorem maxSize_tri {t : Nat} {d : Dir} (h : Good t d) (hb : d.conf.burst = false) (h0 : d.conf.bps ≠ 0) (k : Nat) :
    (maxSize (still t) d.conf d.tr k).1 =
      perSlot d.conf - (inPeriod (still t) d.conf (expired (still t) d.conf d.tr k).1 (expired (still t) d.conf d.tr k).2).1 :=
  (allowed_tri (h.exp (still t) k) (mono_still t) (Nat.le_refl t) hb h0).2.1

/-- What `next_ms` says at time `t`: with `v` milliseconds, nothing is allowed before they have passed and something is then. -/
theorem nextMs_exact {t : Nat} {d : Dir} (h : Good t d) {k : Nat} {r : Nat × Track × Nat} (hn : nextMs (still t) d.conf d.tr k = some r) :
    r.1 ≤ d.conf.period * 1000 ∧ (∀ t', t + r.1 ≤ t' → Free t' { d with tr := r.2.1 }) ∧
    (∀ t', t ≤ t' → t' < t + r.1 → ∀ k, (maxSize (still t') d.conf r.2.1 k).1 = 0) := by
  have htr := nextMs_tr hn
  have hg := h.exp (still t) k
  have hless := h.conf.less
  have hslot := h.conf.slot
  have hlim := h.conf.lim
  -- what is free now stays free
  have stays : (maxSize (still t) d.conf d.tr k).1 ≠ 0 → ∀ t', t ≤ t' → Free t' { d with tr := (expired (still t) d.conf d.tr k).1 } := by
    intro hne t' ht' k'
    obtain ⟨⟨gone, e1, e2, _⟩, _⟩ := expired_cases (t := t') hg k'
    show (maxSize (still t') d.conf (expired (still t) d.conf d.tr k).1 k').1 ≠ 0
    by_cases h0 : d.conf.bps = 0
    · unfold maxSize allowed
      simp only [if_pos h0]
      decide
    by_cases hb : d.conf.burst = true
    · rw [(maxSize_burst _ _ _ _ hb h0).1] at hne ⊢
      have e2 : (expired (still t') d.conf (expired (still t) d.conf d.tr k).1 k').1.bytes + sumB gone = (expired (still t) d.conf d.tr k).1.bytes := e2
      omega
    · have hb : d.conf.burst = false := by simpa using hb
      have hg' := hg.mono ht'
      rw [maxSize_tri h hb h0] at hne
      rw [show (maxSize (still t') d.conf (expired (still t) d.conf d.tr k).1 k').1 = _ from maxSize_tri hg' hb h0 k']
      dsimp only
      have e1 : (expired (still t) d.conf d.tr k).1.slots = gone ++ (expired (still t') d.conf (expired (still t) d.conf d.tr k).1 k').1.slots := e1
      cases hl : (expired (still t') d.conf (expired (still t) d.conf d.tr k).1 k').1.slots.getLast? with
      | none => rw [inPeriod_none _ _ _ _ hl]; omega
      | some s =>
        have hl2 : (expired (still t) d.conf d.tr k).1.slots.getLast? = some s := by rw [e1]; exact getLast_suffix hl
        rw [inPeriod_some _ _ _ _ s hl]
        rw [inPeriod_some _ _ _ _ s hl2] at hne
        split
        · omega
        · rename_i hlt
          rw [if_neg (by omega)] at hne
          exact hne
  unfold nextMs at hn
  dsimp only at hn
  split at hn
  · rename_i hne
    cases hn
    refine ⟨Nat.zero_le _, fun t' ht' => stays hne t' (by simpa using ht'), fun t' h1 h2 => absurd h2 (by simpa using h1)⟩
  · rename_i hz
    have hz : (maxSize (still t) d.conf d.tr k).1 = 0 := Classical.byContradiction hz
    have h0 : d.conf.bps ≠ 0 := by
      intro h0
      unfold maxSize allowed at hz
      simp only [if_pos h0] at hz
      exact absurd hz (by decide)
    have hbp : 0 < d.conf.bps * d.conf.period := Nat.mul_pos (by omega) (by omega)
    split at hn
    · cases hn
    rename_i w hw
    rw [maxSize_tr] at hw
    by_cases hb : d.conf.burst = true
    · -- burst: the first slot
      unfold waitFor at hw
      rw [if_pos hb] at hw
      cases hsl : (expired (still t) d.conf d.tr k).1.slots with
      | nil => rw [hsl] at hw; cases hw
      | cons s rest =>
        rw [hsl] at hw
        cases hw
        have hst : s.start ≤ t := hg.le s (by show s ∈ (expired (still t) d.conf d.tr k).1.slots; rw [hsl]; simp)
        have hsb : 1 ≤ s.bytes := hg.pos s (by show s ∈ (expired (still t) d.conf d.tr k).1.slots; rw [hsl]; simp)
        have hlt := (expired_cases (t := t) h k).2 s rest hsl
        have hv : wsub (periodMs d.conf) (elapsed s.start (still t (maxSize (still t) d.conf d.tr k).2.2)) = d.conf.period * 1000 - (t - s.start) := by
          rw [h.conf.pm]
          have hpb := h.conf.period
          show wsub (d.conf.period * 1000) (t - s.start) = _
          exact wsub_of_le (by omega) (by unfold W; omega)
        cases hn
        dsimp only
        rw [hv, maxSize_tr]
        have hbl := hg.lim hb h0
        have hbl : (expired (still t) d.conf d.tr k).1.bytes ≤ d.conf.bps * d.conf.period := hbl
        rw [(maxSize_burst _ _ _ _ hb h0).1, hlim] at hz
        refine ⟨by omega, ?_, ?_⟩
        · intro t' ht' k'
          obtain ⟨⟨gone, e1, e2, _⟩, e4⟩ := expired_cases (t := t') hg k'
          have e1 : (expired (still t) d.conf d.tr k).1.slots = gone ++ (expired (still t') d.conf (expired (still t) d.conf d.tr k).1 k').1.slots := e1
          have e2 : (expired (still t') d.conf (expired (still t) d.conf d.tr k).1 k').1.bytes + sumB gone = (expired (still t) d.conf d.tr k).1.bytes := e2
          show (maxSize (still t') d.conf (expired (still t) d.conf d.tr k).1 k').1 ≠ 0
          rw [(maxSize_burst _ _ _ _ hb h0).1, hlim]
          cases gone with
          | nil =>
            rw [hsl] at e1
            have := e4 s rest e1.symm
            exact absurd this (by show ¬ t' < s.start + d.conf.period * 1000; omega)
          | cons g gone =>
            rw [hsl] at e1
            have : g = s := by simpa using (List.cons.inj e1).1.symm
            subst this
            simp only [sumB] at e2
            omega
        · intro t' h1 h2 k'
          obtain ⟨⟨gone, e1, e2, e3⟩, e4⟩ := expired_cases (t := t') hg k'
          have e1 : (expired (still t) d.conf d.tr k).1.slots = gone ++ (expired (still t') d.conf (expired (still t) d.conf d.tr k).1 k').1.slots := e1
          have e2 : (expired (still t') d.conf (expired (still t) d.conf d.tr k).1 k').1.bytes + sumB gone = (expired (still t) d.conf d.tr k).1.bytes := e2
          rw [(maxSize_burst _ _ _ _ hb h0).1, hlim]
          cases gone with
          | nil => simp only [sumB] at e2; omega
          | cons g gone =>
            rw [hsl] at e1
            have : g = s := by simpa using (List.cons.inj e1).1.symm
            subst this
            have := e3 g (by simp)
            exact absurd this (by show ¬ g.start + d.conf.period * 1000 ≤ t'; omega)
    · -- trickle: the last slot
      have hbt : d.conf.burst = false := by simpa using hb
      unfold waitFor at hw
      rw [if_neg hb] at hw
      cases hl : (expired (still t) d.conf d.tr k).1.slots.getLast? with
      | none => rw [hl] at hw; cases hw
      | some s =>
        rw [hl] at hw
        cases hw
        have hmem : s ∈ (expired (still t) d.conf d.tr k).1.slots := List.mem_of_getLast? hl
        have hst : s.start ≤ t := hg.le s hmem
        rw [maxSize_tri h hbt h0, inPeriod_some _ _ _ _ s hl] at hz
        have hlt : t - s.start < d.conf.freq := by
          apply Classical.byContradiction
          intro hc
          rw [if_pos (by omega)] at hz
          omega
        rw [if_neg (by omega)] at hz
        have hv : wsub d.conf.freq (elapsed s.start (still t (maxSize (still t) d.conf d.tr k).2.2)) = d.conf.freq - (t - s.start) := by
          have hpb := h.conf.period
          show wsub d.conf.freq (t - s.start) = _
          exact wsub_of_le (by omega) (by unfold W; omega)
        cases hn
        dsimp only
        rw [hv, maxSize_tr]
        refine ⟨by omega, ?_, ?_⟩
        · intro t' ht' k'
          obtain ⟨⟨gone, e1, e2, _⟩, e4⟩ := expired_cases (t := t') hg k'
          have e1 : (expired (still t) d.conf d.tr k).1.slots = gone ++ (expired (still t') d.conf (expired (still t) d.conf d.tr k).1 k').1.slots := e1
          show (maxSize (still t') d.conf (expired (still t) d.conf d.tr k).1 k').1 ≠ 0
          rw [show (maxSize (still t') d.conf (expired (still t) d.conf d.tr k).1 k').1 = _ from maxSize_tri (hg.mono (by omega)) hbt h0 k']
          dsimp only
          cases hl2 : (expired (still t') d.conf (expired (still t) d.conf d.tr k).1 k').1.slots.getLast? with
          | none => rw [inPeriod_none _ _ _ _ hl2]; omega
          | some s2 =>
            have hss : (expired (still t) d.conf d.tr k).1.slots.getLast? = some s2 := by rw [e1]; exact getLast_suffix hl2
            rw [hl] at hss
            cases hss
            rw [inPeriod_some _ _ _ _ s hl2, if_pos (by omega)]
            omega
        · intro t' h1 h2 k'
          obtain ⟨⟨gone, e1, e2, e3⟩, e4⟩ := expired_cases (t := t') hg k'
          have e1 : (expired (still t) d.conf d.tr k).1.slots = gone ++ (expired (still t') d.conf (expired (still t) d.conf d.tr k).1 k').1.slots := e1
          rw [show (maxSize (still t') d.conf (expired (still t) d.conf d.tr k).1 k').1 = _ from maxSize_tri (hg.mono (by omega)) hbt h0 k']
          dsimp only
          have hl2 : (expired (still t') d.conf (expired (still t) d.conf d.tr k).1 k').1.slots.getLast? = some s := by
            rw [e1, List.getLast?_append] at hl
            cases hx : (expired (still t') d.conf (expired (still t) d.conf d.tr k).1 k').1.slots.getLast? with
            | some x => rw [hx] at hl; exact hl
            | none =>
              rw [hx] at hl
              have hsg : s ∈ gone := List.mem_of_getLast? (by simpa using hl)
              have := e3 s hsg
              exact absurd this (by show ¬ s.start + d.conf.period * 1000 ≤ t'; omega)
          rw [inPeriod_some _ _ _ _ s hl2, if_neg (by omega)]
          omega

/-- The latency at a later time. -/
theorem latency_exact {t : Nat} {d : Dir} (h : d.last ≤ t) (rd : Bool) (k : Nat) :
    latency (still t) rd d k ≤ d.conf.lat ∧
    (∀ t', t + latency (still t) rd d k ≤ t' → ∀ k, latency (still t') rd d k = 0) ∧
    (∀ t', t ≤ t' → t' < t + latency (still t) rd d k → ∀ k, latency (still t') rd d k ≠ 0) := by
  have e : ∀ t k, latency (still t) rd d k =
      if d.conf.lat < t - d.last then 0 else if rd && d.full then 0 else d.conf.lat - (t - d.last) := fun _ _ => rfl
  simp only [e]
  refine ⟨?_, ?_, ?_⟩
  · split
    · exact Nat.zero_le _
    split
    · exact Nat.zero_le _
    · omega
  · intro t' ht' _
    split
    · rfl
    split
    · rfl
    · rename_i h1 h2
      rw [if_neg h2] at ht'
      split at ht' <;> omega
  · intro t' ht ht' _
    split at ht'
    · omega
    split at ht'
    · omega
    · rename_i h1 h2
      rw [if_neg (by omega), if_neg h2]
      omega

/-- The time for one direction, at time `t`. -/
theorem timeoutDir_exact {t : Nat} {d : Dir} (h : Good t d) {rd disc : Bool} {k : Nat} {r : Nat × Dir × Nat}
    (ht : timeoutDir (still t) rd disc d k = some r) :
    (¬ Waits rd disc d → r.1 = inf) ∧
    (Waits rd disc d → r.1 < inf ∧ (∀ t', t + r.1 ≤ t' → ∀ k', ∃ x, timeoutDir (still t') rd disc r.2.1 k' = some x ∧ x.1 = 0) ∧
      (∀ t', t + r.1 ≤ t' → Free t' r.2.1 ∧ ∀ k, latency (still t') rd r.2.1 k = 0) ∧
      (∀ t', t ≤ t' → t' < t + r.1 → (∀ k, latency (still t') rd r.2.1 k ≠ 0) ∨ ∀ k, (maxSize (still t') r.2.1.conf r.2.1.tr k).1 = 0)) := by
  unfold timeoutDir at ht
  split at ht
  · rename_i hd
    cases ht
    refine ⟨fun _ => rfl, fun hw => ?_⟩
    rcases hw.1 with h1 | h1 <;> simp [h1] at hd
  split at ht
  · rename_i hd
    cases ht
    exact ⟨fun _ => rfl, fun hw => absurd hw.2.1 (by rintro (h1 | h1); exact h1 hd.1; exact h1 hd.2)⟩
  split at ht
  · rename_i hd
    cases ht
    exact ⟨fun _ => rfl, fun hw => by rw [hw.2.2] at hd; cases hd⟩
  · rename_i hd1 hd2 hd3
    have hw : Waits rd disc d := by
      refine ⟨?_, ?_, by simpa using hd3⟩
      · cases rd
        · right; simpa using hd1
        · left; rfl
      · by_cases hz : d.conf.bps = 0
        · right; intro hl; exact hd2 ⟨hz, hl⟩
        · left; exact hz
    refine ⟨fun hn => absurd hw hn, fun _ => ?_⟩
    cases hn : nextMs (still t) d.conf d.tr k with
    | none => rw [hn] at ht; cases ht
    | some n =>
      rw [hn] at ht
      cases ht
      obtain ⟨a1, a2, a3⟩ := nextMs_exact h hn
      obtain ⟨b1, b2, b3⟩ := latency_exact h.last rd n.2.2
      dsimp only
      have hpb := h.conf.period
      have hlb := h.conf.lat
      have h3 : ∀ t', t + max n.1 (latency (still t) rd d n.2.2) ≤ t' → Free t' { d with tr := n.2.1 } ∧ ∀ k, latency (still t') rd { d with tr := n.2.1 } k = 0 :=
        fun t' ht' => ⟨a2 t' (by omega), b2 t' (by omega)⟩
      refine ⟨?_, ?_, h3, ?_⟩
      · unfold inf W; omega
      · intro t' ht' k'
        obtain ⟨f1, f2⟩ := h3 t' ht'
        have hnz : nextMs (still t') d.conf n.2.1 k' = some (0, (maxSize (still t') d.conf n.2.1 k').2) := by
          unfold nextMs
          dsimp only
          rw [if_pos (f1 k')]
        refine ⟨(max 0 (latency (still t') rd { d with tr := n.2.1 } (maxSize (still t') d.conf n.2.1 k').2.2), { d with tr := (maxSize (still t') d.conf n.2.1 k').2.1 }, (maxSize (still t') d.conf n.2.1 k').2.2 + 1), ?_, ?_⟩
        · unfold timeoutDir
          rw [if_neg hd1, if_neg hd2, if_neg hd3]
          show (nextMs (still t') d.conf n.2.1 k').map _ = _
          rw [hnz]
          rfl
        · show max 0 _ = 0
          rw [f2]
          rfl
      · intro t' h1 h2
        by_cases hc : t' < t + latency (still t) rd d n.2.2
        · left; exact b3 t' h1 hc
        · right; exact a3 t' h1 (by omega)

end Verif.Shaping
