import Verif.Shaping.Lemmas

/-! The bytes that are counted cover the bytes that were moved. -/
namespace Verif.Shaping

/-- The bytes moved in a direction from time `a`. -/
def movedFrom (rd : Bool) (a : Nat) : List Ev → Nat
  | [] => 0
  | .moved x t n :: es => (if x = rd ∧ a ≤ t then n else 0) + movedFrom rd a es
  | _ :: es => movedFrom rd a es

theorem movedIn_le (rd : Bool) (a b : Nat) (es : List Ev) : movedIn rd a b es ≤ movedFrom rd a es := by
  induction es with
  | nil => exact Nat.le_refl _
  | cons e es ih =>
    cases e with
    | moved x t n =>
      simp only [movedIn, movedFrom]
      by_cases h : x = rd ∧ a ≤ t
      · rw [if_pos h]
        split <;> omega
      · rw [if_neg h, if_neg (by intro hc; exact h ⟨hc.1, hc.2.1⟩)]
        omega
    | _ => exact ih

theorem movedIn_append (rd : Bool) (a b : Nat) (x y : List Ev) : movedIn rd a b (x ++ y) = movedIn rd a b x + movedIn rd a b y := by
  induction x with
  | nil => simp [movedIn]
  | cons e es ih => cases e <;> simp only [List.cons_append, movedIn, ih] <;> omega

theorem movedFrom_append (rd : Bool) (a : Nat) (x y : List Ev) : movedFrom rd a (x ++ y) = movedFrom rd a x + movedFrom rd a y := by
  induction x with
  | nil => simp [movedFrom]
  | cons e es ih => cases e <;> simp only [List.cons_append, movedFrom, ih] <;> omega

theorem movedFrom_none (rd : Bool) (a : Nat) (es : List Ev) (h : ∀ t n, Ev.moved rd t n ∉ es) : movedFrom rd a es = 0 := by
  induction es with
  | nil => rfl
  | cons e es ih =>
    have h' : ∀ t n, Ev.moved rd t n ∉ es := fun t n hm => h t n (List.mem_cons_of_mem _ hm)
    cases e with
    | moved x t n =>
      have : ¬ (x = rd ∧ a ≤ t) := by
        rintro ⟨rfl, _⟩
        exact h t n (by simp)
      simp only [movedFrom, if_neg this, ih h']
    | _ => exact ih h'

/-- The bytes of the slots that can hold bytes moved from time `T`. -/
def slotSum (T freq : Nat) : List Slot → Nat
  | [] => 0
  | s :: rest => (if T ≤ s.start + freq then s.bytes else 0) + slotSum T freq rest

theorem slotSum_append (T freq : Nat) (a b : List Slot) : slotSum T freq (a ++ b) = slotSum T freq a + slotSum T freq b := by
  induction a with
  | nil => simp [slotSum]
  | cons s a ih => simp only [List.cons_append, slotSum, ih]; omega

theorem slotSum_le (T freq : Nat) (a : List Slot) : slotSum T freq a ≤ sumB a := by
  induction a with
  | nil => exact Nat.le_refl _
  | cons s a ih => simp only [slotSum, sumB]; split <;> omega

theorem bump_eq (n : Nat) (sl : List Slot) (s : Slot) (h : sl.getLast? = some s) :
    ∃ pre, sl = pre ++ [s] ∧ bump n sl = pre ++ [{ s with bytes := s.bytes + n }] := by
  induction sl with
  | nil => cases h
  | cons x xs ih =>
    cases xs with
    | nil => cases h; exact ⟨[], rfl, rfl⟩
    | cons y ys =>
      obtain ⟨pre, h1, h2⟩ := ih (by simpa using h)
      exact ⟨x :: pre, by rw [h1]; rfl, by simp only [bump, h2]; rfl⟩

/-- What the slots say about what was moved. -/
structure Cover (rd : Bool) (f : Conf) (now : Nat) (d : Dir) (es : List Ev) : Prop where
  conf : d.conf.bps = f.bps ∧ d.conf.burst = f.burst ∧ d.conf.period = f.period ∧ d.conf.freq = f.freq
  sum : d.tr.bytes = sumB d.tr.slots
  cov : ∀ T, now + f.freq < T + periodMs f → movedFrom rd T es ≤ slotSum T f.freq d.tr.slots

theorem Cover.pm {rd : Bool} {f : Conf} {now : Nat} {d : Dir} {es : List Ev} (h : Cover rd f now d es) : periodMs d.conf = periodMs f := by
  unfold periodMs; rw [h.conf.2.2.1]

theorem Cover.mono {rd : Bool} {f : Conf} {now now' : Nat} {d : Dir} {es : List Ev} (h : Cover rd f now d es) (hn : now ≤ now') :
    Cover rd f now' d es :=
  ⟨h.conf, h.sum, fun T hT => h.cov T (by omega)⟩

theorem expired_sum (c : Nat → Nat) (f : Conf) (tr : Track) (k : Nat) (hp : 0 < periodMs f) (hs : tr.bytes = sumB tr.slots) :
    (expired c f tr k).1.bytes = sumB (expired c f tr k).1.slots := by
  obtain ⟨gone, h1, h2, _⟩ := expire_spec c (periodMs f) hp tr.slots tr.bytes k
  show (expire c (periodMs f) tr.bytes tr.slots k).1 = sumB (expire c (periodMs f) tr.bytes tr.slots k).2.1
  have hx := congrArg sumB h1
  rw [sumB_append] at hx
  rw [h2]
  omega

/-- Removing old slots, with readings of the clock up to `now`. -/
theorem Cover.exp {rd : Bool} {f : Conf} {now : Nat} {d : Dir} {es : List Ev} {c : Nat → Nat} (hp : 0 < periodMs f)
    (h : Cover rd f now d es) (k : Nat) (hc : ∀ j, j < (expired c d.conf d.tr k).2 → c j ≤ now) :
    Cover rd f now { d with tr := (expired c d.conf d.tr k).1 } es := by
  have hpm := h.pm
  refine ⟨h.conf, expired_sum c d.conf d.tr k (by rw [hpm]; exact hp) h.sum, ?_⟩
  intro T hT
  obtain ⟨gone, h1, h2, h3, h4, h5⟩ := expire_spec c (periodMs d.conf) (by rw [hpm]; exact hp) d.tr.slots d.tr.bytes k
  have hcov := h.cov T hT
  rw [h1, slotSum_append] at hcov
  have hz : slotSum T f.freq gone = 0 := by
    clear h1 h2
    induction gone with
    | nil => rfl
    | cons s gone ih =>
      obtain ⟨j, hj, hs⟩ := h4 s (by simp)
      have := hc j hj
      rw [hpm] at hs
      have hn : ¬ T ≤ s.start + f.freq := by omega
      simp only [slotSum, if_neg hn, Nat.zero_add]
      exact ih (fun s' hs' => h4 s' (List.mem_cons_of_mem _ hs')) (by
        have : slotSum T f.freq (s :: gone) = slotSum T f.freq gone := by simp only [slotSum, if_neg hn, Nat.zero_add]
        rw [this] at hcov
        exact hcov)
  show _ ≤ slotSum T f.freq (expire c (periodMs d.conf) d.tr.bytes d.tr.slots k).2.1
  omega

theorem Cover.q {rd : Bool} {f : Conf} {now : Nat} {d d' : Dir} {es : List Ev} {c : Nat → Nat} (hp : 0 < periodMs f)
    (h : Cover rd f now d es) (hc : ∀ j, c j ≤ now) (hq : Q c d d') : Cover rd f now d' es := by
  induction hq with
  | refl => exact h
  | exp k _ ih => exact ih.exp hp k (fun j _ => hc j)
  | flags w fl _ ih => exact ⟨ih.conf, ih.sum, ih.cov⟩

/-- What recording a transfer does to the slots: `n` bytes in a slot that began at most `freq` before the reading, or not before it. -/
theorem add_spec {c : Nat → Nat} {f : Conf} {n : Nat} {tr tr' : Track} {k k' : Nat} (h : add c f n tr k = some (tr', k')) (hm : Mono c) :
    ∃ pre s, tr'.slots = pre ++ [s] ∧ c k ≤ s.start + f.freq ∧ n ≤ s.bytes ∧ tr'.bytes = tr.bytes + n ∧
      (tr.slots = pre ∧ s.bytes = n ∧ c k ≤ s.start ∧ s.start ≤ c (k + 1) ∧ tr.slots.length ≠ tr.size ∧
        (∀ l, tr.slots.getLast? = some l → l.start + f.freq < c k)
      ∨ tr.slots = pre ++ [{ s with bytes := s.bytes - n }]) := by
  unfold add at h
  have hk := hm k (k + 1) (Nat.le_succ _)
  split at h
  · rename_i hl
    unfold newSlot at h
    split at h
    · cases h
    · rename_i hne
      cases h
      refine ⟨tr.slots, ⟨n, c k⟩, rfl, Nat.le_add_right _ _, Nat.le_refl _, rfl, .inl ⟨rfl, rfl, Nat.le_refl _, hk, hne, ?_⟩⟩
      intro l hl'
      rw [hl] at hl'
      cases hl'
  · rename_i s hl
    split at h
    · rename_i hgt
      unfold newSlot at h
      split at h
      · cases h
      · rename_i hne
        cases h
        refine ⟨tr.slots, ⟨n, c (k + 1)⟩, rfl, by show c k ≤ c (k + 1) + f.freq; omega, Nat.le_refl _, rfl, .inl ⟨rfl, rfl, hk, Nat.le_refl _, hne, ?_⟩⟩
        intro l hl'
        rw [hl] at hl'
        cases hl'
        unfold elapsed at hgt
        omega
    · rename_i hle
      cases h
      obtain ⟨pre, h1, h2⟩ := bump_eq n tr.slots s hl
      refine ⟨pre, { s with bytes := s.bytes + n }, h2, ?_, by show n ≤ s.bytes + n; omega, rfl, .inr ?_⟩
      · show c k ≤ s.start + f.freq
        unfold elapsed at hle
        omega
      · rw [h1]
        simp

theorem Cover.add {rd : Bool} {f : Conf} {now : Nat} {d d1 : Dir} {es : List Ev} {c : Nat → Nat} {n k k' : Nat}
    (h : Cover rd f now d es) (hm : Mono c) (ht : transfer c n d k = some (d1, k')) :
    Cover rd f now d1 (es ++ [.moved rd (c k) n]) ∧ d1.tr.bytes = d.tr.bytes + n := by
  obtain ⟨tr, ha, rfl⟩ := transfer_eq ht
  obtain ⟨pre, s, h1, h2, h3, h4, h5⟩ := add_spec ha hm
  have hfr : d.conf.freq = f.freq := h.conf.2.2.2
  have hk := hm k (k + 1) (Nat.le_succ _)
  have hold : sumB tr.slots = sumB d.tr.slots + n ∧ ∀ T, T ≤ c k → slotSum T f.freq tr.slots = slotSum T f.freq d.tr.slots + n ∧ True := by
    rw [hfr] at h2
    rcases h5 with ⟨e, hb, _⟩ | e
    · rw [h1, e]
      refine ⟨by rw [sumB_append]; simp [sumB, hb], fun T hT => ⟨?_, trivial⟩⟩
      rw [slotSum_append]
      simp only [slotSum]
      rw [if_pos (by omega), hb]
      rfl
    · rw [h1, e]
      refine ⟨by rw [sumB_append, sumB_append]; simp [sumB]; omega, fun T hT => ⟨?_, trivial⟩⟩
      rw [slotSum_append, slotSum_append]
      simp only [slotSum]
      rw [if_pos (by omega), if_pos (by show T ≤ s.start + f.freq; omega)]
      omega
  have hge : ∀ T, slotSum T f.freq d.tr.slots ≤ slotSum T f.freq tr.slots := by
    intro T
    rcases h5 with ⟨e, hb, _⟩ | e
    · rw [h1, e, slotSum_append]; omega
    · rw [h1, e, slotSum_append, slotSum_append]
      simp only [slotSum]
      split <;> omega
  refine ⟨⟨h.conf, ?_, ?_⟩, h4⟩
  · show tr.bytes = sumB tr.slots
    rw [h4, hold.1, h.sum]
  · intro T hT
    have hc := h.cov T hT
    rw [movedFrom_append]
    simp only [movedFrom]
    show _ ≤ slotSum T f.freq tr.slots
    by_cases hT' : T ≤ c k
    · rw [if_pos (by simpa using hT'), (hold.2 T hT').1]; omega
    · rw [if_neg (by simpa using hT')]
      have := hge T
      omega

theorem maxSize_burst (c : Nat → Nat) (f : Conf) (tr : Track) (k : Nat) (hb : f.burst = true) (h0 : f.bps ≠ 0) :
    (maxSize c f tr k).1 = f.bps * f.period % W - (expired c f tr k).1.bytes ∧ (maxSize c f tr k).2.2 = (expired c f tr k).2 := by
  simp only [maxSize, allowed]
  rw [if_neg h0, if_pos hb]
  refine ⟨?_, rfl⟩
  dsimp only
  split <;> omega

/-- One call. -/
theorem cover_step {rd : Bool} {f : Conf} {now e : Nat} {d d' : Dir} {es evs : List Ev} {c : Nat → Nat} {op : Op} (hp : 0 < periodMs f)
    (hb : f.burst = true) (h0 : f.bps ≠ 0) (hfp : f.freq < periodMs f)
    (h : Cover rd f now d es) (hw : ∀ a, movedIn rd a (a + (periodMs f - f.freq)) es ≤ f.bps * f.period % W)
    (hm : Mono c) (hnow : now ≤ c 0) (he : ∀ j, c j ≤ e) (hk : Keeps rd op) (hd : Did c rd d op d' evs) :
    Cover rd f e d' (es ++ evs) ∧ ∀ a, movedIn rd a (a + (periodMs f - f.freq)) (es ++ evs) ≤ f.bps * f.period % W := by
  cases hd with
  | quiet hq hnone =>
    have h' := (h.mono (Nat.le_trans hnow (he 0))).q hp he hq
    refine ⟨⟨h'.conf, h'.sum, ?_⟩, ?_⟩
    · intro T hT
      rw [movedFrom_append, movedFrom_none rd T evs hnone]
      exact h'.cov T hT
    · intro a
      have h1 := movedIn_le rd a (a + (periodMs f - f.freq)) evs
      rw [movedFrom_none rd a evs hnone] at h1
      rw [movedIn_append]
      have := hw a
      omega
  | @moved d1 _ len n k' w fl res hop hl hn _ _ ht hq =>
    have hms := maxSize_burst c d.conf d.tr 1 (by rw [h.conf.2.1]; exact hb) (by rw [h.conf.1]; exact h0)
    have hconf : d.conf.bps * d.conf.period = f.bps * f.period := by rw [h.conf.1, h.conf.2.2.1]
    rw [hconf] at hms
    have h1 : Cover rd f (c (maxSize c d.conf d.tr 1).2.2)
        { d with tr := (maxSize c d.conf d.tr 1).2.1, waiting := w, full := fl } es := by
      have hx := (h.mono (Nat.le_trans hnow (hm 0 (maxSize c d.conf d.tr 1).2.2 (Nat.zero_le _)))).exp (c := c) hp 1 (by
        intro j hj
        apply hm
        rw [hms.2]
        omega)
      exact ⟨hx.conf, hx.sum, hx.cov⟩
    obtain ⟨h2, hbytes⟩ := h1.add hm ht
    have h3 := (h2.mono (he _)).q hp he hq
    refine ⟨h3, ?_⟩
    intro a
    by_cases hin : a ≤ c (maxSize c d.conf d.tr 1).2.2 ∧ c (maxSize c d.conf d.tr 1).2.2 < a + (periodMs f - f.freq)
    · have g1 := movedIn_le rd a (a + (periodMs f - f.freq)) (es ++ [.moved rd (c (maxSize c d.conf d.tr 1).2.2) n])
      have g2 := h2.cov a (by omega)
      have g3 := slotSum_le a f.freq d1.tr.slots
      have g4 : d1.tr.bytes = (expired c d.conf d.tr 1).1.bytes + n := hbytes
      rw [← h2.sum] at g3
      rw [hms.1] at hn
      by_cases hz : n = 0
      · subst hz
        rw [movedIn_append]
        have := hw a
        simp [movedIn]
        omega
      · omega
    · rw [movedIn_append]
      simp only [movedIn]
      rw [if_neg (by rintro ⟨_, x, y⟩; exact hin ⟨x, y⟩)]
      have := hw a
      omega
  | throttle hop => subst hop; exact absurd rfl hk
  | mode hop => subst hop; exact absurd rfl hk
  | period hop _ => subst hop; exact absurd rfl hk
  | latency hop =>
    have h' := h.mono (Nat.le_trans hnow (he 0))
    rw [List.append_nil]
    exact ⟨⟨h'.conf, h'.sum, h'.cov⟩, hw⟩

end Verif.Shaping
