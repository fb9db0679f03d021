import Verif.Shaping.Window

/-! The slots suffice, and no slot that is missing is used. -/
namespace Verif.Shaping

/-- Each slot begins more than `freq` after the one before. -/
def Spaced (freq : Nat) (sl : List Slot) : Prop := sl.Pairwise fun a b => a.start + freq + 1 ≤ b.start

/-- Settings that are allowed and do not overflow. -/
structure OkConf (f : Conf) : Prop where
  freq : 15 ≤ f.freq
  less : f.freq < f.period * 1000
  period : f.period < 2 ^ 24
  bps : f.bps < 2 ^ 40
  lat : f.lat < 2 ^ 63

theorem OkConf.pm {f : Conf} (h : OkConf f) : periodMs f = f.period * 1000 := by
  unfold periodMs W
  have := h.period
  exact Nat.mod_eq_of_lt (by omega)

theorem OkConf.lim {f : Conf} (h : OkConf f) : f.bps * f.period % W = f.bps * f.period := by
  unfold W
  apply Nat.mod_eq_of_lt
  have h1 := h.period
  have h2 := h.bps
  calc f.bps * f.period ≤ f.bps * 2 ^ 24 := Nat.mul_le_mul_left _ (by omega)
    _ < 2 ^ 40 * 2 ^ 24 := Nat.mul_lt_mul_of_pos_right h2 (by omega)
    _ = 2 ^ 64 := by decide

theorem OkConf.slot {f : Conf} (h : OkConf f) : 1 ≤ perSlot f ∧ perSlot f < W := by
  unfold perSlot
  have hw : f.bps * f.period % W < W := Nat.mod_lt _ (by decide)
  have : f.bps * f.period % W / (periodMs f / f.freq) ≤ f.bps * f.period % W := Nat.div_le_self _ _
  split
  · exact ⟨Nat.le_refl _, by decide⟩
  · rename_i hz
    exact ⟨Nat.one_le_iff_ne_zero.mpr hz, Nat.lt_of_le_of_lt this hw⟩

theorem wsub_of_le {a b : Nat} (h : b ≤ a) (ha : a < W) : wsub a b = a - b := by
  unfold wsub
  rw [Nat.mod_eq_of_lt (by omega : b < W), show a + W - b = (a - b) + W from by omega, Nat.add_mod_right]
  exact Nat.mod_eq_of_lt (by omega)

/-- The invariant of a direction; `now` is not before any time it knows. -/
structure Good (now : Nat) (d : Dir) : Prop where
  conf : OkConf d.conf
  size : d.tr.size = d.conf.period * 1000 / d.conf.freq + 1
  sum : d.tr.bytes = sumB d.tr.slots
  sp : Spaced d.conf.freq d.tr.slots
  le : ∀ s ∈ d.tr.slots, s.start ≤ now
  pos : ∀ s ∈ d.tr.slots, 1 ≤ s.bytes
  last : d.last ≤ now
  lim : d.conf.burst = true → d.conf.bps ≠ 0 → d.tr.bytes ≤ d.conf.bps * d.conf.period
  tri : d.conf.burst = false → d.conf.bps ≠ 0 → ∀ s, d.tr.slots.getLast? = some s →
    s.bytes ≤ perSlot d.conf ∨ s.start + d.conf.freq ≤ now

theorem Good.mono {now now' : Nat} {d : Dir} (h : Good now d) (hn : now ≤ now') : Good now' d :=
  ⟨h.conf, h.size, h.sum, h.sp, fun s hs => Nat.le_trans (h.le s hs) hn, h.pos, Nat.le_trans h.last hn, h.lim,
    fun a b s hs => (h.tri a b s hs).imp id (fun x => by omega)⟩

theorem getLast_suffix {gone sl : List Slot} {s : Slot} (h : sl.getLast? = some s) : (gone ++ sl).getLast? = some s := by
  rw [List.getLast?_append, h]; rfl

theorem Good.exp {now : Nat} {d : Dir} (h : Good now d) (c : Nat → Nat) (k : Nat) :
    Good now { d with tr := (expired c d.conf d.tr k).1 } := by
  have hp : 0 < periodMs d.conf := by rw [h.conf.pm]; have := h.conf.less; omega
  obtain ⟨gone, h1, h2, h3, h4, h5⟩ := expire_spec c (periodMs d.conf) hp d.tr.slots d.tr.bytes k
  have hmem : ∀ s ∈ (expired c d.conf d.tr k).1.slots, s ∈ d.tr.slots := by
    intro s hs
    rw [h1]
    exact List.mem_append.mpr (.inr hs)
  have hb : (expired c d.conf d.tr k).1.bytes ≤ d.tr.bytes := by
    show (expire c (periodMs d.conf) d.tr.bytes d.tr.slots k).1 ≤ _
    rw [h2]
    omega
  refine ⟨h.conf, h.size, expired_sum c d.conf d.tr k hp h.sum, ?_, fun s hs => h.le s (hmem s hs), fun s hs => h.pos s (hmem s hs),
    h.last, fun a b => Nat.le_trans hb (h.lim a b), ?_⟩
  · have := h.sp
    unfold Spaced at this
    rw [h1, List.pairwise_append] at this
    exact this.2.1
  · intro a b s hs
    refine h.tri a b s ?_
    rw [h1]
    exact getLast_suffix hs

theorem Good.flags {now : Nat} {d : Dir} (h : Good now d) (w f : Bool) : Good now { d with waiting := w, full := f } :=
  ⟨h.conf, h.size, h.sum, h.sp, h.le, h.pos, h.last, h.lim, h.tri⟩

theorem Good.q {now : Nat} {d d' : Dir} {c : Nat → Nat} (h : Good now d) (hq : Q c d d') : Good now d' := by
  induction hq with
  | refl => exact h
  | exp k _ ih => exact ih.exp c k
  | flags w f _ ih => exact ih.flags w f

/-- What is allowed in mode trickle does not wrap around. -/
theorem allowed_tri {now : Nat} {d : Dir} (h : Good now d) {c : Nat → Nat} (hm : Mono c) {k : Nat} (hn : now ≤ c k)
    (hb : d.conf.burst = false) (h0 : d.conf.bps ≠ 0) :
    (inPeriod c d.conf d.tr k).1 ≤ perSlot d.conf ∧
      (allowed c d.conf d.tr k).1 = perSlot d.conf - (inPeriod c d.conf d.tr k).1 ∧
      (allowed c d.conf d.tr k).2 = (inPeriod c d.conf d.tr k).2 := by
  have h1 : (inPeriod c d.conf d.tr k).1 ≤ perSlot d.conf := by
    unfold inPeriod
    split
    · exact Nat.zero_le _
    · rename_i s hs
      split
      · exact Nat.zero_le _
      · rename_i he
        unfold elapsed at he
        rcases h.tri hb h0 s hs with h | h
        · exact h
        · exact absurd he (by omega)
  refine ⟨h1, ?_⟩
  unfold allowed
  rw [if_neg h0, if_neg (by rw [hb]; decide)]
  exact ⟨wsub_of_le h1 h.conf.slot.2, rfl⟩

theorem nextMs_total {now : Nat} {d : Dir} (h : Good now d) (c : Nat → Nat) (k : Nat) : ∃ r, nextMs c d.conf d.tr k = some r := by
  have he := h.exp c k
  unfold nextMs
  dsimp only
  split
  · exact ⟨_, rfl⟩
  · rename_i hm
    have hm : (maxSize c d.conf d.tr k).1 = 0 := Classical.byContradiction hm
    have hne : (expired c d.conf d.tr k).1.slots ≠ [] := by
      intro hnil
      have hbz : (expired c d.conf d.tr k).1.bytes = 0 := by
        have := he.sum
        simp only [hnil, sumB] at this
        exact this
      simp only [maxSize, allowed] at hm
      by_cases h0 : d.conf.bps = 0
      · rw [if_pos h0] at hm
        exact absurd (show W - 1 = 0 from hm) (by decide)
      · rw [if_neg h0] at hm
        by_cases hb : d.conf.burst = true
        · rw [if_pos hb] at hm
          simp only [hbz] at hm
          rw [h.conf.lim] at hm
          have hl := h.conf.less
          have : 0 < d.conf.bps * d.conf.period := Nat.mul_pos (by omega) (by omega)
          rw [if_neg (by omega)] at hm
          omega
        · rw [if_neg hb] at hm
          have : inPeriod c d.conf (expired c d.conf d.tr k).1 (expired c d.conf d.tr k).2 = (0, (expired c d.conf d.tr k).2) := by
            unfold inPeriod
            rw [hnil]
            rfl
          rw [this] at hm
          have hs := h.conf.slot
          rw [wsub_of_le (Nat.zero_le _) hs.2] at hm
          omega
    have hw : ∃ w, waitFor d.conf (maxSize c d.conf d.tr k).2.1 = some w := by
      rw [maxSize_tr]
      unfold waitFor
      cases hsl : (expired c d.conf d.tr k).1.slots with
      | nil => exact absurd hsl hne
      | cons s rest =>
        split
        · exact ⟨_, rfl⟩
        · cases hl : (s :: rest).getLast? with
          | none => simp at hl
          | some x => exact ⟨_, rfl⟩
    obtain ⟨w, hw⟩ := hw
    rw [hw]
    exact ⟨_, rfl⟩

theorem timeoutDir_total {now : Nat} {d : Dir} (h : Good now d) (c : Nat → Nat) (rd disc : Bool) (k : Nat) :
    ∃ r, timeoutDir c rd disc d k = some r := by
  unfold timeoutDir
  split
  · exact ⟨_, rfl⟩
  split
  · exact ⟨_, rfl⟩
  split
  · exact ⟨_, rfl⟩
  · obtain ⟨r, hr⟩ := nextMs_total h c k
    rw [hr]
    exact ⟨_, rfl⟩

theorem setTimeout_total {now : Nat} {h : H} (hg : ∀ rd, Good now (get h rd)) (c : Nat → Nat) (k : Nat) : ∃ r, setTimeout c h k = some r := by
  obtain ⟨i, hi⟩ := timeoutDir_total (hg true) c true h.disc k
  obtain ⟨o, ho⟩ := timeoutDir_total (hg false) c false h.disc i.2.2
  have hi : timeoutDir c true h.disc h.inn k = some i := hi
  have ho : timeoutDir c false h.disc h.out i.2.2 = some o := ho
  unfold setTimeout
  simp only [hi, ho]
  exact ⟨_, rfl⟩

theorem spaced_length {freq : Nat} : ∀ (sl : List Slot) (s l : Slot), Spaced freq (s :: sl) → (s :: sl).getLast? = some l →
    s.start + sl.length * (freq + 1) ≤ l.start := by
  intro sl
  induction sl with
  | nil => intro s l _ h; cases h; simp
  | cons x sl ih =>
    intro s l hs hl
    have h2 := List.pairwise_cons.mp hs
    have h1 := h2.1 x (by simp)
    have := ih x l h2.2 (by simpa using hl)
    simp only [List.length_cons, Nat.add_mul, Nat.one_mul]
    omega

theorem slack_eq {f : Conf} (h : OkConf f) : slack f + f.period * 1000 = (f.period * 1000 / f.freq + 1) * (f.freq + 1) := by
  unfold slack
  have h1 : f.period * 1000 < (f.period * 1000 / f.freq + 1) * f.freq := by
    have := Nat.lt_mul_div_succ (f.period * 1000) (by have := h.freq; omega : 0 < f.freq)
    rw [Nat.mul_comm (f.period * 1000 / f.freq + 1)]
    exact this
  have h2 : (f.period * 1000 / f.freq + 1) * f.freq ≤ (f.period * 1000 / f.freq + 1) * (f.freq + 1) :=
    Nat.mul_le_mul_left _ (Nat.le_succ _)
  omega

/-- After a check there is room for one more slot. -/
theorem add_total {now : Nat} {d : Dir} (h : Good now d) {c : Nat → Nat} (hm : Mono c) (hcalm : ∀ j, c (j + 3) ≤ c j + slack d.conf) (n : Nat) :
    ∃ r, add c d.conf n (maxSize c d.conf d.tr 1).2.1 ((maxSize c d.conf d.tr 1).2.2 + 1) = some r := by
  have hp : 0 < periodMs d.conf := by rw [h.conf.pm]; have := h.conf.less; omega
  have he := h.exp c 1
  obtain ⟨gone, h1, h2, h3, h4, h5⟩ := expire_spec c (periodMs d.conf) hp d.tr.slots d.tr.bytes 1
  have hidx : (maxSize c d.conf d.tr 1).2.2 ≤ (expired c d.conf d.tr 1).2 + 1 := by
    show (allowed c d.conf (expired c d.conf d.tr 1).1 (expired c d.conf d.tr 1).2).2 ≤ _
    unfold allowed
    split
    · exact Nat.le_succ _
    split
    · exact Nat.le_succ _
    · unfold inPeriod
      split
      · exact Nat.le_succ _
      split
      · exact Nat.le_refl _
      · exact Nat.le_refl _
  rw [maxSize_tr]
  generalize hK : (maxSize c d.conf d.tr 1).2.2 = K at hidx ⊢
  unfold add newSlot
  have hsz : (expired c d.conf d.tr 1).1.size = d.conf.period * 1000 / d.conf.freq + 1 := h.size
  split
  · rename_i hl
    have : (expired c d.conf d.tr 1).1.slots = [] := List.getLast?_eq_none_iff.mp hl
    rw [this, hsz]
    exact ⟨_, if_neg (by simp)⟩
  · rename_i l hl
    split
    · rename_i hgt
      unfold elapsed at hgt
      cases hsl : (expired c d.conf d.tr 1).1.slots with
      | nil => rw [hsl] at hl; cases hl
      | cons s rest =>
        obtain ⟨j, hj, hj1, hj2⟩ := h5 s rest hsl
        have hj : (expired c d.conf d.tr 1).2 = j + 1 := hj
        have hlen : s.start + rest.length * (d.conf.freq + 1) ≤ l.start := spaced_length rest s l (by have := he.sp; rw [show ({ d with tr := (expired c d.conf d.tr 1).1 } : Dir).tr.slots = s :: rest from hsl] at this; exact this) (by rw [← hsl]; exact hl)
        have ht : c (K + 1) ≤ c (j + 3) := hm _ _ (by omega)
        have hc3 := hcalm j
        rw [h.conf.pm] at hj2
        have hsl2 := slack_eq h.conf
        have : ¬ (s :: rest).length = (expired c d.conf d.tr 1).1.size := by
          rw [hsz]
          intro heq
          simp only [List.length_cons] at heq
          rw [← heq, Nat.add_mul, Nat.one_mul] at hsl2
          omega
        rw [if_neg this]
        exact ⟨_, rfl⟩
    · exact ⟨_, rfl⟩

/-- Recording a transfer keeps the invariant. -/
theorem Good.moved {now e : Nat} {d d1 : Dir} {c : Nat → Nat} {n k' : Nat} {w fl : Bool} (h : Good now d) (hm : Mono c) (hnow : now ≤ c 0)
    (he : ∀ j, c j ≤ e) (hn : n ≤ (maxSize c d.conf d.tr 1).1) (hn1 : 1 ≤ n)
    (ht : transfer c n { d with tr := (maxSize c d.conf d.tr 1).2.1, waiting := w, full := fl } (maxSize c d.conf d.tr 1).2.2 = some (d1, k')) :
    Good e d1 := by
  have hx := h.exp c 1
  obtain ⟨tr, ha, rfl⟩ := transfer_eq ht
  have ha : add c d.conf n (expired c d.conf d.tr 1).1 ((maxSize c d.conf d.tr 1).2.2 + 1) = some (tr, k') := ha
  obtain ⟨pre, s, h1, h2, h3, h4, h5⟩ := add_spec ha hm
  have hsize := add_size ha
  have hne : now ≤ e := Nat.le_trans hnow (he 0)
  refine ⟨h.conf, ?_, ?_, ?_, ?_, ?_, he _, ?_, ?_⟩
  · show tr.size = _
    rw [show tr.size = (expired c d.conf d.tr 1).1.size from hsize]
    exact hx.size
  · show tr.bytes = sumB tr.slots
    rw [h4]
    have hs : (expired c d.conf d.tr 1).1.bytes = sumB (expired c d.conf d.tr 1).1.slots := hx.sum
    rw [hs, h1, sumB_append]
    rcases h5 with ⟨e1, hb, _⟩ | e1
    · rw [e1]; simp [sumB, hb]
    · rw [e1, sumB_append]; simp [sumB]; omega
  · show Spaced d.conf.freq tr.slots
    have hsp : Spaced d.conf.freq (expired c d.conf d.tr 1).1.slots := hx.sp
    rw [h1]
    rcases h5 with ⟨e1, hb, hc1, hc2, _, hlast⟩ | e1
    · rw [e1] at hsp hlast
      unfold Spaced
      rw [List.pairwise_append]
      refine ⟨hsp, by simp, ?_⟩
      intro a ha b hb
      simp at hb
      subst hb
      cases hl : pre.getLast? with
      | none => rw [List.getLast?_eq_none_iff.mp hl] at ha; cases ha
      | some l =>
        have hll := hlast l hl
        have hal : a.start ≤ l.start := by
          obtain ⟨p2, hp2⟩ := List.getLast?_eq_some_iff.mp hl
          rw [hp2] at ha hsp
          rcases List.mem_append.mp ha with ha | ha
          · have := (List.pairwise_append.mp hsp).2.2 a ha l (by simp)
            omega
          · simp at ha; subst ha; exact Nat.le_refl _
        omega
    · rw [e1] at hsp
      unfold Spaced at hsp ⊢
      rw [List.pairwise_append] at hsp ⊢
      refine ⟨hsp.1, by simp, ?_⟩
      intro a ha b hb
      simp at hb
      subst hb
      exact hsp.2.2 a ha { b with bytes := b.bytes - n } (by simp)
  · intro x hxm
    have hle : ∀ s ∈ (expired c d.conf d.tr 1).1.slots, s.start ≤ now := hx.le
    have hxm : x ∈ tr.slots := hxm
    rw [h1] at hxm
    rcases h5 with ⟨e1, _, _, hc2, _⟩ | e1
    · rw [e1] at hle
      rcases List.mem_append.mp hxm with hm' | hm'
      · exact Nat.le_trans (hle x hm') hne
      · simp at hm'; subst hm'; exact Nat.le_trans hc2 (he _)
    · rw [e1] at hle
      rcases List.mem_append.mp hxm with hm' | hm'
      · exact Nat.le_trans (hle x (List.mem_append.mpr (.inl hm'))) hne
      · simp at hm'; subst hm'
        exact Nat.le_trans (hle { x with bytes := x.bytes - n } (by simp)) hne
  · intro x hxm
    have hpos : ∀ s ∈ (expired c d.conf d.tr 1).1.slots, 1 ≤ s.bytes := hx.pos
    have hxm : x ∈ tr.slots := hxm
    rw [h1] at hxm
    rcases List.mem_append.mp hxm with hm' | hm'
    · refine hpos x ?_
      rcases h5 with ⟨e1, _⟩ | e1
      · rw [e1]; exact hm'
      · rw [e1]; exact List.mem_append.mpr (.inl hm')
    · simp at hm'; subst hm'; omega
  · intro hb h0
    have hb : d.conf.burst = true := hb
    have h0 : d.conf.bps ≠ 0 := h0
    show tr.bytes ≤ d.conf.bps * d.conf.period
    have := (maxSize_burst c d.conf d.tr 1 hb h0).1
    rw [this, h.conf.lim] at hn
    rw [h4]
    omega
  · intro hb h0 x hxl
    have hb : d.conf.burst = false := hb
    have h0 : d.conf.bps ≠ 0 := h0
    have hxl : tr.slots.getLast? = some x := hxl
    show x.bytes ≤ perSlot d.conf ∨ x.start + d.conf.freq ≤ e
    rw [h1] at hxl
    have hxs : x = s := by simpa using hxl.symm
    subst hxs
    have hal := allowed_tri hx hm (k := (expired c d.conf d.tr 1).2) (Nat.le_trans hnow (hm _ _ (Nat.zero_le _))) hb h0
    have hn : n ≤ (allowed c d.conf (expired c d.conf d.tr 1).1 (expired c d.conf d.tr 1).2).1 := hn
    have hal1 : (allowed c d.conf (expired c d.conf d.tr 1).1 (expired c d.conf d.tr 1).2).1
      = perSlot d.conf - (inPeriod c d.conf (expired c d.conf d.tr 1).1 (expired c d.conf d.tr 1).2).1 := hal.2.1
    rw [hal1] at hn
    rcases h5 with ⟨e1, hbn, _⟩ | e1
    · left; omega
    · have hlast : (expired c d.conf d.tr 1).1.slots.getLast? = some { x with bytes := x.bytes - n } := by rw [e1]; simp
      unfold inPeriod at hn
      rw [hlast] at hn
      dsimp only at hn
      split at hn
      · rename_i hel
        right
        have hel : c (expired c d.conf d.tr 1).2 - x.start ≥ d.conf.freq := hel
        have := he (expired c d.conf d.tr 1).2
        have hfr := h.conf.freq
        omega
      · left
        dsimp only at hn
        have := hal.1
        omega

theorem good_clear {now : Nat} {d : Dir} (hc : OkConf d.conf) (hl : d.last ≤ now) : Good now (clear d) := by
  refine ⟨hc, ?_, rfl, List.Pairwise.nil, by simp [clear], by simp [clear], hl, fun _ _ => Nat.zero_le _, by simp [clear]⟩
  show slotsFor d.conf = d.conf.period * 1000 / d.conf.freq + 1
  unfold slotsFor
  rw [hc.pm]

/-- One call keeps the invariant. -/
theorem Good.did {now e : Nat} {rd : Bool} {d d' : Dir} {c : Nat → Nat} {op : Op} {evs : List Ev} (h : Good now d) (hm : Mono c)
    (hnow : now ≤ c 0) (he : ∀ j, c j ≤ e) (hs : Sane op) (hd : Did c rd d op d' evs) : Good e d' := by
  have hne : now ≤ e := Nat.le_trans hnow (he 0)
  cases hd with
  | quiet hq _ => exact (h.mono hne).q hq
  | @moved d1 _ len n k' w fl res hop _ hn _ h1 ht hq =>
    subst hop
    have hn1 : 1 ≤ n := by
      cases res with
      | ok x => exact h1 hs.1 (fun y hy => by cases hy; exact hs.2)
      | block => exact h1 hs (fun y hy => by cases hy)
      | err => exact h1 hs (fun y hy => by cases hy)
    exact (h.moved hm hnow he hn hn1 ht).q hq
  | throttle hop =>
    subst hop
    exact good_clear ⟨h.conf.freq, h.conf.less, h.conf.period, hs, h.conf.lat⟩ (Nat.le_trans h.last hne)
  | mode hop =>
    subst hop
    exact good_clear ⟨h.conf.freq, h.conf.less, h.conf.period, h.conf.bps, h.conf.lat⟩ (Nat.le_trans h.last hne)
  | @period p f hop hb =>
    subst hop
    have hs : p < 2 ^ 24 := hs
    have hp : p * 1000 % W = p * 1000 := Nat.mod_eq_of_lt (by unfold W; omega)
    simp only [badPeriod, hp, Bool.or_eq_false_iff, decide_eq_false_iff_not] at hb
    refine good_clear ⟨?_, ?_, hs, h.conf.bps, h.conf.lat⟩ (Nat.le_trans h.last hne)
    · show 15 ≤ f; omega
    · show f < p * 1000; omega
  | latency hop =>
    subst hop
    have h' := h.mono hne
    exact ⟨⟨h.conf.freq, h.conf.less, h.conf.period, h.conf.bps, hs⟩, h.size, h.sum, h.sp, h'.le, h.pos, he 0, h.lim, h'.tri⟩

theorem xfer_total {now : Nat} {d : Dir} {c : Nat → Nat} (h : Good now d) (hm : Mono c) (hcalm : ∀ j, c (j + 3) ≤ c j + slack d.conf)
    (rd : Bool) (len : Nat) (res : Lower) : ∃ r, xfer c rd d len res = some r := by
  unfold xfer
  split
  · exact ⟨_, rfl⟩
  · dsimp only
    split
    · exact ⟨_, rfl⟩
    · unfold go
      dsimp only
      split
      · rename_i n
        obtain ⟨r, hr⟩ := add_total h hm hcalm (min n (min len (maxSize c d.conf d.tr 1).1))
        unfold transfer
        dsimp only
        rw [hr]
        exact ⟨_, rfl⟩
      · exact ⟨_, rfl⟩
      · exact ⟨_, rfl⟩

theorem get_put_good {now : Nat} {h : H} (hg : ∀ rd, Good now (get h rd)) (x : Bool) {d : Dir} (hd : Good now d) :
    ∀ rd, Good now (get (put h x d) rd) := by
  intro rd
  by_cases hx : x = rd
  · subst hx; rw [get_put_same]; exact hd
  · rw [get_put_other _ _ _ _ hx]; exact hg rd

theorem xfer_good {now e : Nat} {d : Dir} {c : Nat → Nat} {rd : Bool} {len : Nat} {res : Lower} {r : Dir × Ev × Nat} (h : Good now d)
    (hm : Mono c) (hnow : now ≤ c 0) (he : ∀ j, c j ≤ e) (hs : Sane (.io rd len res)) (hx : xfer c rd d len res = some r) : Good e r.1 := by
  have hne : now ≤ e := Nat.le_trans hnow (he 0)
  unfold xfer at hx
  split at hx
  · cases hx; exact (h.mono hne).flags true d.full
  · dsimp only at hx
    split at hx
    · cases hx; exact ((h.mono hne).exp c 1).flags true d.full
    · rename_i hmz
      unfold go at hx
      dsimp only at hx
      split at hx
      · rename_i n
        cases ht : transfer c (min n (min len (maxSize c d.conf d.tr 1).1))
            { d with tr := (maxSize c d.conf d.tr 1).2.1, waiting := decide ((maxSize c d.conf d.tr 1).1 < len),
                     full := rd && !decide ((maxSize c d.conf d.tr 1).1 < len) } (maxSize c d.conf d.tr 1).2.2 with
        | none => rw [ht] at hx; cases hx
        | some u =>
          rw [ht] at hx; cases hx
          have hs : 1 ≤ len ∧ 1 ≤ n := hs
          have := h.moved hm hnow he (by omega) (by omega) ht
          show Good e (if _ then lessThan u.1 else u.1)
          split
          · exact this.flags _ _
          · exact this
      · cases hx; exact ((h.mono hne).exp c 1).flags _ _
      · cases hx; exact ((h.mono hne).exp c 1).flags _ _

/-- No call uses a slot that is not there. -/
theorem step_safe {now e : Nat} {h : H} {x : Call} (hg : ∀ rd, Good now (get h rd)) (hm : Mono x.c) (hnow : now ≤ x.c 0) (he : ∀ j, x.c j ≤ e)
    (hs : Sane x.op) (hc : CalmCall h x) : ∃ r, step x.c h x.op = some r ∧ ∀ rd, Good e (get r.1 rd) := by
  have hne : now ≤ e := Nat.le_trans hnow (he 0)
  have hg' : ∀ rd, Good e (get h rd) := fun rd => (hg rd).mono hne
  have key : ∃ r, step x.c h x.op = some r := by
    obtain ⟨op, c⟩ := x
    cases op with
    | io rd len res =>
      obtain ⟨r, hr⟩ := xfer_total (hg rd) hm hc rd len res
      obtain ⟨y, hy⟩ := setTimeout_total (get_put_good hg' rd (xfer_good (hg rd) hm hnow he hs hr)) c r.2.2
      show ∃ r, io c h rd len res = some r
      unfold io
      simp only [hr, hy]
      exact ⟨_, rfl⟩
    | timer =>
      obtain ⟨i, hi⟩ := timeoutDir_total (hg' true) c true h.disc 0
      obtain ⟨o, ho⟩ := timeoutDir_total (hg' false) c false h.disc i.2.2
      have q1 := timeoutDir_q hi
      have q2 := timeoutDir_q ho
      have hi : timeoutDir c true h.disc h.inn 0 = some i := hi
      have ho : timeoutDir c false h.disc h.out i.2.2 = some o := ho
      obtain ⟨y, hy⟩ := setTimeout_total (now := e) (h := { h with inn := i.2.1, out := o.2.1, timer := none })
        (by intro rd; cases rd; exact (hg' false).q q2; exact (hg' true).q q1) c o.2.2
      show ∃ r, timerCb c h = some r
      unfold timerCb
      simp only [hi, ho, hy]
      split
      · exact ⟨_, rfl⟩
      · exact ⟨_, rfl⟩
    | event rd =>
      show ∃ r, processCb c h rd = some r
      unfold processCb
      split
      · exact ⟨_, rfl⟩
      · obtain ⟨i, hi⟩ := timeoutDir_total (hg' rd) c rd h.disc 0
        have q1 := timeoutDir_q hi
        simp only [hi]
        obtain ⟨y, hy⟩ := setTimeout_total (get_put_good hg' rd ((hg' rd).q (q1.waiting false))) c i.2.2
        rw [hy]
        split
        · exact ⟨_, rfl⟩
        split
        · exact ⟨_, rfl⟩
        · exact ⟨_, rfl⟩
    | _ => exact ⟨_, rfl⟩
  obtain ⟨r, hr⟩ := key
  exact ⟨r, hr, fun rd => (hg rd).did hm hnow he hs (step_did hr rd)⟩

theorem good_create (now : Nat) (rd : Bool) : Good now (get create rd) := by
  have : Good now dir0 := good_clear (d := { conf := conf0, tr := ⟨0, [], 0⟩, last := 0, total := 0, waiting := false, full := false })
    ⟨by decide, by decide, by decide, by decide, by decide⟩ (Nat.zero_le _)
  cases rd <;> exact this

end Verif.Shaping
