import Verif.IoBuffer.Lemmas
/-! C91: an I/O buffer layer neither loses, repeats nor reorders bytes, stays within its maxima, and forgets nobody who waits. -/
namespace Verif.IoBuffer
open Verif.Buf (Buf W Rep Cap Holds)
open Verif.Bithacks (roundUp64)

/-! ### The invariant -/

structure Inv (maxR maxW : Nat) (s : St) : Prop where
  mR : s.h.maxR = roundUp64 maxR
  mW : s.h.maxW = roundUp64 maxW
  sz : Sizes s.h
  r : ∃ a, Rep false s.h.r a ∧ s.inp = s.got ++ a ++ s.kern ∧ a.length ≤ lim s.h.maxR
  w : ∃ b, Rep false s.h.w b ∧ s.acc = s.out ++ b ∧ b.length ≤ s.h.maxW
  told : 0 < s.h.r.len → s.usrR = true ∨ s.toldR = true
  wr : 0 < s.h.w.len → s.wrEv = true ∨ s.busy = true
  bl : s.blocked = true → s.h.hitW = true ∧ 0 < s.h.w.len

theorem maxW_pos {maxW : Nat} (h0 : 0 < maxW) (h : maxW ≤ 2 ^ 62) : 0 < roundUp64 maxW ∧ roundUp64 maxW ≤ 2 ^ 62 := by
  obtain ⟨q, e, h1, h2⟩ := Verif.Bithacks.roundUp64_correct maxW (by omega) (by omega)
  have : q < 63 := pow_lt_imp (by omega)
  have : 2 ^ q ≤ 2 ^ 62 := Nat.pow_le_pow_right (by omega) (by omega)
  rw [e]; omega

theorem inv_init {maxR maxW : Nat} (hR0 : 0 < maxR) (hR : maxR ≤ 2 ^ 62) : Inv maxR maxW (init maxR maxW) where
  mR := rfl
  mW := rfl
  sz := by
    obtain ⟨q, e, h1, h2⟩ := Verif.Bithacks.roundUp64_correct maxR (by omega) (by omega)
    exact ⟨⟨q, e, by have : q < 63 := pow_lt_imp (by omega); omega⟩, .inl rfl, fun h => by simp [init, add] at h⟩
  r := ⟨[], Buf.create_rep.forget, rfl, Nat.zero_le _⟩
  w := ⟨[], Buf.create_rep.forget, rfl, Nat.zero_le _⟩
  told := fun h => by simp [init, add, Buf.create] at h
  wr := fun h => by simp [init, add, Buf.create] at h
  bl := fun h => by simp [init] at h

theorem Step.inv {g : Nat → UInt8} {maxR maxW : Nat} (hW0 : 0 < maxW) (hW : maxW ≤ 2 ^ 62) {s s' : St} (i : Inv maxR maxW s) (t : Step g s s') : Inv maxR maxW s' := by
  have ⟨hm0, hm⟩ := maxW_pos hW0 hW
  rw [← i.mW] at hm0 hm
  obtain ⟨a, ra, ea, la⟩ := i.r
  obtain ⟨b, rb, eb, lb⟩ := i.w
  cases t with
  | arrive bs again hb =>
    exact ⟨i.mR, i.mW, i.sz, ⟨a, ra, by rw [ea]; simp, la⟩, i.w, i.told, i.wr, i.bl⟩
  | @readEv h c bs he e =>
    obtain ⟨h', c', bs', e', sz, rr, ll, e1, e2, e3, e4, pre, hc, -⟩ := processRead_spec g i.sz ra la s.kern
    rw [e] at e'
    simp only [Option.some.injEq, Prod.mk.injEq] at e'
    obtain ⟨rfl, rfl, rfl⟩ := e'
    refine ⟨e1.trans i.mR, e2.trans i.mW, sz, ⟨a ++ bs, rr, ?_, by rw [e1]; exact ll⟩, ⟨b, by rw [e3]; exact rb, eb, by rw [e2]; exact lb⟩, ?_, ?_, ?_⟩
    · obtain ⟨t, hk⟩ := pre
      show s.inp = s.got ++ (a ++ bs) ++ s.kern.drop bs.length
      rw [ea, ← hk]
      simp
    · intro hpos
      show s.usrR = true ∨ (s.toldR || !c) = true
      by_cases ha : a = []
      · by_cases hb : bs = []
        · have := rr.len
          rw [ha, hb] at this
          simp at this
          rw [this] at hpos
          omega
        · right; rw [hc hb ha]; simp
      · have := ra.len
        have h2 : 0 < a.length := List.length_pos_iff.2 ha
        rcases i.told (by omega) with h | h
        · exact .inl h
        · right; rw [h]; simp
    · show 0 < h.w.len → _
      rw [e3]; exact i.wr
    · show _ → h.hitW = true ∧ 0 < h.w.len
      rw [e3, e4]; exact i.bl
  | @read h bs soft n hn e =>
    obtain ⟨h', e', sz, rr, e1, e2, e3, e4, e5⟩ := readCb_spec i.sz ra n
    rw [e] at e'
    simp only [Option.some.injEq, Prod.mk.injEq] at e'
    obtain ⟨rfl, rfl, -⟩ := e'
    refine ⟨e1.trans i.mR, e2.trans i.mW, sz, ⟨a.drop n, rr, ?_, by rw [e1, List.length_drop]; omega⟩, ⟨b, by rw [e3]; exact rb, eb, by rw [e2]; exact lb⟩, ?_, ?_, ?_⟩
    · show s.inp = s.got ++ a.take n ++ a.drop n ++ s.kern
      rw [List.append_assoc s.got, List.take_append_drop, ea]
    · intro hpos
      have := rr.len
      rw [List.length_drop] at this
      have hx : ¬ (a.take n).length < n := by
        rw [List.length_take]
        have : 0 < h.r.len := hpos
        omega
      left
      show (if (a.take n).length < n then false else true) = true
      rw [if_neg hx]
    · show 0 < h.w.len → _
      rw [e3]; exact i.wr
    · show _ → h.hitW = true ∧ 0 < h.w.len
      rw [e3, e4]; exact i.bl
  | usrR hu => exact ⟨i.mR, i.mW, i.sz, i.r, i.w, fun _ => .inr rfl, i.wr, i.bl⟩
  | @write h k bs hne hlt e =>
    obtain ⟨h', e', rr, e1, e2, e3, e4, e5, e6⟩ := writeCb_spec g rb lb hm bs hlt
    rw [e] at e'
    simp only [Option.some.injEq, Prod.mk.injEq] at e'
    obtain ⟨rfl, rfl⟩ := e'
    have hbl : 0 < bs.length := List.length_pos_iff.2 hne
    have hlen := rr.len
    rw [List.length_append, List.length_take] at hlen
    have hlen0 := rb.len
    refine ⟨e1.trans i.mR, e2.trans i.mW, ?_, ⟨a, by rw [e3]; exact ra, ea, by rw [e1]; exact la⟩, ⟨_, rr, ?_, ?_⟩, ?_, ?_, ?_⟩
    · have := i.sz
      exact ⟨by rw [e1]; exact this.pow, by rw [e1, e3]; exact this.size, by rw [e3, e4]; exact this.hit⟩
    · show s.acc ++ bs.take (min bs.length (s.h.maxW - b.length)) = s.out ++ (b ++ bs.take (s.h.maxW - b.length))
      rw [eb, List.append_assoc]
      congr 2
      by_cases hx : bs.length ≤ s.h.maxW - b.length
      · rw [Nat.min_eq_left hx, List.take_of_length_le (Nat.le_refl _), List.take_of_length_le hx]
      · rw [Nat.min_eq_right (by omega)]
    · rw [e2, List.length_append, List.length_take]; omega
    · show 0 < h.r.len → _
      rw [e3]; exact i.told
    · intro hpos
      show (s.wrEv || decide (0 < min bs.length (s.h.maxW - b.length))) = true ∨ s.busy = true
      by_cases h0 : 0 < b.length
      · rcases i.wr (by omega) with h | h
        · left; rw [h]; rfl
        · exact .inr h
      · left
        have : 0 < min bs.length (s.h.maxW - b.length) := by omega
        simp [this]
    · intro hbk
      show h.hitW = true ∧ 0 < h.w.len
      by_cases hx : min bs.length (s.h.maxW - b.length) < bs.length
      · exact ⟨e5 (by omega), by omega⟩
      · have hbk : (if min bs.length (s.h.maxW - b.length) < bs.length then true else s.blocked) = true := hbk
        rw [if_neg hx] at hbk
        have := i.bl hbk
        exact ⟨e6 this.1, by omega⟩
  | @writeEv h c bs k hv e =>
    obtain ⟨h', c', e', rr, e1, e2, e3, e4, e5, e6, e7⟩ := processWrite_spec rb k
    rw [e] at e'
    simp only [Option.some.injEq, Prod.mk.injEq] at e'
    obtain ⟨rfl, rfl, rfl⟩ := e'
    have hlen := rr.len
    rw [List.length_drop] at hlen
    have hlen0 := rb.len
    refine ⟨e1.trans i.mR, e2.trans i.mW, ?_, ⟨a, by rw [e3]; exact ra, ea, by rw [e1]; exact la⟩, ⟨_, rr, ?_, by rw [e2, List.length_drop]; omega⟩, ?_, ?_, ?_⟩
    · have := i.sz
      exact ⟨by rw [e1]; exact this.pow, by rw [e1, e3]; exact this.size, by rw [e3, e4]; exact this.hit⟩
    · show s.acc = s.out ++ b.take k ++ b.drop k
      rw [List.append_assoc, List.take_append_drop, eb]
    · show 0 < h.r.len → _
      rw [e3]; exact i.told
    · intro hpos
      have hpos : 0 < h.w.len := hpos
      right
      show (s.busy || decide ((b.take k).length < s.h.w.len)) = true
      have : (b.take k).length < s.h.w.len := by rw [List.length_take]; omega
      rw [decide_eq_true this, Bool.or_true]
    · intro hbk
      have hbk : (s.blocked && c) = true := hbk
      rw [Bool.and_eq_true] at hbk
      have hx := i.bl hbk.1
      refine ⟨(e7 hbk.2).trans hx.1, ?_⟩
      show 0 < h.w.len
      rcases e6 hx.1 with h0 | ⟨h0, -⟩
      · rw [h0] at hbk; simp at hbk
      · have := congrArg List.length h0
        rw [List.length_take] at this
        simp only [List.length_nil] at this
        omega
  | usrW hu => exact ⟨i.mR, i.mW, i.sz, i.r, i.w, i.told, i.wr, i.bl⟩
  | low hu => exact ⟨i.mR, i.mW, i.sz, i.r, i.w, i.told, fun _ => .inl rfl, i.bl⟩

theorem Reach.inv {g : Nat → UInt8} {maxR maxW : Nat} (hR0 : 0 < maxR) (hR : maxR ≤ 2 ^ 62) (hW0 : 0 < maxW) (hW : maxW ≤ 2 ^ 62) {s : St} (r : Reach g maxR maxW s) :
    Inv maxR maxW s := by
  induction r with
  | init => exact inv_init hR0 hR
  | step _ t ih => exact t.inv hW0 hW ih

/-! ### The theorems -/

/-- Both directions are streams: what arrived is what the application has read, followed by what is in the layer and what is still below;
what the application has written is what was sent, followed by what is in the layer. -/
theorem ioBuffer_streams (g : Nat → UInt8) {maxR maxW : Nat} (hR0 : 0 < maxR) (hR : maxR ≤ 2 ^ 62) (hW0 : 0 < maxW) (hW : maxW ≤ 2 ^ 62) {s : St} (r : Reach g maxR maxW s) :
    (∃ a, s.inp = s.got ++ a ++ s.kern ∧ a.length = s.h.r.len) ∧ (∃ b, s.acc = s.out ++ b ∧ b.length = s.h.w.len) := by
  have i := r.inv hR0 hR hW0 hW
  obtain ⟨a, ra, ea, la⟩ := i.r
  obtain ⟨b, rb, eb, lb⟩ := i.w
  exact ⟨⟨a, ea, ra.len.symm⟩, b, eb, rb.len.symm⟩

/-- No call reaches outside of a buffer; a read gives the next bytes of what arrived, as many as are in the layer, and a write takes the
first bytes, as many as there is room for. -/
theorem ioBuffer_calls (g : Nat → UInt8) {maxR maxW : Nat} (hR0 : 0 < maxR) (hR : maxR ≤ 2 ^ 62) (hW0 : 0 < maxW) (hW : maxW ≤ 2 ^ 62) {s : St} (r : Reach g maxR maxW s) :
    (∃ h c bs, processRead g s.h (lowRead s.kern) = some (h, c, bs) ∧ bs <+: s.kern ∧ h.r.len = s.h.r.len + bs.length) ∧
    (∀ n, ∃ h soft, readCb s.h n = some (h, (s.inp.drop s.got.length).take (min n s.h.r.len), soft)) ∧
    (∀ k, ∃ h c, processWrite s.h (fun l => some (min k l.length)) = some (h, c, (s.acc.drop s.out.length).take k)) ∧
    (∀ bs j, maxW ≤ 2 ^ j → 2 ^ j < 2 * maxW → bs.length < 2 ^ 62 → ∃ h, writeCb g s.h bs = some (h, min bs.length (2 ^ j - s.h.w.len))) := by
  have i := r.inv hR0 hR hW0 hW
  have ⟨hm0, hm⟩ := maxW_pos hW0 hW
  rw [← i.mW] at hm0 hm
  obtain ⟨a, ra, ea, la⟩ := i.r
  obtain ⟨b, rb, eb, lb⟩ := i.w
  refine ⟨?_, ?_, ?_, ?_⟩
  · obtain ⟨h', c', bs', e', sz, rr, ll, e1, e2, e3, e4, pre, hc, -⟩ := processRead_spec g i.sz ra la s.kern
    exact ⟨h', c', bs', e', pre, by rw [rr.len, ra.len, List.length_append]⟩
  · intro n
    obtain ⟨h', e', -⟩ := readCb_spec i.sz ra n
    refine ⟨h', s.h.hitR && decide (a.take n ≠ []), e'.trans ?_⟩
    have : (s.inp.drop s.got.length).take (min n s.h.r.len) = a.take n := by
      rw [ea, ra.len, List.append_assoc, List.drop_left, ← List.take_take, List.take_left]
    rw [this]
  · intro k
    obtain ⟨h', c', e', -⟩ := processWrite_spec rb k
    refine ⟨h', c', e'.trans ?_⟩
    rw [eb, List.drop_left]
  · intro bs j h1 h2 h3
    obtain ⟨h', e', -⟩ := writeCb_spec g rb lb hm bs (by unfold W; omega)
    refine ⟨h', e'.trans ?_⟩
    have : s.h.maxW = 2 ^ j := by
      obtain ⟨q, e, h4, h5⟩ := Verif.Bithacks.roundUp64_correct maxW (by omega) (by omega)
      have a1 : q < j + 1 := pow_lt_imp (by rw [Nat.pow_succ]; omega)
      have a2 : j < q + 1 := pow_lt_imp (by rw [Nat.pow_succ]; omega)
      rw [i.mW, e, show q = j by omega]
    rw [this, rb.len]

/-- The layer never holds more bytes to be sent than its maximum rounded up to a power of two, and never more bytes to be read than that or
16384. -/
theorem ioBuffer_bounds_partial (g : Nat → UInt8) {maxR maxW : Nat} (hR0 : 0 < maxR) (hR : maxR ≤ 2 ^ 62) (hW0 : 0 < maxW) (hW : maxW ≤ 2 ^ 62) {s : St} (r : Reach g maxR maxW s) :
    (∀ j, maxR ≤ 2 ^ j → s.h.r.len ≤ max 16384 (2 ^ j) ∧ s.h.r.size ≤ max 16384 (2 ^ j)) ∧ (∀ j, maxW ≤ 2 ^ j → s.h.w.len ≤ 2 ^ j) := by
  have i := r.inv hR0 hR hW0 hW
  obtain ⟨a, ra, ea, la⟩ := i.r
  obtain ⟨b, rb, eb, lb⟩ := i.w
  have hl := ra.len
  have hb := rb.len
  have up : ∀ m j, 0 < m → m ≤ 2 ^ 62 → m ≤ 2 ^ j → roundUp64 m ≤ 2 ^ j := by
    intro m j h0 h1 h2
    obtain ⟨q, e, h4, h5⟩ := Verif.Bithacks.roundUp64_correct m (by omega) (by omega)
    have a1 : q < j + 1 := pow_lt_imp (by rw [Nat.pow_succ]; omega)
    rw [e]
    exact Nat.pow_le_pow_right (by omega) (by omega)
  have hlim : lim s.h.maxR ≤ max 16384 s.h.maxR := by unfold lim; split <;> omega
  constructor
  · intro j hj
    have := up maxR j hR0 hR hj
    rw [← i.mR] at this
    refine ⟨by omega, ?_⟩
    rcases i.sz.size with h | ⟨k, -, -, h⟩ <;> omega
  · intro j hj
    have := up maxW j hW0 hW hj
    rw [← i.mW] at this
    omega

/-- While there are bytes in the layer to be read, the application was told of them or a soft event will tell it. -/
theorem ioBuffer_told (g : Nat → UInt8) {maxR maxW : Nat} (hR0 : 0 < maxR) (hR : maxR ≤ 2 ^ 62) (hW0 : 0 < maxW) (hW : maxW ≤ 2 ^ 62) {s : St} (r : Reach g maxR maxW s)
    (h : 0 < s.h.r.len) : s.usrR = true ∨ s.toldR = true := (r.inv hR0 hR hW0 hW).told h

/-- While there are bytes in the layer to be sent, a write event is queued or the layer below will report one; and while a
writer waits for room, the buffer has bytes in it and the next write event that takes some of them is passed on to the writer. -/
theorem ioBuffer_flushed (g : Nat → UInt8) {maxR maxW : Nat} (hR0 : 0 < maxR) (hR : maxR ≤ 2 ^ 62) (hW0 : 0 < maxW) (hW : maxW ≤ 2 ^ 62) {s : St} (r : Reach g maxR maxW s) :
    (0 < s.h.w.len → s.wrEv = true ∨ s.busy = true) ∧
    (s.blocked = true → 0 < s.h.w.len ∧ ∀ k h c bs, 0 < k → processWrite s.h (fun l => some (min k l.length)) = some (h, c, bs) → c = false ∧ bs ≠ []) := by
  have i := r.inv hR0 hR hW0 hW
  refine ⟨i.wr, fun hb => ⟨(i.bl hb).2, fun k h c bs hk e => ?_⟩⟩
  obtain ⟨b, rb, eb, lb⟩ := i.w
  obtain ⟨h', c', e', rr, e1, e2, e3, e4, e5, e6, e7⟩ := processWrite_spec rb k
  rw [e] at e'
  simp only [Option.some.injEq, Prod.mk.injEq] at e'
  obtain ⟨rfl, rfl, rfl⟩ := e'
  have hx := i.bl hb
  have hl := rb.len
  have hne : b.take k ≠ [] := by
    intro h0
    have := congrArg List.length h0
    rw [List.length_take] at this
    simp only [List.length_nil] at this
    omega
  rcases e6 hx.1 with h0 | ⟨h0, -⟩
  · exact ⟨h0, hne⟩
  · exact absurd h0 hne

/-! ### Bytes that wait below -/

/-- Runs in which no read event is delivered while the read buffer holds its maximum. -/
inductive ReachRoom (g : Nat → UInt8) (maxR maxW top : Nat) : St → Prop
  | init : ReachRoom g maxR maxW top (init maxR maxW)
  | step {s s'} : ReachRoom g maxR maxW top s → Step g s s' → (s.rdEv = true → s'.rdEv = false → s.h.r.len < top) → ReachRoom g maxR maxW top s'

theorem ReachRoom.reach {g : Nat → UInt8} {maxR maxW top : Nat} {s : St} (r : ReachRoom g maxR maxW top s) : Reach g maxR maxW s := by
  induction r with
  | init => exact .init
  | step _ t _ ih => exact ih.step t

structure Inv2 (s : St) : Prop where
  full : 0 < s.h.r.len → s.h.r.len = s.h.r.size → s.h.hitR = true
  wait : s.kern ≠ [] → s.rdEv = true ∨ (s.h.hitR = true ∧ 0 < s.h.r.len)

theorem Step.inv2 {g : Nat → UInt8} {maxR maxW : Nat} {s s' : St} (i : Inv maxR maxW s) (hm : s.h.maxW ≤ 2 ^ 62) (i2 : Inv2 s) (t : Step g s s')
    (room : s.rdEv = true → s'.rdEv = false → s.h.r.len < lim s.h.maxR) : Inv2 s' := by
  obtain ⟨a, ra, ea, la⟩ := i.r
  obtain ⟨b, rb, eb, lb⟩ := i.w
  cases t with
  | arrive bs again hb =>
    refine ⟨i2.full, fun _ => ?_⟩
    show (s.rdEv || again || decide (s.kern = [])) = true ∨ _
    by_cases hk : s.kern = []
    · left; simp [hk]
    · rcases i2.wait hk with h | h
      · left; simp [h]
      · exact .inr h
  | @readEv h c bs he e =>
    have room : s.h.r.len < lim s.h.maxR := room he rfl
    obtain ⟨h', c', bs', e', sz, rr, ll, e1, e2, e3, e4, pre, hc, p1, p2, -, p3, p4, hts⟩ := processRead_spec g i.sz ra la s.kern
    rw [e] at e'
    simp only [Option.some.injEq, Prod.mk.injEq] at e'
    obtain ⟨rfl, rfl, rfl⟩ := e'
    obtain ⟨q, hq, hq2, ht, htl, hsz, hhit⟩ := target_exact i.sz
    have hl := ra.len
    have hrl := rr.len
    have hfit := ra.fit
    have hle : s.h.r.size ≤ target s.h := by
      rcases hsz with hz | ⟨k, hk, hz⟩
      · omega
      · have : 2 ^ k ≤ 2 ^ q := Nat.pow_le_pow_right (by omega) hk
        omega
    have hpos := Nat.two_pow_pos q
    have hlt : a.length < target s.h := by
      apply Nat.lt_of_not_le
      intro hn
      have h1 : s.h.r.len = s.h.r.size := by omega
      have h2 := i2.full (by omega) h1
      have h3 := hhit h2 (by omega)
      omega
    refine ⟨fun h0 h1 => ?_, fun hk => ?_⟩
    · show h.hitR = true
      have h1 : h.r.len = h.r.size := h1
      rw [p4 hlt]
      have hts := hts hlt
      rw [hrl, List.length_append] at h1
      omega
    · right
      have hk : s.kern.drop bs.length ≠ [] := hk
      have hh : h.hitR = true := by
        cases hh : h.hitR
        · rw [p1 hlt hh] at hk; simp at hk
        · rfl
      refine ⟨hh, ?_⟩
      show 0 < h.r.len
      have := List.length_pos_iff.2 (p2 hlt hh)
      rw [hrl, List.length_append]; omega
  | @read h bs soft n hn e =>
    obtain ⟨h', e', sz, rr, e1, e2, e3, e4, e5, hsize⟩ := readCb_spec i.sz ra n
    rw [e] at e'
    simp only [Option.some.injEq, Prod.mk.injEq] at e'
    obtain ⟨rfl, rfl, hsoft⟩ := e'
    have hl := ra.len
    have hrl := rr.len
    have hfit := ra.fit
    rw [List.length_drop] at hrl
    refine ⟨fun h0 h1 => ?_, fun hk => ?_⟩
    · have h0 : 0 < h.r.len := h0
      have h1 : h.r.len = h.r.size := h1
      omega
    · left
      show (s.rdEv || soft) = true
      rcases i2.wait hk with h | ⟨h, h'⟩
      · rw [h]; rfl
      · have : a.take n ≠ [] := by
          intro h0
          have := congrArg List.length h0
          rw [List.length_take] at this
          simp only [List.length_nil] at this
          omega
        simp [hsoft, h, this]
  | usrR hu => exact ⟨i2.full, i2.wait⟩
  | @write h k bs hne hlt e =>
    obtain ⟨h', e', rr, e1, e2, e3, e4, e5, e6⟩ := writeCb_spec g rb lb hm bs hlt
    rw [e] at e'
    simp only [Option.some.injEq, Prod.mk.injEq] at e'
    obtain ⟨rfl, rfl⟩ := e'
    exact ⟨by show 0 < h.r.len → h.r.len = h.r.size → h.hitR = true; rw [e3, e4]; exact i2.full,
      by show s.kern ≠ [] → s.rdEv = true ∨ (h.hitR = true ∧ 0 < h.r.len); rw [e3, e4]; exact i2.wait⟩
  | @writeEv h c bs k hv e =>
    obtain ⟨h', c', e', rr, e1, e2, e3, e4, e5, e6, e7⟩ := processWrite_spec rb k
    rw [e] at e'
    simp only [Option.some.injEq, Prod.mk.injEq] at e'
    obtain ⟨rfl, rfl, rfl⟩ := e'
    exact ⟨by show 0 < h.r.len → h.r.len = h.r.size → h.hitR = true; rw [e3, e4]; exact i2.full,
      by show s.kern ≠ [] → s.rdEv = true ∨ (h.hitR = true ∧ 0 < h.r.len); rw [e3, e4]; exact i2.wait⟩
  | usrW hu => exact ⟨i2.full, i2.wait⟩
  | low hu => exact ⟨i2.full, i2.wait⟩

theorem ReachRoom.inv2 {g : Nat → UInt8} {maxR maxW j : Nat} (hR0 : 0 < maxR) (hR : maxR ≤ 2 ^ 62) (hW0 : 0 < maxW) (hW : maxW ≤ 2 ^ 62) (hj : maxR ≤ 2 ^ j) (hj2 : 2 ^ j < 2 * maxR)
    {s : St} (r : ReachRoom g maxR maxW (max 16384 (2 ^ j)) s) : Inv2 s := by
  induction r with
  | init => exact ⟨fun h => by simp [Verif.IoBuffer.init, add, Buf.create] at h, fun h => by simp [Verif.IoBuffer.init] at h⟩
  | @step s s' r t room ih =>
    have i := r.reach.inv hR0 hR hW0 hW
    refine t.inv2 i (by rw [i.mW]; exact (maxW_pos hW0 hW).2) ih fun h1 h2 => ?_
    have hm : s.h.maxR = 2 ^ j := by
      obtain ⟨q, e, h4, h5⟩ := Verif.Bithacks.roundUp64_correct maxR (by omega) (by omega)
      have a1 : q < j + 1 := pow_lt_imp (by rw [Nat.pow_succ]; omega)
      have a2 : j < q + 1 := pow_lt_imp (by rw [Nat.pow_succ]; omega)
      rw [i.mR, e, show q = j by omega]
    have := room h1 h2
    unfold lim
    split <;> omega

/-- While bytes wait below the layer, a read event is queued, or there are bytes in the layer (of which the application was or will be told)
and the next read by the application queues one.  For runs in which no read event is delivered while the buffer holds its maximum,
`ioBuffer_unread_fails`. -/
theorem ioBuffer_unread_partial (g : Nat → UInt8) {maxR maxW j : Nat} (hR0 : 0 < maxR) (hR : maxR ≤ 2 ^ 62) (hW0 : 0 < maxW) (hW : maxW ≤ 2 ^ 62)
    (hj : maxR ≤ 2 ^ j) (hj2 : 2 ^ j < 2 * maxR) {s : St} (r : ReachRoom g maxR maxW (max 16384 (2 ^ j)) s) (hk : s.kern ≠ []) :
    s.rdEv = true ∨ (0 < s.h.r.len ∧ (s.usrR = true ∨ s.toldR = true) ∧
      ∀ n h bs soft, 0 < n → readCb s.h n = some (h, bs, soft) → soft = true ∧ bs ≠ []) := by
  have i := r.reach.inv hR0 hR hW0 hW
  rcases (r.inv2 hR0 hR hW0 hW hj hj2).wait hk with h | ⟨h, h'⟩
  · exact .inl h
  · refine .inr ⟨h', i.told h', fun n h2 bs soft hn e => ?_⟩
    obtain ⟨a, ra, ea, la⟩ := i.r
    obtain ⟨h3, e', -⟩ := readCb_spec i.sz ra n
    rw [e] at e'
    simp only [Option.some.injEq, Prod.mk.injEq] at e'
    obtain ⟨-, rfl, rfl⟩ := e'
    have hl := ra.len
    have : a.take n ≠ [] := by
      intro h0
      have := congrArg List.length h0
      rw [List.length_take] at this
      simp only [List.length_nil] at this
      omega
    exact ⟨by simp [h, this], this⟩

/-! ### Witnesses -/

/-- A run in which 16384 bytes fill the read buffer at its maximum, and then another byte arrives. -/
theorem reach_full (g : Nat → UInt8) (v : List UInt8) (hv : v.length = 16384) (x : UInt8) :
    ∃ s, Reach g 16 16 s ∧ s.kern = [x] ∧ s.rdEv = true ∧ s.usrR = false ∧ s.toldR = true ∧ s.got = [] ∧ s.inp = v ++ [x] ∧ s.h.r.len = 16384 ∧ s.wrEv = false ∧ s.busy = false ∧ s.usrW = false := by
  have hv0 : v ≠ [] := by intro h; rw [h] at hv; simp at hv
  have r1 : Reach g 16 16 _ := .step .init (.arrive v false hv0)
  have i1 := inv_init (maxR := 16) (maxW := 16) (by omega) (by omega)
  have t0 : target (add 16 16) = 16384 := by decide
  obtain ⟨h', c, bs, e, sz, rr, ll, e1, e2, e3, e4, pre, hc, p1, p2, p0, p3, p4, hts⟩ :=
    processRead_spec g i1.sz (v := []) Buf.create_rep.forget (Nat.zero_le _) v
  have hbs : bs = v := by
    rw [p3 (by rw [show target (init 16 16).h = 16384 from t0]; decide), show target (init 16 16).h = 16384 from t0]
    exact List.take_of_length_le (by simp [hv])
  subst hbs
  have r2 : Reach g 16 16 _ := r1.step (.readEv (by simp [init]) e)
  have r3 : Reach g 16 16 _ := r2.step (.arrive [x] false (by simp))
  refine ⟨_, r3, by simp [init], by simp [init], rfl, ?_, rfl, by simp [init], ?_, rfl, rfl, rfl⟩
  · simp [hc hv0 rfl]
  · show h'.r.len = 16384
    rw [rr.len]; simpa using hv

/-- A read event that is delivered while the buffer holds its maximum loses the mark that makes the next read ask for another: the
application reads all there is in the layer, and then a byte waits below that nobody will ask for. -/
theorem ioBuffer_unread_fails (g : Nat → UInt8) (v : List UInt8) (hv : v.length = 16384) (x : UInt8) :
    ∃ s, Reach g 16 16 s ∧ s.inp = v ++ [x] ∧ s.got = v ∧ s.kern = [x] ∧ s.h.r.len = 0 ∧
      s.rdEv = false ∧ s.wrEv = false ∧ s.busy = false ∧ s.usrR = false ∧ s.usrW = false ∧ s.toldR = false := by
  obtain ⟨s, r, hk, h1, h2, h3, h4, h5, h6, h7, h8, h9⟩ := reach_full g v hv x
  have i := r.inv (by omega) (by omega) (by omega) (by omega)
  obtain ⟨a, ra, ea, la⟩ := i.r
  have hl := ra.len
  have hm : lim s.h.maxR = 16384 := by rw [i.mR]; decide
  have hav : a = v := by
    rw [h5, h4, hk, List.nil_append] at ea
    exact (List.append_inj_left' ea rfl).symm
  subst hav
  obtain ⟨h', c, bs, e, sz, rr, ll, e1, e2, e3, e4, pre, hc, p1, p2, p0, p3, p4, hts⟩ := processRead_spec g i.sz ra la s.kern
  obtain ⟨q, -, -, -, ht, -⟩ := target_exact i.sz
  have hh := p0 (by omega)
  have hbs : bs = [] := by
    rw [List.length_append] at ll
    exact List.eq_nil_of_length_eq_zero (by omega)
  subst hbs
  rw [List.append_nil] at rr
  have r2 : Reach g 16 16 _ := r.step (.readEv h1 e)
  obtain ⟨h3', e', sz', rr', f1, f2, f3, f4, f5, f6⟩ := readCb_spec sz rr 16385
  rw [List.take_of_length_le (by omega)] at e'
  rw [List.drop_of_length_le (by omega)] at rr'
  have hf : h'.hitR = false := by rw [hh]
  have r3 : Reach g 16 16 _ := r2.step (.read 16385 (by omega) e')
  have hlt : a.length < 16385 := by omega
  refine ⟨_, r3, h5, ?_, hk, rr'.len, ?_, h7, h8, ?_, h9, ?_⟩
  · show s.got ++ a = a
    rw [h4, List.nil_append]
  · show (false || (h'.hitR && decide (a ≠ []))) = false
    rw [hf]; rfl
  · show (if a.length < 16385 then false else true) = false
    rw [if_pos hlt]
  · show (if a.length < 16385 then false else _) = false
    rw [if_pos hlt]

/-- The layer may hold more bytes to be read than the maximum it was given. -/
theorem ioBuffer_bounds_fails (g : Nat → UInt8) : ∃ s, Reach g 16 16 s ∧ s.h.r.len = 16384 := by
  obtain ⟨s, r, -, -, -, -, -, -, h, -⟩ := reach_full g (List.replicate 16384 0) List.length_replicate 0
  exact ⟨s, r, h⟩

/-- A writer that waits: 20 bytes for a layer that holds 16. -/
example (g : Nat → UInt8) : ∃ s, Reach g 16 16 s ∧ s.blocked = true ∧ s.h.w.len = 16 ∧ s.acc.length = 16 := by
  have i := inv_init (maxR := 16) (maxW := 16) (by omega) (by omega)
  obtain ⟨h', e, rr, -⟩ := writeCb_spec g (h := (init 16 16).h) (v := []) Buf.create_rep.forget (Nat.zero_le _) (by decide) (List.replicate 20 1) (by decide)
  exact ⟨_, .step .init (.write (List.replicate 20 1) (by decide) (by decide) e), rfl, rr.len, rfl⟩

/-- Bytes wait below and no event is queued: the application's next read queues one. -/
example (g : Nat → UInt8) : ∃ s, ReachRoom g 16 16 (max 16384 (2 ^ 4)) s ∧ s.kern = [1] ∧ s.rdEv = false := by
  have hl : (List.replicate 16384 (0 : UInt8)).length = 16384 := List.length_replicate
  generalize List.replicate 16384 (0 : UInt8) = v at hl
  have i1 := inv_init (maxR := 16) (maxW := 16) (by omega) (by omega)
  have t0 : target (init 16 16).h = 16384 := by decide
  have r1 : ReachRoom g 16 16 (max 16384 (2 ^ 4)) _ := .step .init (.arrive (v ++ [1]) false (by simp)) (fun h => by simp [init] at h)
  obtain ⟨h', c, bs, e, sz, rr, ll, e1, e2, e3, e4, pre, hc, p1, p2, p0, p3, p4, hts⟩ :=
    processRead_spec g i1.sz (v := []) Buf.create_rep.forget (Nat.zero_le _) (v ++ [1])
  have hbs : bs = v := by
    rw [p3 (by rw [t0]; decide), t0, show (16384 - ([] : List UInt8).length) = v.length by simp [hl], List.take_left]
  subst hbs
  exact ⟨_, r1.step (.readEv (by simp [init]) e) (fun _ _ => by show 0 < _; omega), by simp [init], rfl⟩

end Verif.IoBuffer
