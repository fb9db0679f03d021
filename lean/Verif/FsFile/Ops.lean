import Verif.FsFile.Lemmas

/-! Helper lemmas: what one call does to the file as the user sees it. -/

namespace Verif.FsFile

/-- Where a write goes, seen from outside. -/
def viewAt (f : File) : Nat := if f.append then (viewBytes f).length else viewPos f

theorem take_ne_nil (l : List UInt8) (k : Nat) (h0 : 0 < k) (hk : k ≤ l.length) : l.take k ≠ [] := by
  intro h
  have := congrArg List.length h
  rw [List.length_take, List.length_nil] at this
  omega

theorem drop_ne_nil (l : List UInt8) (k : Nat) (hk : k < l.length) : l.drop k ≠ [] := by
  intro h
  have := congrArg List.length h
  rw [List.length_drop, List.length_nil] at this
  omega

/-- Writing out a first part of the buffer does not change what the user sees. -/
theorem flush_view (f : File) (k n : Nat) (hk : k ≤ f.writeBuf.length) (hw : f.writeBuf ≠ []) (hr : f.readBuf = []) :
    viewBytes { put f f.writeBuf k n with writeBuf := f.writeBuf.drop k } = viewBytes f ∧
      viewPos { put f f.writeBuf k n with writeBuf := f.writeBuf.drop k } = viewPos f := by
  have hlen : 0 < f.writeBuf.length := List.length_pos_iff.2 hw
  have hwp : wpos { put f f.writeBuf k n with writeBuf := f.writeBuf.drop k } = wpos f + k := by
    have := put_wpos f f.writeBuf k n hk
    simpa [wpos, put] using this
  constructor
  · unfold viewBytes
    rw [hwp]
    simp only [put]
    by_cases hk0 : k = 0
    · subst hk0
      simp [splice_nil]
    · have := splice_splice f.content (wpos f) (f.writeBuf.take k) (f.writeBuf.drop k) (take_ne_nil _ _ (by omega) hk)
      rw [List.length_take, Nat.min_eq_left hk, List.take_append_drop] at this
      exact this
  · have e : ∀ g : File, g.writeBuf ≠ [] → viewPos g = wpos g + g.writeBuf.length := fun g hg => if_neg hg
    by_cases hd : f.writeBuf.drop k = []
    · have hkl : k = f.writeBuf.length := by
        have := congrArg List.length hd
        rw [List.length_drop, List.length_nil] at this
        omega
      rw [e _ hw]
      unfold viewPos
      rw [if_pos hd]
      simp only [put, hr]
      rw [if_neg (by omega), hkl]
      simp
    · rw [e _ hd, e _ hw, hwp]
      simp only [List.length_drop]
      omega

/-- Putting bytes in the write buffer is writing them, as far as the user sees. -/
theorem enqueue_view (f : File) (bs : List UInt8) (hi : Inv f) (hbs : bs ≠ []) :
    ∀ f2, f2 = enqueue f bs →
    viewBytes f2 = splice (viewBytes f) (viewAt f) bs ∧ viewPos f2 = viewAt f + bs.length ∧ f2.append = f.append ∧
      f2.bufSize = f.bufSize ∧ f2.readBuf = [] ∧ f2.readOff = 0 ∧ f2.writeBuf ≠ [] := by
  intro f2 h2
  have hs : (seekSys f (-f.readOff) .cur).1 = { f with pos := f.pos - f.readBuf.length } := by
    unfold seekSys
    have hro := hi.off
    by_cases h0 : f.readBuf.length = 0
    · rw [if_pos (by omega), h0]
      simp
    · have hb := hi.back
      have ht : target f (-f.readOff) .cur = f.pos - f.readBuf.length := by rw [hro]; rfl
      rw [if_neg (by omega), if_neg (by omega)]
      simp only
      congr 1
      omega
  unfold enqueue at h2
  rw [hs] at h2
  subst h2
  have hne : f.writeBuf ++ bs ≠ [] := by simp [hbs]
  refine ⟨?_, ?_, rfl, rfl, rfl, rfl, hne⟩
  · unfold viewBytes
    by_cases hw : f.writeBuf = []
    · simp only [hw, List.nil_append]
      rw [splice_nil]
      congr 1
      simp [viewAt, wpos, viewBytes, viewPos, hw, splice_nil]
    · have hrb : f.readBuf = [] := by
        rcases hi.one with h | h
        · exact h
        · exact absurd h hw
      have ea : viewAt f = wpos f + f.writeBuf.length := by
        unfold viewAt viewPos viewBytes
        by_cases ha : f.append = true
        · simp only [ha, if_true, wpos]
          rw [splice_end, List.length_append]
        · simp only [ha, Bool.false_eq_true, if_false, if_neg hw]
      rw [ea, splice_splice _ _ _ _ hw]
      congr 1
      simp [wpos, hrb]
  · unfold viewPos
    simp only [if_neg hne]
    by_cases hw : f.writeBuf = []
    · simp [viewAt, wpos, viewBytes, viewPos, hw, splice_nil]
    · have hrb : f.readBuf = [] := by
        rcases hi.one with h | h
        · exact h
        · exact absurd h hw
      have ea : viewAt f = wpos f + f.writeBuf.length := by
        unfold viewAt viewPos viewBytes
        by_cases ha : f.append = true
        · simp only [ha, if_true, wpos]
          rw [splice_end, List.length_append]
        · simp only [ha, Bool.false_eq_true, if_false, if_neg hw]
      rw [ea, List.length_append]
      have : wpos { f with pos := f.pos - f.readBuf.length, readBuf := [], readOff := 0, writeBuf := f.writeBuf ++ bs } =
          wpos f := by simp [wpos, hrb]
      rw [this]
      omega

theorem write_spec (env : Env) (f : File) (bs : List UInt8) (full : Bool) (hi : Inv f) (hbs : bs ≠ []) :
    ∃ k, k ≤ bs.length ∧ (write env f bs full).2.2 = k ∧
      viewBytes (write env f bs full).1 = splice (viewBytes f) (viewAt f) (bs.take k) ∧
      viewPos (write env f bs full).1 = (if k = 0 then viewPos f else viewAt f + k) ∧
      ((write env f bs full).2.1 = true → 0 < k ∧ (full = true → k = bs.length)) ∧
      (0 < f.bufSize → k = bs.length) ∧ Inv (write env f bs full).1 ∧
      (write env f bs full).1.append = f.append ∧ (write env f bs full).1.bufSize = f.bufSize := by
  have h0 : 0 < bs.length := List.length_pos_iff.2 hbs
  unfold write
  rw [if_neg hbs]
  by_cases hb : f.bufSize > 0
  · rw [if_pos hb]
    dsimp only
    generalize h2 : enqueue f bs = f2
    obtain ⟨v1, v2, v3, v4, v5, v6, v7⟩ := enqueue_view f bs hi hbs f2 h2.symm
    split
    · refine ⟨bs.length, Nat.le_refl _, rfl, ?_, ?_, ?_, ?_, ?_, v3, v4⟩
      · rw [List.take_length]; exact v1
      · rw [if_neg (by omega)]; exact v2
      · intro _; exact ⟨h0, fun _ => rfl⟩
      · intro _; rfl
      · exact ⟨by rw [v5, v6]; rfl, by rw [v5]; simp, by rw [v5]; simp, Or.inl v5, fun h => by rw [v4] at h; omega⟩
    · obtain ⟨k, n, hk, e1, e2, e3, e4, e5⟩ := writeLoop_spec env full f2 f2.writeBuf 0 v7
      generalize writeLoop env full f2 f2.writeBuf 0 = r at *
      obtain ⟨f', res, wrote⟩ := r
      simp only at e1 e2 e3 e4 e5
      rw [Nat.zero_add] at e2
      subst e1 e2
      dsimp only
      have hfl := flush_view f2 wrote n hk v7 v5
      refine ⟨bs.length, Nat.le_refl _, rfl, ?_, ?_, ?_, ?_, ?_, v3, v4⟩
      · rw [List.take_length]; exact hfl.1.trans v1
      · rw [if_neg (by omega)]; exact hfl.2.trans v2
      · intro _; exact ⟨h0, fun _ => rfl⟩
      · intro _; rfl
      · refine ⟨?_, ?_, ?_, Or.inl v5, fun h => ?_⟩
        · simp [put, v5, v6]
        · simp [put, v5]
        · simp [put, v5]
        · simp only [put] at h; omega
  · rw [if_neg hb]
    have hu := hi.unb (by omega)
    obtain ⟨k, n, hk, e1, e2, e3, e4, e5⟩ := writeLoop_spec env full f bs 0 hbs
    generalize writeLoop env full f bs 0 = r at *
    obtain ⟨f', res, wrote⟩ := r
    simp only at e1 e2 e3 e4 e5
    rw [Nat.zero_add] at e2
    subst e1 e2
    have ea : viewAt f = wpos f := by
      simp [viewAt, wpos, viewBytes, viewPos, hu.1, hu.2, splice_nil]
    refine ⟨wrote, hk, rfl, ?_, ?_, e3, fun h => absurd h hb, ?_, rfl, rfl⟩
    · rw [ea]
      simp only [viewBytes, put, hu.2, splice_nil]
    · rw [ea]
      simp only [viewPos, put, hu.1, hu.2, if_true]
      rfl
    · have := hi.off
      rw [hu.1] at this
      refine ⟨?_, ?_, ?_, Or.inl hu.1, fun _ => hu⟩
      · simp [put, hu.1, this]
      · simp [put, hu.1]
      · simp [put, hu.1]

/-! ### Reading -/

theorem readSys_spec (env : Env) (f : File) (n : Nat) (hn : 0 < n) :
    ∃ got m, (readSys env f n).2.2 = got ∧ (readSys env f n).1 = { f with pos := f.pos + got.length, calls := m } ∧
      got = (f.content.drop f.pos).take got.length ∧ got.length ≤ n ∧
      ((readSys env f n).2.1 = true → got = [] → f.content.length ≤ f.pos) ∧
      (∀ N, (∀ k, env.rd f.calls = some k → k < N) → got.length ≤ N) := by
  unfold readSys
  cases h : env.rd f.calls with
  | none => exact ⟨[], f.calls + 1, rfl, by simp, by simp, by simp, by simp, by simp⟩
  | some k =>
    refine ⟨_, f.calls + 1, rfl, rfl, ?_, ?_, ?_, ?_⟩
    · rw [List.length_take, List.length_drop, List.take_eq_take_iff, List.length_drop]
      omega
    · rw [List.length_take]; omega
    · intro _ hg
      have := congrArg List.length hg
      rw [List.length_take, List.length_drop, List.length_nil] at this
      omega
    · intro N hN
      have := hN k rfl
      rw [List.length_take]
      omega

theorem slice_append (c : List UInt8) (p a b : Nat) :
    (c.drop p).take a ++ (c.drop (p + a)).take b = (c.drop p).take (a + b) := by
  rw [List.take_add, List.drop_drop]

theorem readLoop_spec (env : Env) (full : Bool) (max : Nat) (f : File) (acc : List UInt8) (hm : acc.length < max) :
    ∃ got m, (readLoop env full max f acc).2.2 = acc ++ got ∧
      (readLoop env full max f acc).1 = { f with pos := f.pos + got.length, calls := m } ∧
      got = (f.content.drop f.pos).take got.length ∧ acc.length + got.length ≤ max ∧
      ((readLoop env full max f acc).2.1 = true → got = [] → f.content.length ≤ f.pos) ∧
      ((readLoop env full max f acc).2.1 = true → full = true →
        acc.length + got.length = max ∨ f.content.length ≤ f.pos + got.length) ∧
      (∀ N, full = false → (∀ k i, env.rd i = some k → k < N) → got.length ≤ N) := by
  generalize hM : max - acc.length = M
  induction M using Nat.strongRecOn generalizing f acc with
  | ind M ih =>
  subst hM
  rw [readLoop.eq_def]
  obtain ⟨got, m, e1, e2, e3, e4, e5, e6⟩ := readSys_spec env f (max - acc.length) (by omega)
  generalize readSys env f (max - acc.length) = r at *
  obtain ⟨f', res, got'⟩ := r
  simp only at e1 e2 e3 e4 e5 e6
  subst e1 e2
  dsimp only
  split
  · next hc =>
    have hlt := hc.2.2.2
    have hdec : max - (acc ++ got').length < max - acc.length := by
      have h1 : 0 < got'.length := List.length_pos_iff.2 hc.2.2.1
      rw [List.length_append] at hlt ⊢
      omega
    obtain ⟨got2, m2, g1, g2, g3, g4, g5, g6, g7⟩ :=
      ih _ hdec { f with pos := f.pos + got'.length, calls := m } (acc ++ got') hlt rfl
    refine ⟨got' ++ got2, m2, ?_, ?_, ?_, ?_, ?_, ?_, ?_⟩
    · rw [g1, List.append_assoc]
    · rw [g2]
      simp only [List.length_append, Nat.add_assoc]
    · rw [List.length_append, ← slice_append]
      rw [← e3]
      congr 1
    · rw [List.length_append] at g4 ⊢; omega
    · intro _ h
      rw [List.append_eq_nil_iff] at h
      exact absurd h.1 hc.2.2.1
    · intro h1 h2
      have := g6 h1 h2
      simp only [List.length_append] at this ⊢
      omega
    · intro N h
      rw [h] at hc
      exact absurd hc.1 (by simp)
  · next hc =>
    refine ⟨got', m, rfl, rfl, e3, by omega, e5, ?_, ?_⟩
    · intro h1 h2
      by_cases hg : got' = []
      · right
        have := e5 h1 hg
        omega
      · left
        apply Classical.byContradiction
        intro hne
        apply hc
        exact ⟨h2, h1, hg, by rw [List.length_append]; omega⟩
    · intro N _ h
      exact e6 N (fun k hk => h k _ hk)

/-- The file a read or seek starts from after the flush. -/
theorem flushed (env : Env) (f : File) (hi : Inv f) (hs : f.writeBuf = [] ∨ (sync env f).2 = true) :
    ∀ f1, f1 = (if f.writeBuf.length > 0 then (sync env f).1 else f) →
      f1.writeBuf = [] ∧ Inv f1 ∧ f1.content = viewBytes f ∧ f1.pos - f1.readBuf.length = viewPos f ∧
        f1.append = f.append ∧ f1.bufSize = f.bufSize ∧ (f.readBuf = [] → f1.readBuf = []) := by
  intro f1 h1
  by_cases hw : f.writeBuf = []
  · rw [if_neg (by simp [hw])] at h1
    subst h1
    exact ⟨hw, hi, by simp [viewBytes, hw, splice_nil], by simp [viewPos, hw], rfl, rfl, fun h => h⟩
  · rw [if_pos (List.length_pos_iff.2 hw)] at h1
    subst h1
    obtain ⟨s1, s2, s3, s4, s5, s6, s7, s8⟩ := sync_spec env f hi
    have hok : (sync env f).2 = true := by
      rcases hs with h | h
      · exact absurd h hw
      · exact h
    have hwb := s6.1 hok
    refine ⟨hwb, s3, ?_, ?_, s4, s5, fun _ => s8 hw⟩
    · rw [← s1]; simp [viewBytes, hwb, splice_nil]
    · rw [← s2]; simp [viewPos, hwb]

theorem read_spec (env : Env) (f : File) (n : Nat) (full : Bool) (hi : Inv f) (hn : 0 < n)
    (hs : f.writeBuf = [] ∨ (sync env f).2 = true) :
    (read env f n full).2.2.length ≤ n ∧
      (read env f n full).2.2 = ((viewBytes f).drop (viewPos f)).take (read env f n full).2.2.length ∧
      viewBytes (read env f n full).1 = viewBytes f ∧
      viewPos (read env f n full).1 = viewPos f + (read env f n full).2.2.length ∧ Inv (read env f n full).1 ∧
      (read env f n full).1.append = f.append ∧ (read env f n full).1.bufSize = f.bufSize ∧
      (read env f n full).1.writeBuf = [] ∧
      ((read env f n full).2.1 = true → (read env f n full).2.2 = [] →
        (viewBytes f).length ≤ viewPos f ∨ f.readBuf ≠ [] ∧ (viewBytes f).length < viewPos f + n) ∧
      ((read env f n full).2.1 = true → full = true → (read env f n full).2.2.length = n ∨
        (viewBytes f).length ≤ viewPos f + (read env f n full).2.2.length ∨
        f.readBuf ≠ [] ∧ (read env f n full).2.2 = [] ∧ (viewBytes f).length < viewPos f + n) ∧
      (full = false → f.readBuf = [] →
        ((∀ k i, env.rd i = some k → k < n) ∨ (viewBytes f).length ≤ n) → (read env f n full).1.readBuf = []) := by
  unfold read
  rw [if_neg (by omega)]
  by_cases hb : f.bufSize > 0
  · rw [if_pos hb]
    dsimp only
    generalize h1 : (if f.writeBuf.length > 0 then (sync env f).1 else f) = f1
    obtain ⟨w1, i1, c1, p1, a1, b1, r1⟩ := flushed env f hi hs f1 h1.symm
    have hback := i1.back
    have hsl := i1.slice
    rw [c1, p1] at hsl
    have hpos : f1.pos = viewPos f + f1.readBuf.length := by omega
    split
    · next hge =>
      dsimp only
      have hl : (List.take n f1.readBuf).length = n := by rw [List.length_take]; omega
      have hv : viewBytes { f1 with readBuf := f1.readBuf.drop n, readOff := f1.readOff - n } = viewBytes f := by
        simp [viewBytes, w1, splice_nil, c1]
      have hne : f.readBuf ≠ [] := by
        intro h
        have := r1 h
        rw [this] at hge
        simp at hge
        omega
      refine ⟨by omega, ?_, hv, ?_, ?_, a1, b1, w1, ?_, ?_, ?_⟩
      · rw [hl, hsl, List.take_take]
        congr 1
        omega
      · simp only [viewPos, w1, if_true, List.length_drop]
        rw [hl]
        have : viewPos f = f1.pos - f1.readBuf.length := p1.symm
        simp only [viewPos] at this
        rw [this]
        omega
      · constructor
        · rw [i1.off]; simp only [List.length_drop]; omega
        · simp only [List.length_drop]; omega
        · simp only [List.length_drop]
          rw [c1, show f1.pos - (f1.readBuf.length - n) = viewPos f + n by omega]
          conv => lhs; rw [hsl]
          rw [List.drop_take, List.drop_drop]
        · right; exact w1
        · intro h; rw [b1] at h; omega
      · intro _ h
        rw [h] at hl
        simp at hl
        omega
      · intro _ _; left; exact hl
      · intro _ h; exact absurd h hne
    · next hge =>
      have hmax : ([] : List UInt8).length < f1.bufSize + n - f1.readBuf.length + env.room f1.calls := by
        simp only [List.length_nil]; omega
      obtain ⟨got, m, e1, e2, e3, e4, e5, e6, e7⟩ :=
        readLoop_spec env full (f1.bufSize + n - f1.readBuf.length + env.room f1.calls) f1 [] hmax
      generalize readLoop env full (f1.bufSize + n - f1.readBuf.length + env.room f1.calls) f1 [] = r at *
      obtain ⟨f2, res, bs⟩ := r
      simp only [List.nil_append, List.length_nil, Nat.zero_add] at e1 e2 e3 e4 e5 e6 e7
      subst e1 e2
      dsimp only
      rw [c1, hpos] at e3
      rw [c1] at e5 e6
      have hrb : f1.readBuf ++ bs = ((viewBytes f).drop (viewPos f)).take (f1.readBuf.length + bs.length) := by
        rw [← slice_append, ← hsl, ← e3]
      have hbl : f.readBuf = [] → f1.readBuf.length = 0 := fun h => by rw [r1 h]; rfl
      split
      · next hg =>
        have hg' : bs ≠ [] := List.length_pos_iff.1 hg
        dsimp only
        have hlen : (List.take (min (f1.readBuf ++ bs).length n) (f1.readBuf ++ bs)).length =
            min (f1.readBuf.length + bs.length) n := by
          rw [List.length_take, List.length_append]; omega
        refine ⟨by omega, ?_, ?_, ?_, ?_, a1, b1, w1, ?_, ?_, ?_⟩
        · rw [hlen]
          conv => lhs; rw [hrb]
          rw [List.take_take, List.length_take, List.length_drop]
          rw [List.take_eq_take_iff, List.length_drop]
          have h1 := congrArg List.length hrb
          rw [List.length_append, List.length_take, List.length_drop] at h1
          omega
        · simp [viewBytes, w1, splice_nil, c1]
        · have e : ∀ g : File, g.writeBuf = [] → viewPos g = g.pos - g.readBuf.length := fun g hg => if_pos hg
          rw [e _ (by exact w1), hlen]
          simp only [List.length_drop, List.length_append]
          omega
        · constructor
          · simp only [i1.off, List.length_drop, List.length_append]
            omega
          · simp only [List.length_drop, List.length_append]
            omega
          · simp only [List.length_drop, List.length_append]
            rw [c1, show f1.pos + bs.length - (f1.readBuf.length + bs.length - min (f1.readBuf.length + bs.length) n) =
              viewPos f + min (f1.readBuf.length + bs.length) n by omega]
            conv => lhs; rw [hrb]
            rw [List.drop_take, List.drop_drop]
          · right; exact w1
          · intro h
            have h' : f1.bufSize = 0 := h
            rw [b1] at h'; omega
        · intro _ h
          rw [h] at hlen
          simp only [List.length_nil] at hlen
          omega
        · intro h1 h2
          rcases e6 h1 h2 with h | h
          · left; rw [hlen]; omega
          · rw [hlen]
            by_cases hn' : n ≤ f1.readBuf.length + bs.length
            · left; omega
            · right; left; omega
        · intro h1 h2 h3
          have h4 := hbl h2
          have h5 : bs.length ≤ n := by
            rcases h3 with h | h
            · exact e7 n h1 h
            · have := congrArg List.length e3
              rw [List.length_take, List.length_drop] at this
              omega
          apply List.drop_eq_nil_of_le
          rw [List.length_append]
          omega
      · next hg =>
        have hg' : bs = [] := by
          cases bs with
          | nil => rfl
          | cons b t => simp at hg
        subst hg'
        simp only [List.length_nil, Nat.add_zero]
        refine ⟨by omega, by simp, ?_, ?_, ?_, a1, b1, w1, ?_, ?_, ?_⟩
        · simp [viewBytes, w1, splice_nil, c1]
        · have e : ∀ g : File, g.writeBuf = [] → viewPos g = g.pos - g.readBuf.length := fun g hg => if_pos hg
          rw [e _ (by exact w1)]
          simp only
          omega
        · exact ⟨i1.off, i1.back, i1.slice, i1.one, i1.unb⟩
        · intro h _
          have := e5 h rfl
          by_cases hf : f.readBuf = []
          · left; have := hbl hf; omega
          · by_cases h0 : f1.readBuf.length = 0
            · left; omega
            · right; exact ⟨hf, by omega⟩
        · intro h _
          have := e5 h rfl
          by_cases hf : f.readBuf = []
          · right; left; have := hbl hf; omega
          · by_cases h0 : f1.readBuf.length = 0
            · right; left; omega
            · right; right; exact ⟨hf, trivial, by omega⟩
        · intro _ h _; exact r1 h
  · rw [if_neg hb]
    have hu := hi.unb (by omega)
    have hvb : viewBytes f = f.content := by simp [viewBytes, hu.2, splice_nil]
    have hvp : viewPos f = f.pos := by simp [viewPos, hu.2, hu.1]
    obtain ⟨got, m, e1, e2, e3, e4, e5, e6, e7⟩ := readLoop_spec env full n f [] (by simpa using hn)
    generalize readLoop env full n f [] = r at *
    obtain ⟨f2, res, bs⟩ := r
    simp only [List.nil_append, List.length_nil, Nat.zero_add] at e1 e2 e3 e4 e5 e6 e7
    subst e1 e2
    dsimp only
    rw [hvb, hvp]
    refine ⟨e4, e3, ?_, ?_, ?_, rfl, rfl, hu.2, ?_, ?_, ?_⟩
    · simp [viewBytes, hu.2, splice_nil]
    · simp [viewPos, hu.2, hu.1]
    · have := hi.off
      rw [hu.1] at this
      refine ⟨?_, ?_, ?_, Or.inl hu.1, fun _ => hu⟩
      · simp [hu.1, this]
      · simp [hu.1]
      · simp [hu.1]
    · intro h1 h2; left; exact e5 h1 h2
    · intro h1 h2
      rcases e6 h1 h2 with h | h
      · left; exact h
      · right; left; exact h
    · intro _ h _; exact h

/-! ### Seeking -/

/-- Where a seek asks to go. -/
def goal (f : File) (off : Int) : From → Int
  | .begin => off
  | .cur => viewPos f + off
  | .end => (viewBytes f).length + off

theorem seek_spec (env : Env) (f : File) (off : Int) (frm : From) (hi : Inv f)
    (hs : f.writeBuf = [] ∨ (sync env f).2 = true) (hz : off ≠ 0 ∨ frm = .cur) :
    viewBytes (seek env f off frm).1 = viewBytes f ∧ Inv (seek env f off frm).1 ∧
      (seek env f off frm).1.append = f.append ∧ (seek env f off frm).1.bufSize = f.bufSize ∧
      ((seek env f off frm).2 = true ↔ 0 ≤ goal f off frm) ∧
      ((seek env f off frm).2 = true → (viewPos (seek env f off frm).1 : Int) = goal f off frm) := by
  unfold seek
  by_cases h0 : off = 0 ∧ frm = .cur
  · rw [if_pos h0]
    refine ⟨rfl, hi, rfl, rfl, ?_, ?_⟩
    · simp [h0.1, h0.2, goal]
    · intro _; simp [h0.1, h0.2, goal]
  · rw [if_neg h0]
    have hoff : off ≠ 0 := by
      rcases hz with h | h
      · exact h
      · exact fun h' => h0 ⟨h', h⟩
    dsimp only
    generalize h1 : (if f.writeBuf.length > 0 then (sync env f).1 else f) = f1
    obtain ⟨w1, i1, c1, p1, a1, b1, r1⟩ := flushed env f hi hs f1 h1.symm
    have hback := i1.back
    have hsl := i1.slice
    have hpos : f1.pos = viewPos f + f1.readBuf.length := by omega
    have e : ∀ g : File, g.writeBuf = [] → viewPos g = g.pos - g.readBuf.length := fun g hg => if_pos hg
    have ev : ∀ g : File, g.writeBuf = [] → viewBytes g = g.content := fun g hg => by simp [viewBytes, hg, splice_nil]
    have hoff1 := i1.off
    split
    · next hc =>
      obtain ⟨hcur, hpos0, hle⟩ := hc
      have hto : (off.toNat : Int) = off := Int.toNat_of_nonneg (by omega)
      refine ⟨?_, ?_, a1, b1, ?_, ?_⟩
      · rw [ev _ (by exact w1)]; exact c1
      · constructor
        · rw [i1.off]; simp only [List.length_drop]; omega
        · simp only [List.length_drop]; omega
        · simp only [List.length_drop]
          rw [c1, show f1.pos - (f1.readBuf.length - off.toNat) = viewPos f + off.toNat by omega]
          conv => lhs; rw [hsl]
          rw [c1, p1, List.drop_take, List.drop_drop]
        · right; exact w1
        · intro h
          have := i1.unb h
          rw [this.1] at hle
          simp at hle
          omega
      · simp [hcur, goal]; omega
      · intro _
        rw [e _ (by exact w1)]
        simp only [List.length_drop, hcur, goal]
        omega
    · next hc =>
      have inv' : ∀ p, Inv { f1 with readBuf := [], readOff := 0, pos := p } := by
        intro p
        constructor <;> simp
        exact fun _ => w1
      unfold seekSys
      have hoffc : frm = .cur → (if f1.readOff ≠ 0 ∧ frm = From.cur then off - f1.readOff else off) =
          off - f1.readBuf.length := by
        intro h
        split
        · omega
        · next hn =>
          have : f1.readOff = 0 := by
            apply Classical.byContradiction
            intro h'
            exact hn ⟨h', h⟩
          omega
      have hoffn : frm ≠ .cur → (if f1.readOff ≠ 0 ∧ frm = From.cur then off - f1.readOff else off) = off := by
        intro h
        rw [if_neg (fun hh => h hh.2)]
      generalize (if f1.readOff ≠ 0 ∧ frm = From.cur then off - f1.readOff else off) = off' at *
      split
      · next hz' =>
        cases frm with
        | begin => exact absurd ((hoffn (by simp)).symm.trans hz') hoff
        | «end» => exact absurd ((hoffn (by simp)).symm.trans hz') hoff
        | cur =>
          have := hoffc rfl
          refine ⟨?_, inv' f1.pos, a1, b1, ?_, ?_⟩
          · rw [ev _ (by exact w1)]; exact c1
          · simp [goal]; omega
          · intro _
            rw [e _ (by exact w1)]
            simp only [goal, List.length_nil]
            omega
      · next hz' =>
        have htgt : target { f1 with readBuf := [], readOff := 0 } off' frm = goal f off frm := by
          cases frm with
          | begin => simp only [goal, target]; exact hoffn (by simp)
          | «end» => simp only [goal, target]; rw [hoffn (by simp), c1]
          | cur => simp only [goal, target]; rw [hoffc rfl]; omega
        split
        · next ht =>
          refine ⟨?_, inv' f1.pos, a1, b1, ?_, by simp⟩
          · rw [ev _ (by exact w1)]; exact c1
          · rw [htgt] at ht
            simp; omega
        · next ht =>
          refine ⟨?_, inv' _, a1, b1, ?_, ?_⟩
          · rw [ev _ (by exact w1)]; exact c1
          · rw [htgt] at ht
            simp; omega
          · intro _
            rw [e _ (by exact w1)]
            simp only [List.length_nil, Nat.sub_zero]
            rw [htgt] at ht ⊢
            omega

end Verif.FsFile
