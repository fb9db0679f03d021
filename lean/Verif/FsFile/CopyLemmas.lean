import Verif.FsFile.Ops

/-! Helper lemmas about copying: the destination is only ever extended at its end. -/

namespace Verif.FsFile

/-- A file written from the start and never read or seeked. -/
structure Tail (f : File) : Prop where
  inv : Inv f
  app : f.append = false
  rb : f.readBuf = []
  pos : f.pos = f.content.length

theorem Tail.wpos {f : File} (h : Tail f) : wpos f = f.content.length := by
  simp [Verif.FsFile.wpos, h.app, h.pos]

theorem Tail.view {f : File} (h : Tail f) : viewBytes f = f.content ++ f.writeBuf := by
  unfold viewBytes
  rw [h.wpos, splice_end]

theorem Tail.viewPos {f : File} (h : Tail f) : viewPos f = (viewBytes f).length := by
  rw [h.view, List.length_append]
  unfold Verif.FsFile.viewPos
  rw [h.wpos]
  split
  · next hw => rw [h.rb, h.pos, hw]; simp
  · rfl

theorem Tail.viewAt {f : File} (h : Tail f) : viewAt f = (viewBytes f).length := by
  unfold Verif.FsFile.viewAt
  rw [h.app]
  exact h.viewPos

theorem put_tail (f : File) (bs : List UInt8) (k n : Nat) (ha : f.append = false) (hp : f.pos = f.content.length)
    (hk : k ≤ bs.length) : (put f bs k n).pos = (put f bs k n).content.length := by
  have hw : wpos f = f.content.length := by simp [Verif.FsFile.wpos, ha, hp]
  unfold put
  simp only
  rw [hw, splice_end, List.length_append, List.length_take]
  split <;> omega

theorem tail_open (b : Nat) : Tail (openFile [] false b) := ⟨inv_open _ _ _, rfl, rfl, rfl⟩

theorem tail_write (env : Env) (f : File) (bs : List UInt8) (full : Bool) (h : Tail f) (hb : 0 < f.bufSize)
    (hbs : bs ≠ []) : Tail (write env f bs full).1 ∧ viewBytes (write env f bs full).1 = viewBytes f ++ bs ∧
      (write env f bs full).1.bufSize = f.bufSize := by
  obtain ⟨k, hk, e1, e2, e3, e4, e5, e6, e7, e8⟩ := write_spec env f bs full h.inv hbs
  have hk' := e5 hb
  refine ⟨⟨e6, e7.trans h.app, ?_, ?_⟩, ?_, e8⟩
  · unfold write
    rw [if_neg hbs, if_pos hb]
    dsimp only
    split
    · rfl
    · have hne : (enqueue f bs).writeBuf ≠ [] := (enqueue_view f bs h.inv hbs _ rfl).2.2.2.2.2.2
      obtain ⟨k, n, hk, g1, g2, g3, g4, g5⟩ := writeLoop_spec env full (enqueue f bs) (enqueue f bs).writeBuf 0 hne
      simp only [g1]
      rfl
  · have henq : enqueue f bs = { f with readOff := 0, writeBuf := f.writeBuf ++ bs } := by
      have hro := h.inv.off
      rw [h.rb] at hro
      simp only [List.length_nil] at hro
      unfold enqueue seekSys
      rw [if_pos (by omega)]
      have := h.rb
      simp only
      rw [this]
    unfold write
    rw [if_neg hbs, if_pos hb]
    dsimp only
    rw [henq]
    split
    · exact h.pos
    · have hne : f.writeBuf ++ bs ≠ [] := by simp [hbs]
      obtain ⟨k, n, hk, g1, g2, g3, g4, g5⟩ :=
        writeLoop_spec env full { f with readOff := 0, writeBuf := f.writeBuf ++ bs } (f.writeBuf ++ bs) 0 hne
      simp only [g1]
      exact put_tail { f with readOff := 0, writeBuf := f.writeBuf ++ bs } _ k n h.app h.pos hk
  · rw [e2, h.viewAt, splice_end, hk', List.take_length]

/-- What closing leaves on disk is a first part of what was written, all of it if no write fails. -/
theorem tail_close (env : Env) (f : File) (h : Tail f) :
    (∃ m, close env f = (viewBytes f).take m) ∧ ((∀ i, env.wr i ≠ none) → close env f = viewBytes f) := by
  obtain ⟨s1, s2, s3, s4, s5, s6, s7, s8⟩ := sync_spec env f h.inv
  have ht : (sync env f).1.append = false ∧ (sync env f).1.pos = (sync env f).1.content.length := by
    refine ⟨s4.trans h.app, ?_⟩
    unfold sync
    split
    · exact h.pos
    · next hw =>
      have hwr : write env { f with bufSize := 0, writeBuf := [] } f.writeBuf true =
          writeLoop env true { f with bufSize := 0, writeBuf := [] } f.writeBuf 0 := by
        unfold write
        rw [if_neg hw, if_neg (by simp)]
      dsimp only
      rw [hwr]
      obtain ⟨k, n, hk, g1, g2, g3, g4, g5⟩ :=
        writeLoop_spec env true { f with bufSize := 0, writeBuf := [] } f.writeBuf 0 hw
      have hp := put_tail { f with bufSize := 0, writeBuf := [] } f.writeBuf k n h.app h.pos hk
      split
      · simp only [g1]; exact hp
      · simp only [g1]; exact hp
  have hv : viewBytes f = close env f ++ (sync env f).1.writeBuf := by
    rw [← s1]
    unfold viewBytes close
    have : wpos (sync env f).1 = (sync env f).1.content.length := by simp [Verif.FsFile.wpos, ht.1, ht.2]
    rw [this, splice_end]
  constructor
  · refine ⟨(close env f).length, ?_⟩
    rw [hv, List.take_left']
    rfl
  · intro hw
    rw [hv, s6.1 (s7 hw), List.append_nil]

/-- Reads that never fetch more than the copy asks for: each fetches at most 1024 bytes, or the whole file is that
short. -/
def SmallReads (env : Env) (c : List UInt8) : Prop := (∀ k i, env.rd i = some k → k < 1024) ∨ c.length ≤ 1024

theorem copyLoop_spec (es ed : Env) (cb : Nat → Bool) (fuel : Nat) : ∀ (i : Nat) (s d : File), Inv s → s.writeBuf = [] →
    Tail d → 0 < d.bufSize → viewBytes d = (viewBytes s).take (viewPos s) → viewPos s ≤ (viewBytes s).length →
    (viewBytes s).length - viewPos s < fuel →
    ∃ s' d' res m, copyLoop es ed cb fuel i s d = some (s', d', res) ∧ Tail d' ∧ viewBytes d' = (viewBytes s).take m ∧
      (res = true → SmallReads es (viewBytes s) → s.readBuf = [] → viewBytes d' = viewBytes s) := by
  induction fuel with
  | zero => intro i s d _ _ _ _ _ _ h; omega
  | succ fuel ih =>
    intro i s d hs hsw hd hb hv hle hf
    obtain ⟨r1, r2, r3, r4, r5, r6, r7, r8, r9, r10, r11⟩ := read_spec es s 1024 false hs (by omega) (Or.inl hsw)
    unfold copyLoop
    generalize read es s 1024 false = r at *
    obtain ⟨s1, ok, bs⟩ := r
    simp only at r1 r2 r3 r4 r5 r6 r7 r8 r9 r10 r11
    dsimp only
    by_cases hc : ok = true ∧ bs ≠ []
    · rw [if_pos hc]
      obtain ⟨t1, t2, t3⟩ := tail_write ed d bs false hd hb hc.2
      have hlen : viewPos s + bs.length ≤ (viewBytes s).length := by
        have h := congrArg List.length r2
        rw [List.length_take, List.length_drop] at h
        have := List.length_pos_iff.2 hc.2
        omega
      have hv1 : viewBytes (write ed d bs false).1 = (viewBytes s).take (viewPos s + bs.length) := by
        rw [t2, hv, List.take_add, ← r2]
      by_cases hw : (write ed d bs false).2.1 = true ∧ cb i = true
      · rw [if_pos hw]
        have hpos := List.length_pos_iff.2 hc.2
        obtain ⟨s', d', res, m, q1, q2, q3, q4⟩ := ih (i + 1) s1 (write ed d bs false).1 r5 r8 t1 (by omega)
          (by rw [r3, r4]; exact hv1) (by rw [r3, r4]; exact hlen) (by rw [r3, r4]; omega)
        rw [r3] at q3 q4
        exact ⟨s', d', res, m, q1, q2, q3, fun h1 h2 h3 => q4 h1 h2 (r11 trivial h3 h2)⟩
      · rw [if_neg hw]
        exact ⟨s1, _, false, _, rfl, t1, hv1, by simp⟩
    · rw [if_neg hc]
      refine ⟨s1, d, ok, _, rfl, hd, hv, ?_⟩
      intro h1 h2 h3
      have hbs : bs = [] := Classical.byContradiction fun h => hc ⟨h1, h⟩
      rcases r9 h1 hbs with h | h
      · rw [hv, List.take_of_length_le h]
      · exact absurd h3 h.1

end Verif.FsFile
