import Verif.FsFile.Model

/-! Helper lemmas about the buffered file model. -/

namespace Verif.FsFile

theorem splice_get (c : List UInt8) (p : Nat) (bs : List UInt8) (h : bs ≠ []) (i : Nat) :
    (splice c p bs)[i]? = if p ≤ i ∧ i < p + bs.length then bs[i - p]?
      else if i < c.length then c[i]? else if i < p then some 0 else none := by
  have h0 : 0 < bs.length := List.length_pos_iff.2 h
  unfold splice
  have : bs.isEmpty = false := by cases bs <;> simp_all
  simp only [this, Bool.false_eq_true, if_false]
  have key : (c.take p ++ List.replicate (p - c.length) 0).length = p := by simp; omega
  rw [List.append_assoc, List.append_assoc, ← List.append_assoc (c.take p), List.getElem?_append, key]
  by_cases h1 : i < p
  · rw [if_pos h1, if_neg (by omega), List.getElem?_append]
    by_cases h2 : i < c.length
    · rw [if_pos (by simp; omega), if_pos h2, List.getElem?_take]
      simp [h1]
    · rw [if_neg (by simp; omega), if_neg h2, if_pos h1, List.getElem?_replicate]
      rw [if_pos (by simp; omega)]
  · rw [if_neg h1, List.getElem?_append]
    by_cases h2 : i < p + bs.length
    · rw [if_pos (by omega), if_pos ⟨by omega, h2⟩]
    · rw [if_neg (by omega), if_neg (by omega), List.getElem?_drop, if_neg h1]
      rw [show p + bs.length + (i - p - bs.length) = i by omega]
      by_cases h3 : i < c.length
      · rw [if_pos h3]
      · rw [if_neg h3, List.getElem?_eq_none (by omega)]

theorem splice_nil (c : List UInt8) (p : Nat) : splice c p [] = c := rfl

theorem splice_end (c bs : List UInt8) : splice c c.length bs = c ++ bs := by
  unfold splice
  cases bs <;> simp

theorem splice_length (c : List UInt8) (p : Nat) (bs : List UInt8) (h : bs ≠ []) :
    (splice c p bs).length = max c.length (p + bs.length) := by
  have h0 : 0 < bs.length := List.length_pos_iff.2 h
  unfold splice
  have : bs.isEmpty = false := by cases bs <;> simp_all
  simp only [this, Bool.false_eq_true, if_false, List.length_append, List.length_take, List.length_replicate,
    List.length_drop]
  omega

theorem splice_splice (c : List UInt8) (p : Nat) (a b : List UInt8) (ha : a ≠ []) :
    splice (splice c p a) (p + a.length) b = splice c p (a ++ b) := by
  cases hb : b with
  | nil => rw [splice_nil, List.append_nil]
  | cons x t =>
    rw [← hb]
    have hb' : b ≠ [] := by simp [hb]
    have hab : a ++ b ≠ [] := by simp [ha]
    have h0 : 0 < a.length := List.length_pos_iff.2 ha
    have h1 : 0 < b.length := List.length_pos_iff.2 hb'
    apply List.ext_getElem?
    intro i
    rw [splice_get _ _ _ hb', splice_get _ _ _ hab, splice_length _ _ _ ha, splice_get _ _ _ ha, List.length_append,
      List.getElem?_append]
    by_cases c1 : p ≤ i
    · by_cases c2 : i < p + a.length
      · rw [if_neg (by omega), if_pos (by omega), if_pos ⟨c1, c2⟩, if_pos (by omega), if_pos (by omega)]
      · by_cases c3 : i < p + a.length + b.length
        · rw [if_pos (by omega), if_pos (by omega), if_neg (by omega)]
          congr 1
          omega
        · rw [if_neg (by omega), if_neg (by omega : ¬ (p ≤ i ∧ i < p + (a.length + b.length))),
            if_neg (by omega : ¬ (p ≤ i ∧ i < p + a.length))]
          by_cases c4 : i < c.length
          · rw [if_pos (by omega), if_pos c4]
          · rw [if_neg (by omega), if_neg (by omega), if_neg c4, if_neg (by omega)]
    · rw [if_neg (by omega), if_neg (by omega : ¬ (p ≤ i ∧ i < p + (a.length + b.length))),
        if_neg (by omega : ¬ (p ≤ i ∧ i < p + a.length))]
      by_cases c4 : i < c.length
      · rw [if_pos (by omega), if_pos c4]
      · rw [if_pos (by omega), if_neg c4]

/-- The file after `k` bytes of `bs` reached the operating system. -/
def put (f : File) (bs : List UInt8) (k n : Nat) : File :=
  { f with
    content := splice f.content (wpos f) (bs.take k)
    pos := if k = 0 then f.pos else wpos f + k
    calls := n }

theorem put_wpos (f : File) (bs : List UInt8) (k n : Nat) (hk : k ≤ bs.length) : wpos (put f bs k n) = wpos f + k := by
  unfold wpos put
  by_cases ha : f.append = true
  · simp only [ha, if_true, wpos]
    rw [splice_end, List.length_append, List.length_take]
    omega
  · simp only [ha, Bool.false_eq_true, if_false]
    split <;> simp_all [wpos]

theorem put_put (f : File) (bs : List UInt8) (k j n m : Nat) (hk : k ≤ bs.length) (hk0 : 0 < k)
    (hj : j ≤ (bs.drop k).length) : put (put f bs k n) (bs.drop k) j m = put f bs (k + j) m := by
  have hne : bs.take k ≠ [] := by
    intro h
    have := congrArg List.length h
    rw [List.length_take, List.length_nil] at this
    omega
  have e1 := put_wpos f bs k n hk
  unfold put at e1 ⊢
  rw [e1]
  have e2 : splice (splice f.content (wpos f) (List.take k bs)) (wpos f + k) (List.take j (List.drop k bs)) =
      splice f.content (wpos f) (List.take (k + j) bs) := by
    have := splice_splice f.content (wpos f) (bs.take k) ((bs.drop k).take j) hne
    rw [List.length_take, Nat.min_eq_left hk] at this
    rw [this, List.take_add]
  simp only [e2]
  congr 1
  by_cases hj0 : j = 0
  · subst hj0
    simp
  · rw [if_neg hj0, if_neg (by omega)]
    exact Nat.add_assoc _ _ _

theorem put_zero (f : File) (bs : List UInt8) (n : Nat) : put f bs 0 n = { f with calls := n } := by
  unfold put
  simp [splice_nil]

theorem writeSys_spec (env : Env) (f : File) (bs : List UInt8) (hbs : bs ≠ []) :
    ∃ k n, k ≤ bs.length ∧ (writeSys env f bs).1 = put f bs k n ∧ (writeSys env f bs).2.2 = k ∧
      ((writeSys env f bs).2.1 = true ↔ 0 < k) ∧ (env.wr f.calls ≠ none → (writeSys env f bs).2.1 = true) := by
  have h0 : 0 < bs.length := List.length_pos_iff.2 hbs
  unfold writeSys
  cases h : env.wr f.calls with
  | none => exact ⟨0, f.calls + 1, by omega, (put_zero _ _ _).symm, rfl, by simp, by simp⟩
  | some k =>
    refine ⟨min (k + 1) bs.length, f.calls + 1, by omega, ?_, ?_, ?_, by simp⟩
    · simp only [put, List.length_take]
      rw [if_neg (by omega)]
      have : List.take (min (k + 1) bs.length) bs = List.take (k + 1) bs := by
        rw [List.take_eq_take_iff]; omega
      rw [this]
    · simp only [List.length_take]
    · simp; omega

/-- `M_fs_file_write`'s loop: a first part of the bytes reaches the operating system, in order. -/
theorem writeLoop_spec (env : Env) (full : Bool) (f : File) (bs : List UInt8) (off : Nat) (hbs : bs ≠ []) :
    ∃ k n, k ≤ bs.length ∧ (writeLoop env full f bs off).1 = put f bs k n ∧ (writeLoop env full f bs off).2.2 = off + k ∧
      ((writeLoop env full f bs off).2.1 = true → 0 < k ∧ (full = true → k = bs.length)) ∧
      ((∀ i, env.wr i ≠ none) → (writeLoop env full f bs off).2.1 = true) ∧
      (full = true → k = bs.length → (writeLoop env full f bs off).2.1 = true) := by
  have h0 : 0 < bs.length := List.length_pos_iff.2 hbs
  rw [writeLoop.eq_def]
  rw [dif_neg hbs]
  obtain ⟨k, n, hk, e1, e2, e3, e4⟩ := writeSys_spec env f bs hbs
  split
  next f' res wrote heq =>
  simp only [heq] at e1 e2 e3 e4
  subst e1 e2
  split
  · next hc =>
    obtain ⟨hfull, hres, hdrop⟩ := hc
    have hk0 : 0 < wrote := e3.1 hres
    obtain ⟨j, m, hj, g1, g2, g3, g4, g5⟩ := writeLoop_spec env full (put f bs wrote n) (bs.drop wrote) (off + wrote) hdrop
    rw [List.length_drop] at hj g3 g5
    refine ⟨wrote + j, m, by omega, ?_, by omega, ?_, g4, ?_⟩
    · rw [g1, put_put _ _ _ _ _ _ hk hk0 (by rw [List.length_drop]; omega)]
    · intro h
      have := g3 h
      exact ⟨by omega, fun h' => by have := this.2 h'; omega⟩
    · intro h1 h2
      exact g5 h1 (by omega)
  · next hc =>
    refine ⟨wrote, n, hk, rfl, rfl, ?_, fun h => e4 (h _), ?_⟩
    · intro h
      refine ⟨e3.1 h, fun hf => ?_⟩
      apply Classical.byContradiction
      intro hne
      apply hc
      refine ⟨hf, h, ?_⟩
      intro hd
      have := congrArg List.length hd
      rw [List.length_drop, List.length_nil] at this
      omega
    · intro _ h2
      exact e3.2 (by omega)
termination_by bs.length
decreasing_by
  rw [List.length_drop]
  omega

/-- What holds of an open file between calls. -/
structure Inv (f : File) : Prop where
  off : f.readOff = f.readBuf.length
  back : f.readBuf.length ≤ f.pos
  slice : f.readBuf = (f.content.drop (f.pos - f.readBuf.length)).take f.readBuf.length
  one : f.readBuf = [] ∨ f.writeBuf = []
  unb : f.bufSize = 0 → f.readBuf = [] ∧ f.writeBuf = []

theorem inv_open (c : List UInt8) (a : Bool) (b : Nat) : Inv (openFile c a b) := by
  constructor <;> simp [openFile]

/-- The bytes of the file once everything buffered is written. -/
def viewBytes (f : File) : List UInt8 := splice f.content (wpos f) f.writeBuf

/-- The position in the file as the user sees it. -/
def viewPos (f : File) : Nat := if f.writeBuf = [] then f.pos - f.readBuf.length else wpos f + f.writeBuf.length

/-- A flush leaves the file as the user sees it, whether it succeeds or not. -/
theorem sync_spec (env : Env) (f : File) (hi : Inv f) :
    viewBytes (sync env f).1 = viewBytes f ∧ viewPos (sync env f).1 = viewPos f ∧ Inv (sync env f).1 ∧
      (sync env f).1.append = f.append ∧ (sync env f).1.bufSize = f.bufSize ∧
      ((sync env f).2 = true ↔ (sync env f).1.writeBuf = []) ∧ ((∀ i, env.wr i ≠ none) → (sync env f).2 = true) ∧
      (f.writeBuf ≠ [] → (sync env f).1.readBuf = []) := by
  unfold sync
  by_cases hw : f.writeBuf = []
  · rw [if_pos hw]
    exact ⟨rfl, rfl, hi, rfl, rfl, by simp [hw], by simp, fun h => absurd hw h⟩
  · rw [if_neg hw]
    have hrb : f.readBuf = [] := by
      rcases hi.one with h | h
      · exact h
      · exact absurd h hw
    have hlen : 0 < f.writeBuf.length := List.length_pos_iff.2 hw
    dsimp only
    have hwr : write env { f with bufSize := 0, writeBuf := [] } f.writeBuf true =
        writeLoop env true { f with bufSize := 0, writeBuf := [] } f.writeBuf 0 := by
      unfold write
      rw [if_neg hw, if_neg (by simp)]
    rw [hwr]
    obtain ⟨k, n, hk, e1, e2, e3, e4, e5⟩ := writeLoop_spec env true { f with bufSize := 0, writeBuf := [] } f.writeBuf 0 hw
    generalize writeLoop env true { f with bufSize := 0, writeBuf := [] } f.writeBuf 0 = r at *
    obtain ⟨f', res, wrote⟩ := r
    simp only at e1 e2 e3 e4 e5
    rw [Nat.zero_add] at e2
    subst e1 e2
    dsimp only
    have hwp : wpos { put { f with bufSize := 0, writeBuf := [] } f.writeBuf wrote n with
        bufSize := f.bufSize, writeBuf := f.writeBuf.drop wrote } = wpos f + wrote := by
      have := put_wpos { f with bufSize := 0, writeBuf := [] } f.writeBuf wrote n hk
      simpa [wpos, put] using this
    have hinv : ∀ wb, wb.length = 0 ∨ f.bufSize ≠ 0 →
        Inv { put { f with bufSize := 0, writeBuf := [] } f.writeBuf wrote n with bufSize := f.bufSize, writeBuf := wb } := by
      intro wb hwb
      constructor
      · have := hi.off; simpa [put] using this
      · simp [put, hrb]
      · simp [put, hrb]
      · left; simp [put, hrb]
      · intro h
        exact absurd (hi.unb h).2 hw
    have hb0 : f.bufSize ≠ 0 := fun h => hw (hi.unb h).2
    split
    · next hc =>
      have hkl : wrote < f.writeBuf.length := by
        apply Classical.byContradiction
        intro hge
        have hke : wrote = f.writeBuf.length := by omega
        rcases hc with h | h
        · rw [e5 trivial hke] at h; simp at h
        · exact h hke.symm
      have hdne : f.writeBuf.drop wrote ≠ [] := by
        intro h
        have := congrArg List.length h
        rw [List.length_drop, List.length_nil] at this
        omega
      refine ⟨?_, ?_, hinv _ (Or.inr hb0), rfl, rfl, ?_, ?_, ?_⟩
      · unfold viewBytes
        rw [hwp]
        simp only [put]
        by_cases hk0 : wrote = 0
        · subst hk0
          simp [splice_nil, wpos]
        · have hne : f.writeBuf.take wrote ≠ [] := by
            intro h
            have := congrArg List.length h
            rw [List.length_take, List.length_nil] at this
            omega
          have := splice_splice f.content (wpos f) (f.writeBuf.take wrote) (f.writeBuf.drop wrote) hne
          rw [List.length_take, Nat.min_eq_left hk, List.take_append_drop] at this
          simpa [wpos] using this
      · have e : ∀ g : File, g.writeBuf ≠ [] → viewPos g = wpos g + g.writeBuf.length := fun g hg => if_neg hg
        rw [e _ hdne, e _ hw, hwp]
        simp only [List.length_drop]
        omega
      · simp; omega
      · intro h
        have := (e3 (e4 h)).2 trivial
        omega
      · intro _; simp [put, hrb]
    · next hc =>
      have hres : res = true := by
        cases res with
        | true => rfl
        | false => exact absurd (Or.inl rfl) hc
      have hke := (e3 hres).2 trivial
      refine ⟨?_, ?_, hinv [] (Or.inl rfl), rfl, rfl, by simp, by simp, ?_⟩
      · unfold viewBytes
        simp only [splice_nil, put, hke, List.take_length, wpos]
      · unfold viewPos
        rw [if_neg hw]
        simp only [if_true, put, hrb]
        rw [if_neg (by omega), hke]
        simp [wpos]
      · intro _; simp [put, hrb]

end Verif.FsFile
