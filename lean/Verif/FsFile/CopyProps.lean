import Verif.FsFile.CopyLemmas
import Verif.FsFile.Props

/-! C94: copying and moving a file. -/

namespace Verif.FsFile

theorem copyFile_spec (w : World) (fs : Fs) (old new : String) (c : List UInt8) (hc : fs old = some c) (hne : old ≠ new) :
    ∃ fs' res, copyFile w (c.length + 1) fs old new = some (fs', res) ∧ (∀ q, q ≠ new → fs' q = fs q) ∧
      (fs' new = fs new ∧ res = false ∨ ∃ m, fs' new = some (c.take m)) ∧
      (res = true → SmallReads w.es c → w.ed.WritesWork → fs' new = some c) := by
  unfold copyFile
  rw [hc]
  dsimp only
  split
  · exact ⟨fs, false, rfl, fun _ _ => rfl, Or.inl ⟨rfl, rfl⟩, by simp⟩
  · split
    · exact ⟨fs, false, rfl, fun _ _ => rfl, Or.inl ⟨rfl, rfl⟩, by simp⟩
    · have hv : viewBytes (openFile c false 1024) = c := by simp [viewBytes, openFile, splice_nil]
      have hp : viewPos (openFile c false 1024) = 0 := by simp [viewPos, openFile]
      obtain ⟨s', d', res, m, q1, q2, q3, q4⟩ := copyLoop_spec w.es w.ed w.cb (c.length + 1) 0 (openFile c false 1024)
        (openFile [] false 1024) (inv_open _ _ _) rfl (tail_open _) (by simp [openFile])
        (by rw [hp]; simp [viewBytes, openFile, splice_nil]) (by omega) (by rw [hv, hp]; omega)
      rw [hv] at q3 q4
      rw [q1]
      dsimp only
      obtain ⟨⟨j, hj⟩, hall⟩ := tail_close w.ed d' q2
      refine ⟨_, _, rfl, ?_, Or.inr ⟨min j m, ?_⟩, ?_⟩
      · intro q hq
        simp [Fs.set, hq]
      · simp only [Fs.set, if_true]
        rw [hj, q3, List.take_take]
      · intro h1 h2 h3
        simp only [Fs.set, if_true]
        rw [hall h3, q4 h1 h2 rfl]

/-- **C94 (partial).**  `M_fs_copy` of a file to another path, for every content, file system, answer of the operating
system (short reads and writes, failures at any call) and progress callback: it ends; no path but the new one changes;
without `OVERWRITE` an existing new path is refused and left alone; otherwise the new path holds a first part of the old
file's bytes or is as it was or is gone; a failed copy without `OVERWRITE` is removed again if it can be; and a copy that
reports success holds exactly the old bytes, provided no read fetches more than 1024 bytes (the file is no longer than
that, say) and no write fails.  Missing: the last without these provisos, see `copy_short_fails`, `copy_close_fails`. -/
theorem copy_partial (w : World) (fs : Fs) (old new : String) (overwrite : Bool) (c : List UInt8)
    (hc : fs old = some c) (hne : old ≠ new) :
    ∃ fs' res, copy w (c.length + 1) fs old new overwrite = some (fs', res) ∧ (∀ q, q ≠ new → fs' q = fs q) ∧
      (overwrite = false → fs new ≠ none → fs' new = fs new ∧ res = false) ∧
      (fs' new = fs new ∧ res = false ∨ fs' new = none ∧ res = false ∨ ∃ m, fs' new = some (c.take m)) ∧
      (res = false → overwrite = false → w.unlinkNew = true → fs' new = fs new) ∧
      (res = true → SmallReads w.es c → w.ed.WritesWork → fs' new = some c) := by
  obtain ⟨f1, r1, e1, e2, e3, e4⟩ := copyFile_spec w fs old new c hc hne
  unfold copy
  rw [if_neg (by simp [hc])]
  by_cases hov : overwrite = false ∧ (fs new).isSome = true
  · rw [if_pos hov]
    exact ⟨fs, false, rfl, fun _ _ => rfl, fun _ _ => ⟨rfl, rfl⟩, Or.inl ⟨rfl, rfl⟩, fun _ _ _ => rfl, by simp⟩
  · rw [if_neg hov, e1]
    dsimp only
    have hno : overwrite = false → fs new = none := by
      intro h
      cases hn : fs new with
      | none => rfl
      | some x => exact absurd ⟨h, by rw [hn]; rfl⟩ hov
    by_cases hd : r1 = false ∧ overwrite = false
    · rw [if_pos hd]
      have hn := hno hd.2
      have hdel : (∀ q, q ≠ new → (deleteFile w.unlinkNew f1 new).1 q = f1 q) ∧
          ((deleteFile w.unlinkNew f1 new).1 new = none ∨ (deleteFile w.unlinkNew f1 new).1 new = f1 new ∧
            (w.unlinkNew = true → f1 new = none)) := by
        unfold deleteFile
        cases hf : f1 new with
        | none => simp [hf]
        | some x =>
          cases hu : w.unlinkNew with
          | true =>
            refine ⟨fun q hq => ?_, Or.inl ?_⟩
            · simp [Fs.set, hq]
            · simp [Fs.set]
          | false => simp [hf]
      refine ⟨_, false, rfl, fun q hq => (hdel.1 q hq).trans (e2 q hq), fun _ h => absurd hn h, ?_, ?_, by simp⟩
      · rcases hdel.2 with h | ⟨h, _⟩
        · exact Or.inr (Or.inl ⟨h, rfl⟩)
        · rw [h]
          rcases e3 with h' | h'
          · exact Or.inl ⟨h'.1, rfl⟩
          · exact Or.inr (Or.inr h')
      · intro _ _ hu
        rw [hn]
        rcases hdel.2 with h | ⟨h, h'⟩
        · exact h
        · rw [h]; exact h' hu
    · rw [if_neg hd]
      refine ⟨f1, r1, rfl, e2, fun h1 h2 => absurd (hno h1) h2, ?_, fun h1 h2 => absurd ⟨h1, h2⟩ hd, e4⟩
      rcases e3 with h | h
      · exact Or.inl h
      · exact Or.inr (Or.inr h)

/-- A file system with one file `a`, and two devices: `rename` answers `EXDEV`, everything else works. -/
def devWorld : World := ⟨true, true, true, false, true, true, goodEnv, goodEnv, fun _ => true⟩

/-- One file, `a`. -/
def oneFile (c : List UInt8) : Fs := fun p => if p = "a" then some c else none

/-- What a result says about `a` and `b`. -/
def shown (r : Option (Fs × Bool)) : Option (Option (List UInt8) × Option (List UInt8) × Bool) :=
  r.map fun r => (r.1 "a", r.1 "b", r.2)

example : SmallReads goodEnv [1, 2, 3] ∧ goodEnv.WritesWork ∧
    shown (copy devWorld 4 (oneFile [1, 2, 3]) "a" "b" false) = some (some [1, 2, 3], some [1, 2, 3], true) :=
  ⟨Or.inr (by decide), by intro i; simp [goodEnv], by decide +kernel⟩

/-- **C94 (the code disagrees).**  Nothing fails, the copy reports success, and the last byte of a 1025 byte file is
missing. -/
theorem copy_short_fails :
    shown (copy devWorld 1026 (oneFile (List.replicate 1025 7)) "a" "b" false) =
      some (some (List.replicate 1025 7), some (List.replicate 1024 7), true) := by decide +kernel

/-- **C94 (the code disagrees).**  The only write fails (a full disk, say): the copy reports success and is empty. -/
theorem copy_close_fails :
    shown (copy { devWorld with ed := failFirst } 4 (oneFile [1, 2, 3]) "a" "b" false) =
      some (some [1, 2, 3], some [], true) := by decide +kernel

/-- **C94 (the code disagrees).**  Copying a file over itself reports success and empties it. -/
theorem copy_self_fails :
    shown (copy devWorld 4 (oneFile [1, 2, 3]) "a" "a" true) = some (some [], none, true) := by decide +kernel

/-- **C94 (partial).**  `M_fs_move` of a file to another path, in every world: it ends; no other path changes; without
`OVERWRITE` an existing new path is refused and nothing changes; success means the old path is gone.  If no read fetches
more than 1024 bytes and no write fails, then whatever else goes wrong (opens, renames, unlinks, reads, a callback that
stops the copy) the whole content is at the old path or at the new one, and after success it is at the new one.  Missing:
the last without these provisos, see `move_loses_fails`; and that a failed move leaves the old file, see
`move_cancel_fails`. -/
theorem move_partial (w : World) (fs : Fs) (old new : String) (overwrite : Bool) (c : List UInt8)
    (hc : fs old = some c) (hne : old ≠ new) :
    ∃ fs' res, move w (c.length + 1) fs old new overwrite = some (fs', res) ∧
      (∀ q, q ≠ new → q ≠ old → fs' q = fs q) ∧
      (overwrite = false → fs new ≠ none → fs' = fs ∧ res = false) ∧
      (res = true → fs' old = none) ∧
      (fs' old = some c ∨ fs' old = none ∧ ((w.sameDev = false → SmallReads w.es c ∧ w.ed.WritesWork) →
        fs' new = some c)) ∧
      (res = false → w.sameDev = false ∨ w.cb 0 = true → fs' old = some c) := by
  unfold move
  rw [hc]
  dsimp only
  by_cases hov : overwrite = false ∧ (fs new).isSome = true
  · rw [if_pos hov]
    exact ⟨fs, false, rfl, fun _ _ _ => rfl, fun _ _ => ⟨rfl, rfl⟩, by simp, Or.inl hc, fun _ _ => hc⟩
  · rw [if_neg hov]
    have hno : overwrite = false → fs new = none := by
      intro h
      cases hn : fs new with
      | none => rfl
      | some x => exact absurd ⟨h, by rw [hn]; rfl⟩ hov
    by_cases hsd : w.sameDev = true
    · rw [if_pos hsd]
      by_cases hr : w.renameOk = true
      · rw [if_pos hr, if_neg hne]
        refine ⟨_, _, rfl, ?_, fun h1 h2 => absurd (hno h1) h2, ?_, Or.inr ⟨?_, ?_⟩, ?_⟩
        · intro q h1 h2; simp [Fs.set, h1, h2]
        · intro _; simp [Fs.set, hne]
        · simp [Fs.set, hne]
        · intro _; simp [Fs.set]
        · intro h1 h2
          rcases h2 with h | h
          · rw [hsd] at h; cases h
          · rw [h] at h1; cases h1
      · rw [if_neg hr]
        exact ⟨fs, false, rfl, fun _ _ _ => rfl, fun h1 h2 => absurd (hno h1) h2, by simp, Or.inl hc, fun _ _ => hc⟩
    · rw [if_neg hsd]
      have hsd' : w.sameDev = false := by
        cases h : w.sameDev with
        | true => exact absurd h hsd
        | false => rfl
      obtain ⟨f1, r1, e1, e2, e3, e4, e5, e6⟩ := copy_partial w fs old new overwrite c hc hne
      rw [e1]
      have hold : f1 old = some c := (e2 old hne).trans hc
      cases r1 with
      | true =>
        dsimp only
        unfold deleteFile
        rw [hold]
        dsimp only
        by_cases hu : w.unlinkOld = true
        · rw [if_pos hu]
          refine ⟨_, _, rfl, ?_, fun h1 h2 => absurd (hno h1) h2, ?_, Or.inr ⟨?_, ?_⟩, by simp⟩
          · intro q h1 h2
            simp only [Fs.set, if_neg h2]
            exact e2 q h1
          · intro _; simp [Fs.set]
          · simp [Fs.set]
          · intro h
            have := h hsd'
            simp only [Fs.set, if_neg (Ne.symm hne)]
            exact e6 rfl this.1 this.2
        · rw [if_neg hu]
          exact ⟨f1, false, rfl, fun q h1 _ => e2 q h1, fun h1 h2 => absurd (hno h1) h2, by simp, Or.inl hold,
            fun _ _ => hold⟩
      | false =>
        dsimp only
        by_cases ho : overwrite = false
        · rw [if_pos ho]
          have hdel : ∀ q, q ≠ new → (deleteFile w.unlinkNew f1 new).1 q = f1 q := by
            intro q hq
            unfold deleteFile
            cases hf : f1 new with
            | none => rfl
            | some x =>
              cases hu : w.unlinkNew with
              | true => simp [Fs.set, hq]
              | false => rfl
          have hold' := (hdel old hne).trans hold
          exact ⟨_, false, rfl, fun q h1 _ => (hdel q h1).trans (e2 q h1), fun h1 h2 => absurd (hno h1) h2, by simp,
            Or.inl hold', fun _ _ => hold'⟩
        · rw [if_neg ho]
          exact ⟨f1, false, rfl, fun q h1 _ => e2 q h1, fun h1 => absurd h1 ho, by simp, Or.inl hold,
            fun _ _ => hold⟩

example : shown (move devWorld 4 (oneFile [1, 2, 3]) "a" "b" false) = some (none, some [1, 2, 3], true) ∧
    shown (move { devWorld with es := ⟨fun n => if n = 1 then none else some 1, fun _ => none, fun _ => 0⟩ } 4
      (oneFile [1, 2, 3]) "a" "b" false) = some (some [1, 2, 3], none, false) := by
  constructor <;> decide +kernel

/-- **C94 (the code disagrees).**  Moving a 1025 byte file to another device, nothing failing: success is reported, the old
file is deleted, and its last byte is nowhere. -/
theorem move_loses_fails :
    shown (move devWorld 1026 (oneFile (List.replicate 1025 7)) "a" "b" false) =
      some (none, some (List.replicate 1024 7), true) := by decide +kernel

/-- **C94 (the code disagrees).**  Moving to another device that is full: success is reported and everything is lost. -/
theorem move_full_fails :
    shown (move { devWorld with ed := ⟨fun _ => none, fun _ => none, fun _ => 0⟩ } 4 (oneFile [1, 2, 3]) "a" "b" false) =
      some (none, some [], true) := by decide +kernel

/-- **C94 (the code disagrees).**  A progress callback that answers "stop" makes a move on one device report `CANCELED`
after it was done. -/
theorem move_cancel_fails :
    shown (move { devWorld with sameDev := true, cb := fun _ => false } 4 (oneFile [1, 2, 3]) "a" "b" false) =
      some (none, some [1, 2, 3], false) := by decide +kernel

end Verif.FsFile
