import Verif.FsFile.Ops
import Verif.FsFile.Spec

/-! C93: a file opened with a buffer behaves like one without. -/

namespace Verif.FsFile

/-- An operating system whose writes never fail (they may still be short). -/
def Env.WritesWork (env : Env) : Prop := ∀ i, env.wr i ≠ none

/-- The user's view of an open file. -/
def viewOf (f : File) : Plain := ⟨viewBytes f, viewPos f⟩

theorem splice_written (c : List UInt8) (p : Nat) (bs : List UInt8) (h : bs ≠ []) : Written c p bs (splice c p bs) :=
  fun i => splice_get c p bs h i

theorem slice_bytes (c bs : List UInt8) (p : Nat) (h : bs = (c.drop p).take bs.length) (i : Nat) (hi : i < bs.length) :
    c[p + i]? = bs[i]? := by
  rw [h, List.getElem?_take, if_pos hi, List.getElem?_drop]

theorem step_write (env : Env) (f : File) (bs : List UInt8) (full : Bool) (hi : Inv f) :
    PStep f.append (viewOf f) (.write bs full) (step env f (.write bs full)).2 (viewOf (step env f (.write bs full)).1) ∧
      Inv (step env f (.write bs full)).1 ∧ (step env f (.write bs full)).1.append = f.append := by
  unfold step
  dsimp only
  by_cases hbs : bs = []
  · subst hbs
    have : write env f [] full = (f, false, 0) := by unfold write; rw [if_pos rfl]
    rw [this]
    exact ⟨.writeNothing, hi, rfl⟩
  · obtain ⟨k, hk, e1, e2, e3, e4, e5, e6, e7, e8⟩ := write_spec env f bs full hi hbs
    refine ⟨?_, e6, e7⟩
    rw [e1]
    refine .write hbs hk e4 ?_ ?_
    · intro h0
      subst h0
      unfold viewOf
      rw [e2, e3, if_pos rfl, List.take_zero, splice_nil]
    · intro h0
      unfold viewOf
      dsimp only
      rw [e2, e3, if_neg (show ¬ k = 0 by omega)]
      have : viewAt f = if f.append = true then (viewBytes f).length else viewPos f := rfl
      rw [← this]
      exact ⟨splice_written _ _ _ (take_ne_nil _ _ h0 hk), rfl⟩

theorem step_sync (env : Env) (f : File) (hi : Inv f) :
    PStep f.append (viewOf f) .sync (step env f .sync).2 (viewOf (step env f .sync).1) ∧
      Inv (step env f .sync).1 ∧ (step env f .sync).1.append = f.append := by
  obtain ⟨s1, s2, s3, s4, s5, s6, s7, s8⟩ := sync_spec env f hi
  refine ⟨?_, s3, s4⟩
  have : viewOf (step env f .sync).1 = viewOf f := by
    unfold viewOf step
    dsimp only
    rw [s1, s2]
  rw [this]
  exact .sync

theorem step_read (env : Env) (f : File) (n : Nat) (full : Bool) (hi : Inv f)
    (hs : f.writeBuf = [] ∨ (sync env f).2 = true) :
    PStep f.append (viewOf f) (.read n full) (step env f (.read n full)).2 (viewOf (step env f (.read n full)).1) ∧
      Inv (step env f (.read n full)).1 ∧ (step env f (.read n full)).1.append = f.append := by
  unfold step
  dsimp only
  by_cases hn : n = 0
  · subst hn
    have : read env f 0 full = (f, false, []) := by unfold read; rw [if_pos rfl]
    rw [this]
    exact ⟨.readNothing, hi, rfl⟩
  · obtain ⟨r1, r2, r3, r4, r5, r6, r7, r8, r9, r10, r11⟩ := read_spec env f n full hi (by omega) hs
    refine ⟨?_, r5, r6⟩
    have : viewOf (read env f n full).1 =
        { viewOf f with pos := (viewOf f).pos + (read env f n full).2.2.length } := by
      unfold viewOf
      dsimp only
      rw [r3, r4]
    rw [this]
    refine .read (by omega) r1 (slice_bytes _ _ _ r2) ?_
    intro hok hor
    rcases hor with h | h
    · right
      have := r9 hok h
      show (viewBytes f).length < viewPos f + n
      omega
    · rcases r10 hok h with h | h | h
      · left; exact h
      · by_cases he : (read env f n full).2.2.length = n
        · left; exact he
        · right
          show (viewBytes f).length < viewPos f + n
          omega
      · right; exact h.2.2

theorem step_seek (env : Env) (f : File) (off : Int) (frm : From) (hi : Inv f)
    (hs : f.writeBuf = [] ∨ (sync env f).2 = true) (hz : off ≠ 0 ∨ frm = .cur)
    (hok : (step env f (.seek off frm)).2 ≠ .seek false) :
    PStep f.append (viewOf f) (.seek off frm) (step env f (.seek off frm)).2 (viewOf (step env f (.seek off frm)).1) ∧
      Inv (step env f (.seek off frm)).1 ∧ (step env f (.seek off frm)).1.append = f.append := by
  obtain ⟨s1, s2, s3, s4, s5, s6⟩ := seek_spec env f off frm hi hs hz
  refine ⟨?_, s2, s3⟩
  unfold step at hok ⊢
  dsimp only at hok ⊢
  have hok' : (seek env f off frm).2 = true := by
    cases h : (seek env f off frm).2 with
    | true => rfl
    | false => rw [h] at hok; exact absurd rfl hok
  rw [hok']
  have : viewOf (seek env f off frm).1 = { viewOf f with pos := viewPos (seek env f off frm).1 } := by
    unfold viewOf
    rw [s1]
  rw [this]
  refine .seek ?_
  rw [s6 hok']
  cases frm <;> rfl

/-- Calls for which `M_fs_file_seek` does what it says: not a seek to offset 0 from the start or the end. -/
def Op.Plainly : Op → Prop
  | .seek off frm => off ≠ 0 ∨ frm = .cur
  | _ => True

theorem run_view (env : Env) (hw : env.WritesWork) (ops : List Op) : ∀ (f : File), Inv f →
    (∀ op ∈ ops, op.Plainly) → Out.seek false ∉ (run env f ops).2 →
    PRun f.append (viewOf f) ops (run env f ops).2 (viewOf (run env f ops).1) ∧ Inv (run env f ops).1 := by
  induction ops with
  | nil => intro f hi _ _; exact ⟨.nil, hi⟩
  | cons op ops ih =>
    intro f hi hp ho
    have hs : f.writeBuf = [] ∨ (sync env f).2 = true := Or.inr ((sync_spec env f hi).2.2.2.2.2.2.1 hw)
    have hrun : run env f (op :: ops) =
        ((run env (step env f op).1 ops).1, (step env f op).2 :: (run env (step env f op).1 ops).2) := rfl
    rw [hrun] at ho ⊢
    have ho1 : (step env f op).2 ≠ .seek false := fun h => ho (by rw [h]; exact List.mem_cons_self ..)
    have ho2 : Out.seek false ∉ (run env (step env f op).1 ops).2 := fun h => ho (List.mem_cons_of_mem _ h)
    have hst : PStep f.append (viewOf f) op (step env f op).2 (viewOf (step env f op).1) ∧
        Inv (step env f op).1 ∧ (step env f op).1.append = f.append := by
      cases op with
      | read n full => exact step_read env f n full hi hs
      | write bs full => exact step_write env f bs full hi
      | seek off frm => exact step_seek env f off frm hi hs (hp _ (List.mem_cons_self ..)) ho1
      | sync => exact step_sync env f hi
    have := ih (step env f op).1 hst.2.1 (fun o h => hp o (List.mem_cons_of_mem _ h)) ho2
    rw [hst.2.2] at this
    exact ⟨.cons hst.1 this.1, this.2⟩

theorem close_view (env : Env) (f : File) (hi : Inv f) (h : (sync env f).2 = true) : close env f = viewBytes f := by
  obtain ⟨s1, s2, s3, s4, s5, s6, s7, s8⟩ := sync_spec env f hi
  rw [← s1]
  unfold close viewBytes
  rw [s6.1 h, splice_nil]

theorem viewOf_open (c : List UInt8) (a : Bool) (b : Nat) : viewOf (openFile c a b) = ⟨c, 0⟩ := by
  simp [viewOf, viewBytes, viewPos, openFile, splice_nil]

/-- **C93 (partial).**  For every file, buffer size (0: none), history of reads, writes, seeks and flushes, and every way
the operating system cuts reads and writes short or fails reads: what the calls report is what a plain file without a
buffer reports, and after closing the disk holds that plain file's bytes.  Missing from the full statement: histories in
which a write fails (`flush_before_seek_fails`, `close_fails`), seeks to offset 0 from the start or end
(`seek_zero_fails`), seeks that fail (`seek_error_fails`); and a read may report the end of the file too early
(`read_end_fails`). -/
theorem history_partial (env : Env) (hw : env.WritesWork) (c : List UInt8) (append : Bool) (bufSize : Nat)
    (ops : List Op) (hp : ∀ op ∈ ops, op.Plainly)
    (ho : Out.seek false ∉ (run env (openFile c append bufSize) ops).2) :
    ∃ p, PRun append ⟨c, 0⟩ ops (run env (openFile c append bufSize) ops).2 p ∧
      close env (run env (openFile c append bufSize) ops).1 = p.bytes := by
  obtain ⟨h1, h2⟩ := run_view env hw ops (openFile c append bufSize) (inv_open c append bufSize) hp ho
  rw [viewOf_open] at h1
  exact ⟨_, h1, close_view env _ h2 ((sync_spec env _ h2).2.2.2.2.2.2.1 hw)⟩

/-- An operating system that never fails or cuts short. -/
def goodEnv : Env := ⟨fun _ => some 100000, fun _ => some 100000, fun _ => 0⟩

/-- Read two bytes of five ahead, write over the third, go back, read. -/
example : (run goodEnv (openFile [1, 2, 3, 4, 5] false 4)
    [.read 2 false, .write [9] false, .seek (-2) .cur, .read 3 false]).2 =
    [.read true [1, 2], .write true 1, .seek true, .read true [2, 9, 4]] := by
  simp [run, step, read, write, seek, sync, readLoop, writeLoop, readSys, writeSys, seekSys, target, enqueue, openFile,
    goodEnv, splice, wpos]

/-- **C93.**  Writing and flushing only, for every history and every operating system, failures included: the calls report
what a plain file reports, and if a flush at the end succeeds, closing leaves exactly the plain file's bytes on disk. -/
theorem writes_history (env : Env) (c : List UInt8) (append : Bool) (bufSize : Nat) (ops : List Op)
    (hops : ∀ op ∈ ops, op = .sync ∨ ∃ bs full, op = .write bs full) :
    ∃ p, PRun append ⟨c, 0⟩ ops (run env (openFile c append bufSize) ops).2 p ∧
      ((sync env (run env (openFile c append bufSize) ops).1).2 = true →
        (sync env (run env (openFile c append bufSize) ops).1).1.content = p.bytes ∧
        close env (run env (openFile c append bufSize) ops).1 = p.bytes) := by
  have gen : ∀ (ops : List Op) (f : File), Inv f → (∀ op ∈ ops, op = .sync ∨ ∃ bs full, op = .write bs full) →
      PRun f.append (viewOf f) ops (run env f ops).2 (viewOf (run env f ops).1) ∧ Inv (run env f ops).1 := by
    intro ops
    induction ops with
    | nil => intro f hi _; exact ⟨.nil, hi⟩
    | cons op ops ih =>
      intro f hi hp
      have hrun : run env f (op :: ops) =
          ((run env (step env f op).1 ops).1, (step env f op).2 :: (run env (step env f op).1 ops).2) := rfl
      rw [hrun]
      have hst : PStep f.append (viewOf f) op (step env f op).2 (viewOf (step env f op).1) ∧
          Inv (step env f op).1 ∧ (step env f op).1.append = f.append := by
        rcases hp op (List.mem_cons_self ..) with h | ⟨bs, full, h⟩
        · subst h; exact step_sync env f hi
        · subst h; exact step_write env f bs full hi
      have := ih (step env f op).1 hst.2.1 (fun o h => hp o (List.mem_cons_of_mem _ h))
      rw [hst.2.2] at this
      exact ⟨.cons hst.1 this.1, this.2⟩
  obtain ⟨h1, h2⟩ := gen ops (openFile c append bufSize) (inv_open c append bufSize) hops
  rw [viewOf_open] at h1
  exact ⟨_, h1, fun h => ⟨close_view env _ h2 h, close_view env _ h2 h⟩⟩

/-- An operating system whose second write fails. -/
def flakyEnv : Env := ⟨fun _ => some 100000, fun n => if n = 1 then none else some 0, fun _ => 0⟩

example : (run flakyEnv (openFile [7] true 2) [.write [1, 2, 3] false, .sync, .sync]).2 =
    [.write true 3, .sync false, .sync true] ∧
    (run flakyEnv (openFile [7] true 2) [.write [1, 2, 3] false, .sync, .sync]).1.content = [7, 1, 2, 3] := by
  simp [run, step, write, sync, writeLoop, writeSys, seekSys, enqueue, openFile, flakyEnv, splice, wpos]

/-- **C93.**  Without a buffer a successful read gives nothing only at the end of the file, and with `FULLBUF` gives all
that was asked for unless the file ends first; this holds after every history. -/
theorem unbuffered_read (env : Env) (f : File) (n : Nat) (full : Bool) (hi : Inv f) (hb : f.bufSize = 0) (hn : 0 < n)
    (hok : (read env f n full).2.1 = true) :
    ((read env f n full).2.2 = [] → f.content.length ≤ f.pos) ∧
      (full = true → (read env f n full).2.2.length = n ∨ f.content.length ≤ (read env f n full).1.pos) := by
  have hu := hi.unb hb
  obtain ⟨r1, r2, r3, r4, r5, r6, r7, r8, r9, r10, r11⟩ := read_spec env f n full hi hn (Or.inl hu.2)
  have hvb : viewBytes f = f.content := by simp [viewBytes, hu.2, splice_nil]
  have hvp : viewPos f = f.pos := by simp [viewPos, hu.2, hu.1]
  have hu' := r5.unb (r7.trans hb)
  have hvp' : viewPos (read env f n full).1 = (read env f n full).1.pos := by simp [viewPos, hu'.2, hu'.1]
  constructor
  · intro h
    rcases r9 hok h with h' | h'
    · rw [hvb, hvp] at h'; exact h'
    · exact absurd hu.1 h'.1
  · intro h
    rcases r10 hok h with h' | h' | h'
    · left; exact h'
    · right
      rw [← hvp', r4, ← hvb]
      exact h'
    · exact absurd hu.1 h'.1

example : Inv (openFile [1, 2, 3] false 0) ∧ (read goodEnv (openFile [1, 2, 3] false 0) 2 true).2.1 = true :=
  ⟨inv_open _ _ _, by simp [read, readLoop, readSys, openFile, goodEnv]⟩

/-- **C93 (the code disagrees).**  With a buffer a successful read can report the end of the file while bytes are left:
of five bytes, the first read of two fetches all five; asked for four more, the file gives nothing and the last three
bytes are never handed out. -/
theorem read_end_fails : ∃ (env : Env) (c : List UInt8) (bufSize : Nat), env.WritesWork ∧ 2 < c.length ∧
    (run env (openFile c false bufSize) [.read 2 false, .read 4 false, .read 4 true]).2 =
      [.read true (c.take 2), .read true [], .read true []] :=
  ⟨goodEnv, [1, 2, 3, 4, 5], 3, by intro i; simp [goodEnv], by decide,
    by simp [run, step, read, readLoop, readSys, openFile, goodEnv]⟩

/-- **C93 (the code disagrees).**  Seeking to the start of the file does nothing: after reading two bytes and going back to
the start, the next read goes on with the third. -/
theorem seek_zero_fails : (run goodEnv (openFile [1, 2, 3, 4] false 0) [.read 2 false, .seek 0 .begin, .read 2 false]).2 =
    [.read true [1, 2], .seek true, .read true [3, 4]] ∧
    ¬ ∃ p q r, PStep false ⟨[1, 2, 3, 4], 2⟩ (.seek 0 .begin) (.seek true) p ∧
      PStep false p (.read 2 false) (.read true [3, 4]) q ∧ PRun false q [] [] r := by
  refine ⟨by simp [run, step, read, seek, seekSys, readLoop, readSys, openFile, goodEnv], ?_⟩
  rintro ⟨p, q, r, h1, h2, -⟩
  cases h1 with
  | seek h =>
    cases h2 with
    | read _ _ h3 _ =>
      have := h3 0 (by decide)
      simp [SeekTo] at h
      subst h
      simp at this

/-- **C93 (the code disagrees).**  A seek that fails still moves: going back three from position two fails, and the next
read skips the bytes that had been read ahead. -/
theorem seek_error_fails : (run goodEnv (openFile [1, 2, 3, 4, 5, 6] false 2)
      [.read 2 false, .seek (-3) .cur, .read 2 false]).2 = [.read true [1, 2], .seek false, .read true [5, 6]] ∧
    ¬ ∃ p q, PStep false ⟨[1, 2, 3, 4, 5, 6], 2⟩ (.seek (-3) .cur) (.seek false) p ∧
      PStep false p (.read 2 false) (.read true [5, 6]) q := by
  refine ⟨by simp [run, step, read, seek, seekSys, target, readLoop, readSys, openFile, goodEnv], ?_⟩
  rintro ⟨p, q, h1, h2⟩
  cases h1 with
  | seekFail h =>
    cases h2 with
    | read _ _ h3 _ =>
      have := h3 0 (by decide)
      simp at this

/-- An operating system whose first write fails. -/
def failFirst : Env := ⟨fun _ => some 100000, fun n => if n = 0 then none else some 100000, fun _ => 0⟩

/-- **C93 (the code disagrees).**  If the flush made by a seek fails nobody is told, and the pending bytes end up at the new
position: a byte written at offset 0, a seek to 2 and a flush, all reporting success, leave the byte at offset 2. -/
theorem flush_before_seek_fails :
    (run failFirst (openFile [1, 2, 3] false 8) [.write [9] false, .seek 2 .begin, .sync]).2 =
      [.write true 1, .seek true, .sync true] ∧
    (run failFirst (openFile [1, 2, 3] false 8) [.write [9] false, .seek 2 .begin, .sync]).1.content = [1, 2, 9] := by
  constructor <;>
  simp [run, step, write, sync, seek, writeLoop, writeSys, seekSys, target, enqueue, openFile, failFirst, splice, wpos]

/-- **C93 (the code disagrees).**  `M_fs_file_close` has no result: a write that reported success is lost when the flush at
closing fails. -/
theorem close_fails :
    (run failFirst (openFile [] false 8) [.write [1, 2] true]).2 = [.write true 2] ∧
    close failFirst (run failFirst (openFile [] false 8) [.write [1, 2] true]).1 = [] := by
  constructor <;>
  simp [run, step, write, sync, close, writeLoop, writeSys, seekSys, enqueue, openFile, failFirst]

/-! ### Whole files -/

theorem read_unbuffered (env : Env) (f : File) (n : Nat) (hb : f.bufSize = 0) (hn : 0 < n) :
    read env f n false = readSys env f n := by
  unfold read
  rw [if_neg (by omega), if_neg (by omega), readLoop.eq_def]
  simp

theorem readBytesLoop_spec (env : Env) (maxRead : Nat) (fuel : Nat) : ∀ (f : File) (acc : List UInt8),
    f.bufSize = 0 → acc = f.content.take f.pos → f.content.length - f.pos < fuel →
    ∃ r, readBytesLoop env maxRead fuel f acc = some r ∧ (∀ bs, r = .ok bs → bs = f.content ∧
        (maxRead ≠ 0 → f.content.length ≤ maxRead)) ∧ (r = .tooBig → maxRead ≠ 0 ∧ maxRead < f.content.length) ∧
      (r = .error → ∃ i, env.rd i = none) := by
  induction fuel with
  | zero => intro f acc _ _ h; omega
  | succ fuel ih =>
    intro f acc hb hacc hf
    unfold readBytesLoop
    rw [read_unbuffered env f _ hb (by omega)]
    obtain ⟨got, m, e1, e2, e3, e4, e5, e6⟩ := readSys_spec env f (1024 + env.room f.calls) (by omega)
    have e7 : (readSys env f (1024 + env.room f.calls)).2.1 = false → env.rd f.calls = none := by
      unfold readSys
      cases env.rd f.calls <;> simp
    generalize readSys env f (1024 + env.room f.calls) = r at *
    obtain ⟨f', res, got'⟩ := r
    simp only at e1 e2 e3 e4 e5 e6 e7
    subst e1 e2
    dsimp only
    have hacc' : acc ++ got' = f.content.take (f.pos + got'.length) := by
      rw [hacc, List.take_add, ← e3]
    have hlen : (acc ++ got').length ≤ f.content.length := by
      rw [hacc', List.length_take]; omega
    split
    · next h => exact ⟨_, rfl, by simp, fun _ => ⟨h.1, by omega⟩, by simp⟩
    · next hbig =>
      split
      · next h => exact ⟨_, rfl, by simp, by simp, fun _ => ⟨_, e7 h⟩⟩
      · next hres =>
        have hres' : res = true := by
          cases res with
          | true => rfl
          | false => exact absurd rfl hres
        split
        · next hg =>
          have hpos : 0 < got'.length := List.length_pos_iff.2 hg
          have hle : f.pos + got'.length ≤ f.content.length := by
            have := congrArg List.length e3
            rw [List.length_take, List.length_drop] at this
            omega
          exact ih { f with pos := f.pos + got'.length, calls := m } (acc ++ got') hb hacc'
            (by show f.content.length - (f.pos + got'.length) < fuel; omega)
        · next hg =>
          have hg' : got' = [] := Classical.byContradiction hg
          have hend := e5 hres' hg'
          refine ⟨_, rfl, ?_, by simp, by simp⟩
          intro bs hbs
          have h1 : acc ++ got' = f.content := by
            rw [hacc', List.take_of_length_le (by omega)]
          simp only [WRes.ok.injEq] at hbs
          refine ⟨by rw [← hbs]; exact h1, fun h0 => ?_⟩
          rw [h1] at hbig
          omega

/-- **C93.**  `M_fs_file_read_bytes` ends for every file and operating system, however reads are cut short; success gives
exactly the bytes of the file, never more than the limit; it says "too big" only if the file is longer than the limit, and
any other error only if a read failed. -/
theorem read_bytes_exact (env : Env) (maxRead : Nat) (content : List UInt8) :
    ∃ r, readBytes env maxRead (content.length + 1) (some content) = some r ∧
      (∀ bs, r = .ok bs → bs = content ∧ (maxRead ≠ 0 → content.length ≤ maxRead)) ∧
      (r = .tooBig → maxRead ≠ 0 ∧ maxRead < content.length) ∧ (r = .error → ∃ i, env.rd i = none) := by
  have := readBytesLoop_spec env maxRead (content.length + 1) (openFile content false 0) [] rfl (by simp [openFile])
    (by simp [openFile])
  simpa [readBytes, openFile] using this

example : readBytes ⟨fun _ => some 1, fun _ => none, fun _ => 0⟩ 3 4 (some [1, 2, 3]) = some (.ok [1, 2, 3]) ∧
    readBytes ⟨fun _ => some 1, fun _ => none, fun _ => 0⟩ 2 4 (some [1, 2, 3]) = some .tooBig := by
  constructor <;>
  simp [readBytes, readBytesLoop, read_unbuffered, readSys, openFile]

/-- The bytes `M_fs_file_write_bytes` is asked to write: `len` of them, or up to the terminator if `len` is 0. -/
def Asked (buf : List UInt8) (len : Nat) (data : List UInt8) : Prop :=
  (0 < len ∧ len ≤ buf.length ∧ data = buf.take len) ∨
    (len = 0 ∧ ∃ rest, buf = data ++ 0 :: rest ∧ (0 : UInt8) ∉ data)

theorem strlen_spec (buf : List UInt8) (data rest : List UInt8) (h : buf = data ++ 0 :: rest) (h0 : (0 : UInt8) ∉ data) :
    strlen buf = some data.length := by
  induction data generalizing buf with
  | nil => subst h; simp [strlen]
  | cons d t ih =>
    subst h
    have hd : d ≠ 0 := fun h => h0 (by rw [h]; exact List.mem_cons_self ..)
    have := ih (t ++ 0 :: rest) rfl (fun h => h0 (List.mem_cons_of_mem _ h))
    simp [strlen, hd, this]

/-- **C93.**  `M_fs_file_write_bytes` to a path that opens, for every old content, array and operating system: the path ends
up with the old bytes (kept only when appending) followed by the first bytes asked for, as many as reported; success means
all of them, and it fails only if a write fails or there is nothing to write. -/
theorem write_bytes_exact (env : Env) (old : Option (List UInt8)) (buf data : List UInt8) (len : Nat) (append : Bool)
    (ha : Asked buf len data) :
    ∃ ok n, writeBytes env true old buf len append =
        some (some ((if append then old.getD [] else []) ++ data.take n), ok, n) ∧ n ≤ data.length ∧
      (ok = true → n = data.length ∧ data ≠ []) ∧ (data ≠ [] → env.WritesWork → ok = true) := by
  have hleft : ∃ left, (if len > 0 then some len else strlen buf) = some left ∧ left ≤ buf.length ∧ buf.take left = data := by
    rcases ha with ⟨h1, h2, h3⟩ | ⟨h1, rest, h2, h3⟩
    · exact ⟨len, if_pos h1, h2, h3.symm⟩
    · refine ⟨data.length, ?_, ?_, ?_⟩
      · rw [if_neg (by omega)]; exact strlen_spec buf data rest h2 h3
      · rw [h2, List.length_append]; omega
      · rw [h2, List.take_left']; rfl
  obtain ⟨left, l1, l2, l3⟩ := hleft
  unfold writeBytes
  rw [if_neg (by simp)]
  dsimp only
  rw [l1]
  dsimp only
  rw [if_neg (by omega), l3]
  generalize hbase : (if append = true then old.getD [] else []) = base
  have hat : viewAt (openFile base append 0) = base.length := by
    cases append with
    | true => simp [viewAt, viewBytes, openFile, splice_nil]
    | false =>
      simp at hbase
      subst hbase
      simp [viewAt, viewPos, openFile]
  have hvb : viewBytes (openFile base append 0) = base := by simp [viewBytes, openFile, splice_nil]
  by_cases hd : data = []
  · subst hd
    refine ⟨false, 0, ?_, by simp, by simp, by simp⟩
    simp [write, close, sync, openFile]
  · obtain ⟨k, hk, e1, e2, e3, e4, e5, e6, e7, e8⟩ :=
      write_spec env (openFile base append 0) data true (inv_open _ _ _) hd
    have hu := e6.unb (by rw [e8]; rfl)
    have hc : close env (write env (openFile base append 0) data true).1 = base ++ data.take k := by
      unfold close sync
      rw [if_pos hu.2]
      rw [viewBytes, hu.2, splice_nil, hat, hvb, splice_end] at e2
      exact e2
    refine ⟨_, k, by rw [hc, e1], hk, fun h => ⟨(e4 h).2 rfl, hd⟩, fun _ hw => ?_⟩
    unfold write
    rw [if_neg hd, if_neg (by simp [openFile])]
    exact (writeLoop_spec env true (openFile base append 0) data 0 hd).choose_spec.choose_spec.2.2.2.2.1 hw

example : Asked [104, 105, 0, 7] 0 [104, 105] ∧
    writeBytes goodEnv true (some [1]) [104, 105, 0, 7] 0 true = some (some [1, 104, 105], true, 2) :=
  ⟨Or.inr ⟨rfl, [7], rfl, by decide⟩, by
    simp [writeBytes, strlen, write, writeLoop, writeSys, close, sync, openFile, goodEnv, splice, wpos]⟩

end Verif.FsFile
