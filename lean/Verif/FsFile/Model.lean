/-!
# Buffered files (`base/fs/m_fs_file.c`, `base/fs/m_fs_file_unx.c`) and file copies (`base/fs/m_fs.c`)

A `File` is an open file: the bytes the operating system holds for it and the position of the descriptor, together with
the fields of `M_fs_file_t`.  The operating system is a parameter `Env`: the result of the n-th system call made on the
file (how many bytes a `read` or `write` moves, or that it fails), and how much more room than asked for
`M_buf_direct_write_start` reports.  Not modelled: 64 bit overflow of positions and lengths, `M_FS_FILE_SYNC_OS`
(`fsync`), a `sizeof(off_t) == 4` build, other processes changing the file, and reading a descriptor opened for writing
only.  `NULL` arguments are left out.
-/

namespace Verif.FsFile

/-- What the operating system answers: `rd n`/`wr n` are the answers when the `n`-th call on the file is a `read`/`write`:
`none` is -1, `some k` moves up to `k + 1` bytes (POSIX: a `read` of at least one byte returns 0 only at the end of the
file, a `write` of at least one byte to a file moves at least one).  `room n` is the space `M_buf_direct_write_start`
reports on top of the space asked for. -/
structure Env where
  rd : Nat → Option Nat
  wr : Nat → Option Nat
  room : Nat → Nat

/-- An open file: the operating system's view (`content`, `pos`, whether `O_APPEND` was given, how many calls were made)
and `struct M_fs_file` (`base/fs/m_fs_int.h`): `buf_size`, `read_buf`, `write_buf`, `read_offset`. -/
structure File where
  content : List UInt8
  pos : Nat
  append : Bool
  calls : Nat
  bufSize : Nat
  readBuf : List UInt8
  writeBuf : List UInt8
  readOff : Int
deriving Repr, DecidableEq

/-- The bytes of a file after `write` put `bs` at offset `p`: a gap past the end of the file reads as zeros. -/
def splice (c : List UInt8) (p : Nat) (bs : List UInt8) : List UInt8 :=
  if bs.isEmpty then c
  else c.take p ++ List.replicate (p - c.length) 0 ++ bs ++ c.drop (p + bs.length)

/-- Where the next `write` on the descriptor goes. -/
def wpos (f : File) : Nat := if f.append then f.content.length else f.pos

/-- `base/fs/m_fs_file_unx.c:152-168`, `M_fs_file_read_sys` for `n > 0` bytes: the file, whether it succeeded, the bytes. -/
def readSys (env : Env) (f : File) (n : Nat) : File × Bool × List UInt8 :=
  match env.rd f.calls with
  | none => ({ f with calls := f.calls + 1 }, false, [])
  | some k =>
    let got := (f.content.drop f.pos).take (min n (k + 1))
    ({ f with calls := f.calls + 1, pos := f.pos + got.length }, true, got)

/-- `base/fs/m_fs_file_unx.c:170-186`, `M_fs_file_write_sys` for a non-empty `bs`: the file, whether it succeeded, how
many bytes were written. -/
def writeSys (env : Env) (f : File) (bs : List UInt8) : File × Bool × Nat :=
  match env.wr f.calls with
  | none => ({ f with calls := f.calls + 1 }, false, 0)
  | some k =>
    let w := bs.take (k + 1)
    ({ f with calls := f.calls + 1, content := splice f.content (wpos f) w, pos := wpos f + w.length }, true, w.length)

/-- `M_fs_file_seek_t` (`include/mstdlib/base/m_fs.h`). -/
inductive From where
  | begin
  | cur
  | end
deriving Repr, DecidableEq

/-- Where `lseek(fd, off, whence)` goes. -/
def target (f : File) (off : Int) : From → Int
  | .begin => off
  | .cur => f.pos + off
  | .end => f.content.length + off

/-- `base/fs/m_fs_file_unx.c:188-222`, `M_fs_file_seek_sys` with a 64 bit `off_t`: the loop makes one `lseek` unless the
offset is 0, in which case it makes none.  `lseek` fails if the position would be negative. -/
def seekSys (f : File) (off : Int) (frm : From) : File × Bool :=
  if off = 0 then (f, true)
  else if target f off frm < 0 then (f, false)
  else ({ f with pos := (target f off frm).toNat }, true)

/-- `base/fs/m_fs_file.c:211-215`, the loop of `M_fs_file_write` over the bytes still to write: the file, the result, how
many bytes went to the operating system. -/
def writeLoop (env : Env) (full : Bool) (f : File) (bs : List UInt8) (offset : Nat) : File × Bool × Nat :=
  if _h0 : bs = [] then (f, false, offset)
  else
    match h : writeSys env f bs with
    | (f', res, wrote) =>
      if _hc : full ∧ res ∧ bs.drop wrote ≠ [] then writeLoop env full f' (bs.drop wrote) (offset + wrote)
      else (f', res, offset + wrote)
termination_by bs.length
decreasing_by
  have hw : 0 < wrote := by
    unfold writeSys at h
    split at h
    · simp_all
    · simp only [Prod.mk.injEq] at h
      rw [← h.2.2]
      cases bs with
      | nil => simp at _h0
      | cons b t => simp
  have : 0 < bs.length := List.length_pos_iff.2 _h0
  simp only [List.length_drop]
  omega

/-- `base/fs/m_fs_file.c:189-197`, the first part of a buffered `M_fs_file_write`: go back to where the user is, forget what
was read ahead, add the bytes to the write buffer. -/
def enqueue (f : File) (bs : List UInt8) : File :=
  let f1 := (seekSys f (-f.readOff) .cur).1
  { f1 with readBuf := [], readOff := 0, writeBuf := f1.writeBuf ++ bs }

/-- `base/fs/m_fs_file.c:173-223`, `M_fs_file_write` of `bs` (an empty `bs` is `M_FS_ERROR_INVALID`): the file, whether
it returned success, and `*wrote_len`. -/
def write (env : Env) (f : File) (bs : List UInt8) (full : Bool) : File × Bool × Nat :=
  if bs = [] then (f, false, 0)
  else if f.bufSize > 0 then
    let f2 := enqueue f bs
    if f2.writeBuf.length < f2.bufSize then (f2, true, bs.length)
    else
      let r := writeLoop env full f2 f2.writeBuf 0
      ({ r.1 with writeBuf := r.1.writeBuf.drop r.2.2 }, r.2.1, bs.length)
  else writeLoop env full f bs 0

/-- `base/fs/m_fs_file.c:293-334`, `M_fs_file_sync` with `M_FS_FILE_SYNC_BUFFER`: the pending bytes are written by
`M_fs_file_write` with the buffering switched off; what could not be written goes back to the buffer. -/
def sync (env : Env) (f : File) : File × Bool :=
  if f.writeBuf = [] then (f, true)
  else
    let data := f.writeBuf
    let r := write env { f with bufSize := 0, writeBuf := [] } data true
    let f1 := { r.1 with bufSize := f.bufSize, writeBuf := [] }
    if r.2.1 = false ∨ data.length ≠ r.2.2 then ({ f1 with writeBuf := data.drop r.2.2 }, false)
    else (f1, true)

/-- `base/fs/m_fs_file.c:108-111`, the loop of `M_fs_file_read`: the bytes read so far are `acc`. -/
def readLoop (env : Env) (full : Bool) (max : Nat) (f : File) (acc : List UInt8) : File × Bool × List UInt8 :=
  match readSys env f (max - acc.length) with
  | (f', res, got) =>
    if _hc : full ∧ res ∧ got ≠ [] ∧ (acc ++ got).length < max then readLoop env full max f' (acc ++ got)
    else (f', res, acc ++ got)
termination_by max - acc.length
decreasing_by
  have h1 : 0 < got.length := List.length_pos_iff.2 _hc.2.2.1
  have h2 := _hc.2.2.2
  rw [List.length_append] at h2 ⊢
  omega

/-- `base/fs/m_fs_file.c:62-129`, `M_fs_file_read` of up to `n` bytes (`n = 0` is `M_FS_ERROR_INVALID`): the file,
whether it returned success, and the bytes stored in the caller's buffer (their number is `*read_len`). -/
def read (env : Env) (f : File) (n : Nat) (full : Bool) : File × Bool × List UInt8 :=
  if n = 0 then (f, false, [])
  else if f.bufSize > 0 then
    let f1 := if f.writeBuf.length > 0 then (sync env f).1 else f
    if f1.readBuf.length ≥ n then
      ({ f1 with readBuf := f1.readBuf.drop n, readOff := f1.readOff - n }, true, f1.readBuf.take n)
    else
      let readMax := f1.bufSize + n - f1.readBuf.length + env.room f1.calls
      let r := readLoop env full readMax f1 []
      let f2 := r.1
      if r.2.2.length > 0 then
        let rb := f2.readBuf ++ r.2.2
        let give := min rb.length n
        ({ f2 with readBuf := rb.drop give, readOff := f2.readOff + (r.2.2.length - give : Int) }, r.2.1, rb.take give)
      else (f2, r.2.1, [])
  else readLoop env full n f []

/-- `base/fs/m_fs_file.c:259-291`, `M_fs_file_seek`. -/
def seek (env : Env) (f : File) (off : Int) (frm : From) : File × Bool :=
  if off = 0 ∧ frm = .cur then (f, true)
  else
    let f1 := if f.writeBuf.length > 0 then (sync env f).1 else f
    if frm = .cur ∧ off > 0 ∧ (f1.readBuf.length : Int) ≥ off then
      ({ f1 with readBuf := f1.readBuf.drop off.toNat, readOff := f1.readOff - off }, true)
    else
      let off' := if f1.readOff ≠ 0 ∧ frm = .cur then off - f1.readOff else off
      seekSys { f1 with readBuf := [], readOff := 0 } off' frm

/-- `base/fs/m_fs_file.c:52-60`, `M_fs_file_close`: what the operating system is left with (the result of the flush is
ignored). -/
def close (env : Env) (f : File) : List UInt8 := (sync env f).1.content

/-- `base/fs/m_fs_file.c:31-50`, `M_fs_file_open` of a file whose bytes are `content` (after `O_TRUNC`, if given). -/
def openFile (content : List UInt8) (append : Bool) (bufSize : Nat) : File :=
  { content, pos := 0, append, calls := 0, bufSize, readBuf := [], writeBuf := [], readOff := 0 }

/-- Calls a user makes on an open file. -/
inductive Op where
  | read (n : Nat) (full : Bool)
  | write (bs : List UInt8) (full : Bool)
  | seek (off : Int) (frm : From)
  | sync
deriving Repr, DecidableEq

/-- What the user is told: whether the call succeeded, and the bytes read (for a write: `wrote_len`). -/
inductive Out where
  | read (ok : Bool) (bs : List UInt8)
  | write (ok : Bool) (n : Nat)
  | seek (ok : Bool)
  | sync (ok : Bool)
deriving Repr, DecidableEq

/-- One call. -/
def step (env : Env) (f : File) : Op → File × Out
  | .read n full => let r := read env f n full; (r.1, .read r.2.1 r.2.2)
  | .write bs full => let r := write env f bs full; (r.1, .write r.2.1 r.2.2)
  | .seek off frm => let r := seek env f off frm; (r.1, .seek r.2)
  | .sync => let r := sync env f; (r.1, .sync r.2)

/-- A history of calls and what they reported. -/
def run (env : Env) (f : File) : List Op → File × List Out
  | [] => (f, [])
  | op :: ops =>
    let r := step env f op
    let s := run env r.1 ops
    (s.1, r.2 :: s.2)

/-- Results of the whole-file helpers. -/
inductive WRes (α : Type) where
  | ok (a : α)
  | tooBig
  | error
deriving Repr, DecidableEq

/-- `base/fs/m_fs_file.c:151-161`, the loop of `M_fs_file_read_bytes` (the file is opened unbuffered; `env.room` is the
space `M_buf_direct_write_start` gives on top of 1024).  `none` is a loop that has not ended after `fuel` rounds. -/
def readBytesLoop (env : Env) (maxRead : Nat) : Nat → File → List UInt8 → Option (WRes (List UInt8))
  | 0, _, _ => none
  | fuel + 1, f, acc =>
    let r := read env f (1024 + env.room f.calls) false
    let acc' := acc ++ r.2.2
    if maxRead ≠ 0 ∧ acc'.length > maxRead then some .tooBig
    else if r.2.1 = false then some .error
    else if r.2.2 ≠ [] then readBytesLoop env maxRead fuel r.1 acc'
    else some (.ok acc')

/-- `base/fs/m_fs_file.c:131-171`, `M_fs_file_read_bytes` of a path that holds `content` (`none`: the path cannot be
opened). -/
def readBytes (env : Env) (maxRead : Nat) (fuel : Nat) : Option (List UInt8) → Option (WRes (List UInt8))
  | none => some .error
  | some content => readBytesLoop env maxRead fuel (openFile content false 0) []

/-- `strlen`: the bytes of `buf` before the first NUL (`none`: no terminator inside the array, the scan leaves it). -/
def strlen : List UInt8 → Option Nat
  | [] => none
  | b :: t => if b = 0 then some 0 else (strlen t).map (· + 1)

/-- `base/fs/m_fs_file.c:225-257`, `M_fs_file_write_bytes` to a path that holds `old` (`none`: no such file); `openOk`
says whether it can be opened.  The array `buf` must hold `writeLen` bytes (or a terminator if `writeLen = 0`), otherwise
the behaviour is undefined (`none`).  Result: what the path holds afterwards, success, `*bytes_written`. -/
def writeBytes (env : Env) (openOk : Bool) (old : Option (List UInt8)) (buf : List UInt8) (writeLen : Nat)
    (append : Bool) : Option (Option (List UInt8) × Bool × Nat) :=
  if openOk = false then some (old, false, 0)
  else
    let f := openFile (if append then old.getD [] else []) append 0
    match (if writeLen > 0 then some writeLen else strlen buf) with
    | none => none
    | some left =>
      if buf.length < left then none
      else
        let r := write env f (buf.take left) true
        some (some (close env r.1), r.2.1, r.2.2)

/-! ## Copying and moving one file -/

/-- `base/fs/m_fs.c:245-275`, the loop of `M_fs_copy_file` over the source `s` and the destination `d`; `cb n` is the
answer of the progress callback at its `n`-th call (always true when there is none).  The destination is opened with a
buffer, so `M_fs_file_write` reports all bytes as written and the inner loop runs once.  `none`: the loop has not ended
after `fuel` rounds. -/
def copyLoop (es ed : Env) (cb : Nat → Bool) : Nat → Nat → File → File → Option (File × File × Bool)
  | 0, _, _, _ => none
  | fuel + 1, i, s, d =>
    let r := read es s 1024 false
    if r.2.1 = true ∧ r.2.2 ≠ [] then
      let w := write ed d r.2.2 false
      if w.2.1 = true ∧ cb i = true then copyLoop es ed cb fuel (i + 1) r.1 w.1
      else some (r.1, w.1, false)
    else some (r.1, d, r.2.1)

/-- The files of a file system by path (regular files only). -/
abbrev Fs := String → Option (List UInt8)

/-- A file system with the file at `p` changed. -/
def Fs.set (fs : Fs) (p : String) (c : Option (List UInt8)) : Fs := fun q => if q = p then c else fs q

/-- What else can go wrong during a copy or move: whether the two files can be opened, what `rename` answers
(`renameOk`, or `sameDev = false` for `EXDEV`), whether `unlink` of the old and the new path works, the environments of
the two open files and the progress callback. -/
structure World where
  openOld : Bool
  openNew : Bool
  renameOk : Bool
  sameDev : Bool
  unlinkOld : Bool
  unlinkNew : Bool
  es : Env
  ed : Env
  cb : Nat → Bool

/-- `base/fs/m_fs.c:208-283`, `M_fs_copy_file` (permissions are left out).  `O_TRUNC` empties the new file before the old
one is read: if the two paths are the same file nothing is left to read. -/
def copyFile (w : World) (fuel : Nat) (fs : Fs) (old new : String) : Option (Fs × Bool) :=
  match fs old with
  | none => some (fs, false)
  | some c =>
    if w.openOld = false then some (fs, false)
    else if w.openNew = false then some (fs, false)
    else
      let src := if old = new then [] else c
      match copyLoop w.es w.ed w.cb fuel 0 (openFile src false 1024) (openFile [] false 1024) with
      | none => none
      | some (_, d, res) => some (fs.set new (some (close w.ed d)), res)

/-- `base/fs/m_fs.c:56-62` as called by `M_fs_delete` (`base/fs/m_fs.c:616-750`) on a path that is a regular file. -/
def deleteFile (ok : Bool) (fs : Fs) (p : String) : Fs × Bool :=
  match fs p with
  | none => (fs, false)
  | some _ => if ok then (fs.set p none, true) else (fs, false)

/-- `base/fs/m_fs.c:426-614`, `M_fs_copy` when the old path is a regular file and the new path is not a directory: one
entry, copied by `M_fs_copy_file`.  `overwrite` is `M_FS_FILE_MODE_OVERWRITE`; without it
`M_fs_check_overwrite_allowed` (lines 113-159) refuses a new path that exists, and a failed copy is deleted again. -/
def copy (w : World) (fuel : Nat) (fs : Fs) (old new : String) (overwrite : Bool) : Option (Fs × Bool) :=
  if (fs old).isNone then some (fs, false)
  else if overwrite = false ∧ (fs new).isSome then some (fs, false)
  else
    match copyFile w fuel fs old new with
    | none => none
    | some (fs', res) =>
      if res = false ∧ overwrite = false then some ((deleteFile w.unlinkNew fs' new).1, false)
      else some (fs', res)

/-- `base/fs/m_fs.c:303-424`, `M_fs_move` of a regular file to a path that is not a directory: `rename`, and if the two
paths are on different devices a copy followed by deleting the old file.  The answer of the progress callback after a
plain rename is `cb 0`. -/
def move (w : World) (fuel : Nat) (fs : Fs) (old new : String) (overwrite : Bool) : Option (Fs × Bool) :=
  match fs old with
  | none => some (fs, false)
  | some c =>
    if overwrite = false ∧ (fs new).isSome then some (fs, false)
    else if w.sameDev = true then
      if w.renameOk then some (if old = new then fs else (fs.set old none).set new (some c), w.cb 0)
      else some (fs, false)
    else
      match copy w fuel fs old new overwrite with
      | none => none
      | some (fs', true) => some (deleteFile w.unlinkOld fs' old)
      | some (fs', false) =>
        if overwrite = false then some ((deleteFile w.unlinkNew fs' new).1, false)
        else some (fs', false)

end Verif.FsFile
