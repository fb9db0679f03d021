/-!
# File permissions

Model of base/fs/m_fs_perms.c and of the Unix part base/fs/m_fs_perms_unx.c, with the reading of
permissions in base/fs/m_fs_info_unx.c:38-76.

Simplified: a bit mask is a 32 bit vector and `mode_t` is 32 bits wide; an object pointer is never
null except the destination of a merge; the user and group databases and the path handling are
left out (looking a name up is a function given to the model); `chmod` and `chown` always succeed;
the Windows half is not modelled.
-/

namespace Verif.FsPerms

/-- A name of a user or group, without its terminator. -/
abbrev Name := List UInt8

/-- `M_fs_perms_who_t` (include/mstdlib/base/m_fs.h:205-209).  Simplified: only the three values
that have a name; other values are ignored by the setters and read as nothing by the getters. -/
inductive Who
  | user | group | other
deriving DecidableEq, Repr

/-- `M_fs_perms_type_t` (include/mstdlib/base/m_fs.h:197-201). -/
inductive Ty
  | exact | add | remove
deriving DecidableEq, Repr

/-- `M_FS_PERMS_MODE_READ` (include/mstdlib/base/m_fs.h:191). -/
def mRead : BitVec 32 := BitVec.twoPow 32 0
/-- `M_FS_PERMS_MODE_WRITE` (include/mstdlib/base/m_fs.h:192). -/
def mWrite : BitVec 32 := BitVec.twoPow 32 1
/-- `M_FS_PERMS_MODE_EXEC` (include/mstdlib/base/m_fs.h:193). -/
def mExec : BitVec 32 := BitVec.twoPow 32 2

/-- The nine bits of `mode_t` named in POSIX `sys/stat.h`, used in base/fs/m_fs_perms_unx.c:143-178:
`S_IRUSR`. -/
def sIRUSR : BitVec 32 := BitVec.twoPow 32 8
/-- `S_IWUSR`, as used in base/fs/m_fs_perms_unx.c:143. -/
def sIWUSR : BitVec 32 := BitVec.twoPow 32 7
/-- `S_IXUSR`, as used in base/fs/m_fs_perms_unx.c:143. -/
def sIXUSR : BitVec 32 := BitVec.twoPow 32 6
/-- `S_IRGRP`, as used in base/fs/m_fs_perms_unx.c:148. -/
def sIRGRP : BitVec 32 := BitVec.twoPow 32 5
/-- `S_IWGRP`, as used in base/fs/m_fs_perms_unx.c:148. -/
def sIWGRP : BitVec 32 := BitVec.twoPow 32 4
/-- `S_IXGRP`, as used in base/fs/m_fs_perms_unx.c:148. -/
def sIXGRP : BitVec 32 := BitVec.twoPow 32 3
/-- `S_IROTH`, as used in base/fs/m_fs_perms_unx.c:153. -/
def sIROTH : BitVec 32 := BitVec.twoPow 32 2
/-- `S_IWOTH`, as used in base/fs/m_fs_perms_unx.c:153. -/
def sIWOTH : BitVec 32 := BitVec.twoPow 32 1
/-- `S_IXOTH`, as used in base/fs/m_fs_perms_unx.c:153. -/
def sIXOTH : BitVec 32 := BitVec.twoPow 32 0

/-- The three fields `X_set`, `X_mode`, `X_type` of `struct M_fs_perms`
(base/fs/m_fs_int.h:70-110). -/
structure Part where
  set : Bool
  mode : BitVec 32
  type : Ty
deriving DecidableEq, Repr

/-- A part of a zeroed structure (base/fs/m_fs_perms.c:67-68): not set, no mode, `EXACT` being the
value 0. -/
def Part.zero : Part := ⟨false, 0#32, .exact⟩

/-- `struct M_fs_perms` (base/fs/m_fs_int.h:70-110), Unix half. -/
structure Perms where
  user : Option Name
  group : Option Name
  uid : Nat
  gid : Nat
  u : Part
  g : Part
  o : Part
  du : Part
  dg : Part
  dO : Part
deriving DecidableEq, Repr

/-- `M_fs_perms_create` (base/fs/m_fs_perms.c:63-77). -/
def create : Perms :=
  ⟨none, none, 0, 0, .zero, .zero, .zero, .zero, .zero, .zero⟩

/-- `M_fs_perms_dup` (base/fs/m_fs_perms.c:79-120).  Line 104 assigns `group_mode` again where
`group_type` would be expected: the copy keeps the type of a new object, `EXACT`. -/
def dup (p : Perms) : Perms :=
  let d := create
  let d := { d with user := p.user, group := p.group, uid := p.uid, gid := p.gid }
  let d := { d with u := { d.u with set := p.u.set, mode := p.u.mode, type := p.u.type } }
  let d := { d with g := { d.g with set := p.g.set, mode := p.g.mode } }
  let d := { d with o := { d.o with set := p.o.set, mode := p.o.mode, type := p.o.type } }
  let d := { d with du := { d.du with set := p.du.set, mode := p.du.mode, type := p.du.type } }
  let d := { d with dg := { d.dg with set := p.dg.set, mode := p.dg.mode, type := p.dg.type } }
  let d := { d with dO := { d.dO with set := p.dO.set, mode := p.dO.mode, type := p.dO.type } }
  d

/-- `M_fs_perms_merge_part` (base/fs/m_fs_perms.c:42-59). -/
def mergePart (d s : Part) : Part :=
  if !s.set then d
  else if d.set && d.type == .exact && s.type != .exact then
    if s.type == .add then { d with mode := d.mode ||| s.mode, set := true }
    else { d with mode := d.mode &&& ~~~ s.mode, set := true }
  else { d with mode := s.mode, type := s.type, set := true }

/-- The result of `M_fs_perms_merge`: the destination, and whether the second object is still
allocated and owned by nobody afterwards. -/
structure Merged where
  dest : Perms
  srcLeft : Bool
deriving DecidableEq, Repr

/-- `M_fs_perms_merge` (base/fs/m_fs_perms.c:122-162) for a source that is not null.  The names of
the user and group are not copied, only the numbers; the source is never destroyed. -/
def merge (dest : Option Perms) (src : Perms) : Merged :=
  match dest with
  | none => ⟨src, false⟩
  | some d =>
    let d := if src.user.isSome then { d with uid := src.uid } else d
    let d := if src.group.isSome then { d with gid := src.gid } else d
    let d := { d with u := mergePart d.u src.u }
    let d := { d with g := mergePart d.g src.g }
    let d := { d with o := mergePart d.o src.o }
    let d := { d with du := mergePart d.du src.du }
    let d := { d with dg := mergePart d.dg src.dg }
    let d := { d with dO := mergePart d.dO src.dO }
    ⟨d, true⟩

/-- `M_fs_perms_get_mode` (base/fs/m_fs_perms.c:194-208). -/
def getMode (p : Perms) : Who → BitVec 32
  | .user => p.u.mode
  | .group => p.g.mode
  | .other => p.o.mode

/-- `M_fs_perms_get_type` (base/fs/m_fs_perms.c:210-224). -/
def getType (p : Perms) : Who → Ty
  | .user => p.u.type
  | .group => p.g.type
  | .other => p.o.type

/-- `M_fs_perms_get_isset` (base/fs/m_fs_perms.c:226-240). -/
def getIsset (p : Perms) : Who → Bool
  | .user => p.u.set
  | .group => p.g.set
  | .other => p.o.set

/-- `M_fs_perms_get_dir_mode` (base/fs/m_fs_perms.c:242-256). -/
def getDirMode (p : Perms) : Who → BitVec 32
  | .user => p.du.mode
  | .group => p.dg.mode
  | .other => p.dO.mode

/-- `M_fs_perms_get_dir_type` (base/fs/m_fs_perms.c:258-272). -/
def getDirType (p : Perms) : Who → Ty
  | .user => p.du.type
  | .group => p.dg.type
  | .other => p.dO.type

/-- `M_fs_perms_get_dir_isset` (base/fs/m_fs_perms.c:274-288). -/
def getDirIsset (p : Perms) : Who → Bool
  | .user => p.du.set
  | .group => p.dg.set
  | .other => p.dO.set

/-- `M_fs_perms_set_mode` (base/fs/m_fs_perms.c:292-314). -/
def setMode (p : Perms) (mode : BitVec 32) (who : Who) (type : Ty) : Perms :=
  match who with
  | .user => { p with u := ⟨true, mode, type⟩ }
  | .group => { p with g := ⟨true, mode, type⟩ }
  | .other => { p with o := ⟨true, mode, type⟩ }

/-- `M_fs_perms_set_dir_mode` (base/fs/m_fs_perms.c:316-338). -/
def setDirMode (p : Perms) (mode : BitVec 32) (who : Who) (type : Ty) : Perms :=
  match who with
  | .user => { p with du := ⟨true, mode, type⟩ }
  | .group => { p with dg := ⟨true, mode, type⟩ }
  | .other => { p with dO := ⟨true, mode, type⟩ }

/-- `M_fs_perms_unset_dir_mode` (base/fs/m_fs_perms.c:365-387). -/
def unsetDirMode (p : Perms) (who : Who) : Perms :=
  match who with
  | .user => { p with du := ⟨false, 0#32, .exact⟩ }
  | .group => { p with dg := ⟨false, 0#32, .exact⟩ }
  | .other => { p with dO := ⟨false, 0#32, .exact⟩ }

/-- `M_fs_perms_unset_mode` (base/fs/m_fs_perms.c:340-363). -/
def unsetMode (p : Perms) (who : Who) : Perms :=
  let p := match who with
    | .user => { p with u := ⟨false, 0#32, .exact⟩ }
    | .group => { p with g := ⟨false, 0#32, .exact⟩ }
    | .other => { p with o := ⟨false, 0#32, .exact⟩ }
  unsetDirMode p who

/-- `M_fs_perms_set_user` (base/fs/m_fs_perms_unx.c:327-381) with `M_fs_perms_set_user_int`
(base/fs/m_fs_perms_unx.c:183-189).  `db` is the user database.  The flag is whether the call
reports success. -/
def setUser (db : Name → Option Nat) (p : Perms) (user : Option Name) : Perms × Bool :=
  match user with
  | none => ({ p with user := none }, true)
  | some n =>
    if n = [] then ({ p with user := none }, true)
    else match db n with
      | none => (p, false)
      | some id => ({ p with user := some n, uid := id }, true)

/-- `M_fs_perms_set_group` (base/fs/m_fs_perms_unx.c:383-437) with `M_fs_perms_set_group_int`
(base/fs/m_fs_perms_unx.c:191-197).  Unlike the user, an empty name is looked up. -/
def setGroup (db : Name → Option Nat) (p : Perms) (group : Option Name) : Perms × Bool :=
  match group with
  | none => ({ p with group := none }, true)
  | some n =>
    match db n with
    | none => (p, false)
    | some id => ({ p with group := some n, gid := id }, true)

/-- The choice between the ordinary part and the override for directories, the same in
base/fs/m_fs_perms_unx.c:61-73 and base/fs/m_fs_perms_unx.c:111-119. -/
def pick (isdir : Bool) (p dp : Part) : Option (BitVec 32 × Ty) :=
  if isdir && dp.set then some (dp.mode, dp.type)
  else if p.set then some (p.mode, p.type)
  else none

/-- `if (*mymode & FLAG) mode |= s_flag;` three times (base/fs/m_fs_perms_unx.c:80-85 and
base/fs/m_fs_perms_unx.c:122-127). -/
def addBits (mode mymode sr sw sx : BitVec 32) : BitVec 32 :=
  let mode := if mymode &&& mRead ≠ 0#32 then mode ||| sr else mode
  let mode := if mymode &&& mWrite ≠ 0#32 then mode ||| sw else mode
  if mymode &&& mExec ≠ 0#32 then mode ||| sx else mode

/-- `if (*mymode & FLAG) mode &= ~s_flag;` three times (base/fs/m_fs_perms_unx.c:88-93). -/
def delBits (mode mymode sr sw sx : BitVec 32) : BitVec 32 :=
  let mode := if mymode &&& mRead ≠ 0#32 then mode &&& ~~~ sr else mode
  let mode := if mymode &&& mWrite ≠ 0#32 then mode &&& ~~~ sw else mode
  if mymode &&& mExec ≠ 0#32 then mode &&& ~~~ sx else mode

/-- `M_fs_perms_update_mode_from_perm_part` (base/fs/m_fs_perms_unx.c:51-98). -/
def updatePart (mode : BitVec 32) (isdir : Bool) (p dp : Part) (sr sw sx : BitVec 32) :
    BitVec 32 :=
  match pick isdir p dp with
  | none => mode
  | some (mymode, .exact) => addBits (mode &&& ~~~ (sr ||| sw ||| sx)) mymode sr sw sx
  | some (mymode, .add) => addBits mode mymode sr sw sx
  | some (mymode, .remove) => delBits mode mymode sr sw sx

/-- `M_fs_perms_update_mode_from_perms` (base/fs/m_fs_perms_unx.c:135-155).  Each part starts from
the same `mode` and the three results are or-ed. -/
def update (mode : BitVec 32) (p : Perms) (isdir : Bool) : BitVec 32 :=
  let my := 0#32
  let my := my ||| updatePart mode isdir p.u p.du sIRUSR sIWUSR sIXUSR
  let my := my ||| updatePart mode isdir p.g p.dg sIRGRP sIWGRP sIXGRP
  my ||| updatePart mode isdir p.o p.dO sIROTH sIWOTH sIXOTH

/-- `M_fs_perms_to_mode_part` (base/fs/m_fs_perms_unx.c:100-131). -/
def toModePart (isdir : Bool) (p dp : Part) (sr sw sx : BitVec 32) : BitVec 32 :=
  match pick isdir p dp with
  | none => 0#32
  | some (mymode, type) =>
    if type = .exact ∨ type = .add then addBits 0#32 mymode sr sw sx else 0#32

/-- `M_fs_perms_to_mode` (base/fs/m_fs_perms_unx.c:160-181). -/
def toMode (p : Perms) (isdir : Bool) : BitVec 32 :=
  let mode := 0#32
  let mode := mode ||| toModePart isdir p.u p.du sIRUSR sIWUSR sIXUSR
  let mode := mode ||| toModePart isdir p.g p.dg sIRGRP sIWGRP sIXGRP
  mode ||| toModePart isdir p.o p.dO sIROTH sIWOTH sIXOTH

/-- One class in `M_fs_info_mode_to_perms` (base/fs/m_fs_info_unx.c:46-52). -/
def readBits (mode sr sw sx : BitVec 32) : BitVec 32 :=
  let m := 0#32
  let m := if mode &&& sr ≠ 0#32 then m ||| mRead else m
  let m := if mode &&& sw ≠ 0#32 then m ||| mWrite else m
  if mode &&& sx ≠ 0#32 then m ||| mExec else m

/-- `M_fs_info_mode_to_perms` (base/fs/m_fs_info_unx.c:38-76). -/
def infoPerms (mode : BitVec 32) : Perms :=
  let p := create
  let p := setMode p (readBits mode sIRUSR sIWUSR sIXUSR) .user .exact
  let p := setMode p (readBits mode sIRGRP sIWGRP sIXGRP) .group .exact
  setMode p (readBits mode sIROTH sIWOTH sIXOTH) .other .exact

/-- What the system records about a path, as far as this code reads and writes it: the permission
bits with set-user-id, set-group-id and sticky, the owner, the group, and whether it is a
directory (used in base/fs/m_fs_perms_unx.c:227-245). -/
structure File where
  isdir : Bool
  mode : BitVec 32
  uid : Nat
  gid : Nat
deriving DecidableEq, Repr

/-- `M_fs_perms_set_perms` (base/fs/m_fs_perms_unx.c:205-250) and `M_fs_perms_set_perms_file`
(base/fs/m_fs_perms_unx.c:252-287), which are the same with `fchmod` and `fchown`.  Simplified:
every call succeeds, and `chown` does not clear the set-id bits (none are left by then). -/
def setPerms (p : Perms) (f : File) : File :=
  let mode := toMode (infoPerms f.mode) false
  let mode := update mode p f.isdir
  let f := { f with mode := mode }
  if p.user.isSome || p.group.isSome then
    { f with
      uid := if p.user.isSome then p.uid else f.uid
      gid := if p.group.isSome then p.gid else f.gid }
  else f

/-- The mode given to `mkdir` by `M_fs_dir_mkdir_sys` (base/fs/m_fs_dir.c:94-107). -/
def mkdirMode (p : Option Perms) : BitVec 32 :=
  match p with
  | none => 0o775#32
  | some p => toMode p false

/-- The mode given to `access` by `M_fs_perms_can_access` (base/fs/m_fs_perms_unx.c:295-314), with
`F_OK` 0, `X_OK` 1, `W_OK` 2 and `R_OK` 4. -/
def accessMode (mode : BitVec 32) : BitVec 32 :=
  let a := 0#32
  let a := if mode = 0#32 then 0#32 else a
  let a := if mode &&& mRead ≠ 0#32 then a ||| 4#32 else a
  let a := if mode &&& mWrite ≠ 0#32 then a ||| 2#32 else a
  if mode &&& mExec ≠ 0#32 then a ||| 1#32 else a

end Verif.FsPerms
