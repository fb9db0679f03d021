import Verif.FsPerms.Model

/-!
# What permissions mean

The meaning of a request for permissions, one permission of one class at a time, in terms of what
the getters report and of the bits POSIX fixes for a file's mode.  Nothing here uses the functions
that compute modes.
-/

namespace Verif.FsPerms

/-- The three permissions. -/
inductive Perm
  | read | write | exec
deriving DecidableEq, Repr

/-- The place of a class in the octal notation of a mode: `rwx` of the others comes lowest. -/
def Who.digit : Who → Nat
  | .user => 2
  | .group => 1
  | .other => 0

/-- The place of a permission within an octal digit: 4 is read, 2 is write, 1 is execute. -/
def Perm.place : Perm → Nat
  | .read => 2
  | .write => 1
  | .exec => 0

/-- Does a POSIX mode allow `perm` to the class `who`? -/
def allowed (mode : BitVec 32) (who : Who) (perm : Perm) : Bool :=
  mode.getLsbD (3 * who.digit + perm.place)

/-- Is a permission among the flags given to the library (`READ` 1, `WRITE` 2, `EXEC` 4)? -/
def named (flags : BitVec 32) : Perm → Bool
  | .read => flags.getLsbD 0
  | .write => flags.getLsbD 1
  | .exec => flags.getLsbD 2

/-- What an object says about a class, as its getters report it: nothing, or flags and a type. -/
def says (p : Perms) (dir : Bool) (who : Who) : Option (BitVec 32 × Ty) :=
  match dir with
  | false => if getIsset p who then some (getMode p who, getType p who) else none
  | true => if getDirIsset p who then some (getDirMode p who, getDirType p who) else none

/-- What an object asks for on a path: for a directory the override, if there is one. -/
def asks (p : Perms) (isdir : Bool) (who : Who) : Option (BitVec 32 × Ty) :=
  match isdir, says p true who with
  | true, some r => some r
  | _, _ => says p false who

/-- What a request makes of one permission that was `old` before. -/
def want (r : Option (BitVec 32 × Ty)) (perm : Perm) (old : Bool) : Bool :=
  match r with
  | none => old
  | some (flags, .exact) => named flags perm
  | some (flags, .add) => old || named flags perm
  | some (flags, .remove) => old && !named flags perm

/-- Calls on one object. -/
inductive Op
  | set (mode : BitVec 32) (who : Who) (type : Ty)
  | setDir (mode : BitVec 32) (who : Who) (type : Ty)
  | unset (who : Who)
  | unsetDir (who : Who)
deriving DecidableEq, Repr

/-- One call on the model. -/
def Op.run (p : Perms) : Op → Perms
  | .set m w t => setMode p m w t
  | .setDir m w t => setDirMode p m w t
  | .unset w => unsetMode p w
  | .unsetDir w => unsetDirMode p w

/-- What one call decides about a class (`dir`: about its override), if it does: clearing the
ordinary permissions clears the override too. -/
def Op.decides (dir : Bool) (who : Who) : Op → Option (Option (BitVec 32 × Ty))
  | .set m w t => if w = who ∧ dir = false then some (some (m, t)) else none
  | .setDir m w t => if w = who ∧ dir = true then some (some (m, t)) else none
  | .unset w => if w = who then some none else none
  | .unsetDir w => if w = who ∧ dir = true then some none else none

/-- `Last dir who ops r`: after the calls `ops` (oldest first) the last word about the class is
`r`. -/
inductive Last (dir : Bool) (who : Who) : List Op → Option (BitVec 32 × Ty) → Prop
  | start : Last dir who [] none
  | said {ops op r} : op.decides dir who = some r → Last dir who (ops ++ [op]) r
  | kept {ops op r} : op.decides dir who = none → Last dir who ops r → Last dir who (ops ++ [op]) r

end Verif.FsPerms
