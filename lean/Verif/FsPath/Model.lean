import Verif.Str.Model
/- Model of `base/fs/m_fs_path.c` and `base/fs/m_fs_path_norm.c`.  A path is the list of the bytes before its terminating zero.  `win`
is the system type: `M_FS_SYSTEM_AUTO` has been replaced by one of the two (`base/fs/m_fs_path.c:100-110`). -/
namespace Verif.FsPath
open Verif.Str

/-- `base/fs/m_fs_path.c:177-188`, `M_fs_path_isunc`. -/
def isUnc : List UInt8 → Bool
  | 92 :: 92 :: _ => true
  | _ => false

/-- `base/fs/m_fs_path.c:153-175`, `M_fs_path_isabs`. -/
def isAbs (win : Bool) (p : List UInt8) : Bool :=
  if p = [] then false
  else (win && (isUnc p || (match p with
    | a :: b :: _ => b == 58 || (a == 92 && b == 92)
    | _ => false))) || (!win && p.head? == some 47)

/-- `base/fs/m_fs_path.c:113-119`, `M_fs_path_get_system_sep`. -/
def sysSep (win : Bool) : UInt8 := if win then 92 else 47

/-- `base/list/m_list_str.c:240-262`, `M_list_str_split` without empty parts. -/
def listSplit (d : UInt8) (s : List UInt8) : Option (List (List UInt8)) := (explode d s).map (·.filter (· ≠ []))

/-- `base/fs/m_fs_path.c:211-226`: the loop over the parts. -/
def splitAll : List (List UInt8) → List (List UInt8) → Option (List (List UInt8))
  | [], out => some out
  | x :: xs, out => if x = [] then splitAll xs out else (listSplit 92 x).bind fun ys => splitAll xs (out ++ ys.filter (· ≠ []))

/-- `base/fs/m_fs_path.c:194-236`, `M_fs_path_componentize_path`. -/
def componentize (win : Bool) (p : List UInt8) : Option (List (List UInt8)) :=
  (listSplit 47 p).bind fun l1 => (splitAll l1 []).map fun l3 =>
    if (win = false ∧ isAbs win p = true) ∨ (win = true ∧ isUnc p = true) then [] :: l3 else l3

/-- `base/list/m_list_str.c:274-304`, `M_list_str_join_range` on the whole list. -/
def listJoin (sep : UInt8) : List (List UInt8) → List UInt8
  | [] => []
  | [x] => x
  | x :: y :: r => x ++ [sep] ++ listJoin sep (y :: r)

/-- `base/fs/m_fs_path.c:240-301`, `M_fs_path_join_parts`; `none` is the null pointer. -/
def joinParts (win : Bool) : List (List UInt8) → Option (List UInt8)
  | [] => none
  | h :: t =>
    let parts := h :: t.filter (· ≠ [])
    if parts.length = 1 ∧ h = [] then some (if win then [92, 92] else [47])
    else
      let parts := if win then
        (if h = [] then List.replicate (if parts.length = 1 then 2 else 1) [] ++ parts
         else if isAbs win h = true ∧ parts.length = 1 then [h, []] else parts)
        else parts
      some (listJoin (sysSep win) parts)

/-- `base/fs/m_fs_path.c:324-349`, `M_fs_path_join`; a null pointer is an empty string here, except for the answer. -/
def pathJoin (win : Bool) (p1 p2 : List UInt8) : List UInt8 :=
  if isAbs win p2 then p2
  else p1 ++ (if p1 ≠ [] ∧ p2 ≠ [] ∧ p1.getLast? ≠ some (sysSep win) then [sysSep win] else []) ++ p2

/-- `base/fs/m_fs_path.c:43-95`, `M_fs_path_split`: directory and name, each may be null. -/
def split (win : Bool) (p : List UInt8) : Option (Option (List UInt8) × Option (List UInt8)) :=
  if p = [] then some (some [46], none)
  else (componentize win p).map fun parts =>
    let temp := parts.getLast?
    let parts := parts.dropLast
    let (parts, temp) := if parts.length = 0 ∧ isAbs win p = true then (parts ++ temp.toList, none) else (parts, temp)
    let temp := if temp = some [] then none else temp
    (joinParts win parts, temp)

/-- `base/fs/m_fs_path.c:556-562`, `M_fs_path_dirname`. -/
def dirname (win : Bool) (p : List UInt8) : Option (Option (List UInt8)) := (split win p).map (·.1)

/-- `base/fs/m_fs_path.c:564-570`, `M_fs_path_basename`. -/
def basename (win : Bool) (p : List UInt8) : Option (Option (List UInt8)) := (split win p).map (·.2)

/-- The errors of `M_fs_error_t` that occur here. -/
inductive Err where
  | invalid
  | nametoolong
  | generic
  | linkLoop
  | sys
deriving DecidableEq

/-- The answer of `M_fs_path_norm`; `ub` is a store outside the memory. -/
inductive Res where
  | ok (out : List UInt8)
  | err (e : Err)
  | ub
deriving DecidableEq

/-- The flags of `M_fs_path_norm_t` that are looked at here. -/
structure Flags where
  absolute : Bool
  follow : Bool
  home : Bool
  noParent : Bool

/-- What `M_fs_path_readlink_int` answers, `base/fs/m_fs_path.c:388-442`: an error, no link, or the text of the link. -/
inductive Link where
  | err
  | none
  | to (target : List UInt8)

/-- What is asked of the system: the variables of the environment, the home directory, the current directory, links (with the flag
`last`), and the limit of the length (`base/fs/m_fs_path.c:123-148`). -/
structure Sys where
  env : List UInt8 → Option (List UInt8)
  home : Option (List UInt8)
  cwd : Option (List UInt8)
  readlink : List UInt8 → Bool → Link
  pathMax : Nat

/-- `base/fs/m_fs_path_norm.c:52-82`, `M_fs_path_norm_sep`. -/
def normSep (win : Bool) (max : Nat) (p : List UInt8) : Option (List UInt8) :=
  if p.length ≥ max then none else some (p.map fun c => if win = true ∧ c = 47 then sysSep win else c)

/-- `base/fs/m_fs_path_norm.c:124-203`: the loop that puts in the values of the variables; `none` if one is not set. -/
def expandLoop (env : List UInt8 → Option (List UInt8)) : List (List UInt8) → Option (List (List UInt8))
  | [] => some []
  | d :: ds =>
    let name : Option (List UInt8) :=
      if d.head? = some 36 then some d.tail
      else if d.length ≥ 2 ∧ d.head? = some 37 ∧ d.getLast? = some 37 then some (d.tail.take (d.length - 2))
      else none
    match name with
    | none => (expandLoop env ds).map (d :: ·)
    | some n =>
      if n = [] then expandLoop env ds
      else (env n).bind fun v => (expandLoop env ds).map fun r => if v ≠ [] then v :: r else r

/-- `base/fs/m_fs_path_norm.c:84-206`, `M_fs_path_norm_expand_env_vars`. -/
def expandEnv (env : List UInt8 → Option (List UInt8)) (dirs : List (List UInt8)) : Option (List (List UInt8)) :=
  if dirs.length < 1 then none
  else if dirs.any (fun d => d.head? == some 36 || d.head? == some 37) then expandLoop env dirs
  else some dirs

/-- `base/fs/m_fs_path_norm.c:209-292`, `M_fs_path_norm_home`: the outer `none` is a store outside the memory, the inner one failure. -/
def normHome (win : Bool) (home : Option (List UInt8)) (dirs : List (List UInt8)) : Option (Option (List (List UInt8))) :=
  if dirs.length < 1 then some none
  else if dirs.head? = some [126] then
    match home with
    | none => some none
    | some h => (componentize win h).map fun t => some (t ++ dirs.tail)
  else some (some dirs)

/-- `base/fs/m_fs_path_norm.c:295-344`, `M_fs_path_norm_abs`. -/
def normAbs (win : Bool) (cwd : Option (List UInt8)) (dirs : List (List UInt8)) : Option (Option (List (List UInt8))) :=
  match dirs with
  | [] => some none
  | d :: _ =>
    if d = [] ∨ (win = true ∧ isAbs win d = true) then some (some dirs)
    else match cwd with
      | none => some none
      | some c => (componentize win c).map fun t => some (t ++ dirs)

/-- `base/fs/m_fs_path_norm.c:347-377`, `M_fs_path_norm_remove_parent`. -/
def removeParent (win : Bool) (dirs : List (List UInt8)) : List (List UInt8) :=
  match dirs.getLast? with
  | none => dirs ++ [[46, 46]]
  | some last =>
    if (win = true ∧ isAbs win last = true) ∨ last = [] then dirs
    else if last = [46, 46] then dirs ++ [[46, 46]]
    else dirs.dropLast

/-- `base/fs/m_fs_path_norm.c:489-538`, `M_fs_path_norm_symlink`; `again` is the call of `M_fs_path_norm_int`.  `some none` means that
there is no link. -/
def normLink (win : Bool) (sys : Sys) (again : List UInt8 → Res) (base parts : List (List UInt8)) : Option (Option Res) :=
  if base.length = 0 then some (some (.err .generic))
  else match joinParts win base with
    | none => some (some (.err .invalid))
    | some path =>
      match sys.readlink path (parts.length == 0) with
      | .err => some (some (.err .sys))
      | .none => some none
      | .to t =>
        let base := if isAbs win t then [] else base.dropLast
        (componentize win t).map fun ct =>
          match joinParts win (base ++ ct ++ parts) with
          | none => some (.err .invalid)
          | some p => some (again p)

/-- `base/fs/m_fs_path_norm.c:442-466`: the loop that moves the parts. -/
def normLoop (win : Bool) (fl : Flags) (follow : Bool) (sys : Sys) (again : List UInt8 → Res) : List (List UInt8) → List (List UInt8) → List (List UInt8) ⊕ Res
  | [], base => .inl base
  | s :: parts, base =>
    if fl.noParent = false ∧ s = [46, 46] then normLoop win fl follow sys again parts (removeParent win base)
    else if s ≠ [46] then
      if follow then
        match normLink win sys again (base ++ [s]) parts with
        | none => .inr .ub
        | some none => normLoop win fl follow sys again parts (base ++ [s])
        | some (some r) => .inr r
      else normLoop win fl follow sys again parts (base ++ [s])
    else normLoop win fl follow sys again parts base

/-- `base/fs/m_fs_path_norm.c:379-483`, `M_fs_path_norm_int`.  The first argument is `MAX_REDIRECTS` less the number of paths seen. -/
def normInt (win : Bool) (sys : Sys) : Nat → Flags → List (List UInt8) → List UInt8 → Res
  | n, fl, seen, p =>
    if p = [] then .err .invalid
    else match n with
    | 0 => .err .linkLoop
    | n + 1 =>
      if p ∈ seen then .err .linkLoop
      else match normSep win sys.pathMax p with
        | none => .err .nametoolong
        | some temp =>
          let fl' := if win = true ∧ isUnc temp = true then { fl with follow := false } else fl
          match componentize win temp with
          | none => .ub
          | some parts =>
            match expandEnv sys.env parts with
            | none => .err .generic
            | some parts =>
              match (if fl'.home then normHome win sys.home parts else some (some parts)) with
              | none => .ub
              | some none => .err .generic
              | some (some parts) =>
                match (if fl'.absolute then normAbs win sys.cwd parts else some (some parts)) with
                | none => .ub
                | some none => .err .generic
                | some (some parts) =>
                  match normLoop win fl' fl'.follow sys (normInt win sys n fl' (p :: seen)) parts [] with
                  | .inr r => r
                  | .inl base =>
                    match joinParts win base with
                    | none => .ok [46]
                    | some out => .ok out

/-- `base/fs/m_fs_path_norm.c:542-551`, `M_fs_path_norm`; `MAX_REDIRECTS` is at 42. -/
def norm (win : Bool) (sys : Sys) (fl : Flags) (p : List UInt8) : Res := normInt win sys 25 fl [] p

end Verif.FsPath
