import Verif.Ini.Model
/- Merging INI objects: `formats/ini/m_ini_merger.c`. -/
namespace Verif.IniMerge
open Verif.Ini

/-- A value: the null pointer for a key without one. -/
abbrev Val := Option (List UInt8)

/-- The part of the settings that the merger looks at, `formats/ini/m_ini_settings.c:48-49`.  The resolver is a function of its
three arguments: one that answers otherwise the second time is not modelled. -/
structure Rules where
  flags : UInt32
  resolver : Option (Option (List UInt8) → Val → Val → Bool)

/-- The condition of `formats/ini/m_ini_merger.c:107`, `:153` and `:226`: the callback, or the flag. -/
def useCur (r : Rules) (bit : UInt32) (key : Option (List UInt8)) (cur new : Val) : Bool :=
  (decide (r.flags = 0) && (match r.resolver with | some f => f key cur new | none => false)) || decide (r.flags &&& bit ≠ 0)

/-- `M_str_eq` of two values, `base/data/m_str.c:770-773`: the null pointer is the empty string. -/
def valEq (a b : Val) : Bool := decide (a.getD [] = b.getD [])

/-- `M_ini_kv_get_direct`, `formats/ini/m_ini.c:570-577`. -/
def direct (ini : Ini) (key : List UInt8) (i : Nat) : Val := (kvGet ini key i).getD none

/-- The loops of `formats/ini/m_ini_merger.c:81-84`, `:101-104` and `:108-111`: all values of a key are added. -/
def insertAll (m src : Ini) (key : List UInt8) : Ini :=
  (List.range (kvLen src key)).foldl (fun m j => (kvInsert m key (direct src key j)).2) m

/-- `formats/ini/m_ini_merger.c:35-55`, `M_ini_merger_create_merged_ini`: the lines of the new object, no values. -/
def createMerged (new : Ini) : Ini := { create new.ign with elements := new.elements, sections := new.sections }

/-- One round of the loop of `formats/ini/m_ini_merger.c:78-86`. -/
def keyNew (cur new orig m : Ini) (key : List UInt8) : Ini :=
  if (!kvHas cur key && !kvHas orig key) = true then insertAll m new key else m

/-- One round of the loop of `formats/ini/m_ini_merger.c:91-120`, without the list of keys to update. -/
def keyCur (r : Rules) (cur new orig m : Ini) (key : List UInt8) : Ini :=
  let inNew := kvHas new key
  let inOrig := kvHas orig key
  if ((!inNew && !inOrig) || (inNew && !inOrig)) = true then insertAll m cur key
  else if (!inNew && inOrig) = true then
    if useCur r 1 none (some key) none = true then insertAll m cur key else m
  else (kvAddKey m key).2

/-- `formats/ini/m_ini_merger.c:115-119`: the keys to update. -/
def updateKeys (cur new orig : Ini) : List (List UInt8) :=
  (kvKeys cur).filter fun key => kvHas new key && kvHas orig key

/-- `formats/ini/m_ini_merger.c:57-124`, `M_ini_merger_handle_keys`. -/
def handleKeys (r : Rules) (cur new orig m : Ini) : Ini :=
  (kvKeys cur).foldl (keyCur r cur new orig) ((kvKeys new).foldl (keyNew cur new orig) m)

/-- One round of `formats/ini/m_ini_merger.c:141-163`, `M_ini_merger_handle_single_vals`. -/
def single (r : Rules) (cur new orig m : Ini) (key : List UInt8) : Ini :=
  if kvLen cur key > 1 ∨ kvLen new key > 1 then m
  else
    let c := direct cur key 0
    let n := direct new key 0
    let o := direct orig key 0
    if (valEq c o && !valEq c n) = true then
      if useCur r 2 (some key) c n = true then (kvSet m key c).2 else (kvSet m key n).2
    else (kvSet m key c).2

/-- The list that `formats/ini/m_ini_merger.c:198-212` fills with the values of a key. -/
def cached (ini : Ini) (key : List UInt8) : List Val := (List.range (kvLen ini key)).map (direct ini key)

/-- `M_list_str_index_of` in such a list, `base/list/m_list.c:541-560`: the null pointer is never found; otherwise the comparison of
`base/data/m_str.c:719-724`, where a null pointer in the list is the empty string.  That the binary search in a sorted list finds
what is there is taken from the models of the list and of the search. -/
def found (l : List Val) (v : Val) : Bool := v.isSome && l.any (fun w => valEq w v)

/-- The values of `formats/ini/m_ini_merger.c:214-240`. -/
def mergedVals (r : Rules) (cur new orig : Ini) (key : List UInt8) : List Val :=
  ((List.range (kvLen cur key)).map (direct cur key)).filter (fun v =>
      let inNew := found (cached new key) v
      let inOrig := found (cached orig key) v
      inNew || (!inNew && !inOrig) || (!inNew && inOrig && useCur r 8 (some key) v none)) ++
    ((List.range (kvLen new key)).map (direct new key)).filter (fun v =>
      !found (cached cur key) v && !found (cached orig key) v)

/-- One round of `formats/ini/m_ini_merger.c:188-252`, `M_ini_merger_handle_multi_vals`. -/
def multi (r : Rules) (cur new orig m : Ini) (key : List UInt8) : Ini :=
  if kvLen cur key ≤ 1 ∧ kvLen new key ≤ 1 then m
  else (mergedVals r cur new orig key).foldl (fun m v => (kvInsert m key v).2) m

/-- `formats/ini/m_ini_merger.c:257-276`, `M_ini_merge`, of three objects. -/
def merge (r : Rules) (cur new orig : Ini) : Ini :=
  let ks := updateKeys cur new orig
  ks.foldl (multi r cur new orig) (ks.foldl (single r cur new orig) (handleKeys r cur new orig (createMerged new)))

end Verif.IniMerge
