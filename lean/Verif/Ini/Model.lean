import Verif.Str.Model
/- Model of the INI files, `formats/ini/*.c`.  Strings are lists of bytes without NUL, `none` is the null pointer.  The hash
tables (`M_hash_strvp_t`, `M_hash_dict_t`, both ignoring case) are lists of pairs in the order of insertion (C10 and C11 are about
the tables themselves); the two kinds of lists (`M_list_str_t`, `M_ini_elements_t`) are lists.  `char` is signed, so a byte
from 128 on never equals one of the chosen characters (`Str.ceq`).  Memory is not modelled except where a write or read outside an
array is possible (`explode`).  Not modelled: destruction, the functions on files, renaming, removing sections. -/
namespace Verif.Ini
open Verif.Chr Verif.Str

/-- `M_ini_dupkvs_t`, `include/mstdlib/formats/m_ini.h:118-124`. -/
inductive Dup
  | commentPrev | removePrev | comment | remove | collect
deriving DecidableEq, Repr

/-- `M_ini_multivals_t`, `include/mstdlib/formats/m_ini.h:139-146`. -/
inductive Multi
  | useLast | useFirst | keepExisting | maintainOrder
deriving DecidableEq, Repr

/-- `struct M_ini_settings`, `formats/ini/m_ini_settings.c:31-51`, without the merger. -/
structure Settings where
  delim : UInt8
  quote : UInt8
  escape : UInt8
  comment : UInt8
  kv : UInt8
  padBefore : Bool
  padAfter : Bool
  padVal : Bool
  padComment : Bool
  dup : Dup
  multi : Multi
  ending : Option (List UInt8)
deriving DecidableEq, Repr

/-- `M_ini_settings_create`, `formats/ini/m_ini_settings.c:55-66`. -/
def defaults : Settings := ⟨10, 0, 0, 35, 61, false, false, false, false, .commentPrev, .useLast, none⟩

/-- `struct M_ini_element`, `formats/ini/m_ini_element.c:32-49`. -/
inductive Elem
  | comment (val : List UInt8)
  | empty
  | section (name : List UInt8) (comment : Option (List UInt8))
  | kv (key : List UInt8) (val comment : Option (List UInt8))
deriving DecidableEq, Repr

/-! ## Names -/

/-- `M_ini_whitespace_chars`, `formats/ini/m_ini.c:32-38`. -/
def isWs (c : UInt8) : Bool := c = 32 ∨ c = 95 ∨ c = 45 ∨ c = 9

/-- `formats/ini/m_ini.c:40-62`, `M_ini_delete_whitespace`.  The character that is moved to the place of a removed one is not
looked at. -/
def deleteWs : List UInt8 → List UInt8
  | [] => []
  | [c] => if isWs c then [] else [c]
  | c :: d :: t => if isWs c then d :: deleteWs t else c :: deleteWs (d :: t)

/-- `formats/ini/m_ini.c:64-71`, `M_ini_internal_key`. -/
def intKey (ign : Bool) (k : List UInt8) : List UInt8 := if ign then deleteWs k else k

/-- `formats/ini/m_ini.c:75-93`, `M_ini_full_key`, of a key. -/
def fullKey (sec : Option (List UInt8)) (key : List UInt8) : List UInt8 :=
  match sec with
  | none => key
  | some s => s ++ [47] ++ key

/-- `formats/ini/m_ini.c:95-125`, `M_ini_split_key`. -/
def splitKey (s : List UInt8) : Option (List UInt8) × Option (List UInt8) :=
  if s = [] then (none, none)
  else if (47 : UInt8) ∉ s then (none, some s)
  else
    let sec := s.takeWhile (· ≠ 47)
    let key := s.drop (sec.length + 1)
    (some sec, if key = [] then none else some key)

/-! ## Tables that ignore case -/

/-- Keys are compared without case. -/
def fold (k : List UInt8) : List UInt8 := k.map toLower

/-- `M_hash_strvp_get`, `M_hash_dict_get`. -/
def look {α : Type} (m : List (List UInt8 × α)) (k : List UInt8) : Option α :=
  (m.find? (fun p => decide (fold p.1 = fold k))).map (·.2)

/-- The value of a key that is there is replaced. -/
def upd {α : Type} (m : List (List UInt8 × α)) (k : List UInt8) (v : α) : List (List UInt8 × α) :=
  m.map (fun p => if fold p.1 = fold k then (p.1, v) else p)

/-- `M_hash_strvp_insert`, `base/hash/m_hash_strvp.c:106-113`, and `M_hash_dict_insert`, `base/hash/m_hash_dict.c:120-127`: an
empty key is refused. -/
def ins {α : Type} (m : List (List UInt8 × α)) (k : List UInt8) (v : α) : List (List UInt8 × α) :=
  if k = [] then m else if (look m k).isSome then upd m k v else m ++ [(k, v)]

/-- `M_hash_strvp_remove`, `M_hash_dict_remove`. -/
def del {α : Type} (m : List (List UInt8 × α)) (k : List UInt8) : List (List UInt8 × α) :=
  m.filter (fun p => decide (fold p.1 ≠ fold k))

/-! ## The values -/

/-- `struct M_ini_kvs`, `formats/ini/m_ini_kvs.c:36-41`, without the count of entries. -/
structure Kvs where
  dict : List (List UInt8 × List (Option (List UInt8)))
  keys : List (List UInt8)
deriving DecidableEq, Repr

/-- `formats/ini/m_ini_kvs.c:71-81`. -/
def Kvs.create : Kvs := ⟨[], []⟩

/-- `formats/ini/m_ini_kvs.c:100-105`. -/
def Kvs.has (d : Kvs) (k : List UInt8) : Bool := (look d.dict k).isSome

/-- `formats/ini/m_ini_kvs.c:55-61`, `M_ini_kvs_ensure_key`: whether the table took the key is not looked at. -/
def Kvs.ensure (d : Kvs) (k : List UInt8) : Kvs :=
  if d.has k then d else ⟨ins d.dict k [], d.keys ++ [k]⟩

/-- `formats/ini/m_ini_kvs.c:145-160`. -/
def Kvs.insert (d : Kvs) (k : List UInt8) (v : Option (List UInt8)) : Bool × Kvs :=
  let d := d.ensure k
  match look d.dict k with
  | none => (false, d)
  | some vs => (true, { d with dict := upd d.dict k (vs ++ [v]) })

/-- `formats/ini/m_ini_kvs.c:184-205`. -/
def Kvs.removeAll (d : Kvs) (k : List UInt8) : Kvs := { d with dict := upd d.dict k [] }

/-- `formats/ini/m_ini_kvs.c:137-143`. -/
def Kvs.set (d : Kvs) (k : List UInt8) (v : Option (List UInt8)) : Bool × Kvs := (d.removeAll k).insert k v

/-- `formats/ini/m_ini_kvs.c:162-182`. -/
def Kvs.removeAt (d : Kvs) (k : List UInt8) (i : Nat) : Bool × Kvs :=
  match look d.dict k with
  | none => (false, d)
  | some vs => if i < vs.length then (true, { d with dict := upd d.dict k (vs.eraseIdx i) }) else (false, d)

/-- `formats/ini/m_ini_kvs.c:207-219`. -/
def Kvs.len (d : Kvs) (k : List UInt8) : Nat := ((look d.dict k).getD []).length

/-- `formats/ini/m_ini_kvs.c:221-241`: whether there is such a value, and it. -/
def Kvs.get (d : Kvs) (k : List UInt8) (i : Nat) : Option (Option (List UInt8)) := ((look d.dict k).getD [])[i]?

/-- `M_list_str_remove_val` with `M_LIST_STR_MATCH_VAL`: the first match. -/
def dropKey (k : List UInt8) : List (List UInt8) → List (List UInt8)
  | [] => []
  | x :: xs => if fold x = fold k then xs else x :: dropKey k xs

/-- `formats/ini/m_ini_kvs.c:253-260`. -/
def Kvs.remove (d : Kvs) (k : List UInt8) : Bool × Kvs :=
  if d.keys.any (fun x => decide (fold x = fold k)) then (d.has k, ⟨del d.dict k, dropKey k d.keys⟩) else (false, d)

/-- `formats/ini/m_ini_kvs.c:302-332`, `M_ini_kvs_enumerate_next`, until it returns false: one entry per value, one with a null
pointer for a key without values; as many keys as the table has. -/
def Kvs.enum (d : Kvs) : List (List UInt8 × Option (List UInt8)) :=
  (d.keys.take d.dict.length).flatMap fun k =>
    match look d.dict k with
    | some (v :: vs) => (v :: vs).map (fun v => (k, v))
    | _ => [(k, none)]

/-- `formats/ini/m_ini_kvs.c:362-381`, `M_ini_kvs_duplicate`. -/
def Kvs.duplicate (d : Kvs) : Kvs := d.enum.foldl (fun o p => (o.insert p.1 p.2).2) Kvs.create

/-! ## The INI object -/

/-- `struct M_ini`. -/
structure Ini where
  elements : List Elem
  sections : List (List UInt8 × List Elem)
  kvs : Kvs
  lookup : List (List UInt8 × List UInt8)
  ign : Bool
deriving DecidableEq, Repr

/-- `formats/ini/m_ini.c:135-147`, `M_ini_create`. -/
def create (ign : Bool) : Ini := ⟨[], [], Kvs.create, [], ign⟩

/-- `formats/ini/m_ini.c:555-568`, `M_ini_kv_get`: whether there is such a value, and it. -/
def kvGet (ini : Ini) (k : List UInt8) (i : Nat) : Option (Option (List UInt8)) := ini.kvs.get (intKey ini.ign k) i

/-- `formats/ini/m_ini.c:200-210`, `M_ini_kv_has_key`. -/
def kvHas (ini : Ini) (k : List UInt8) : Bool := (kvGet ini (intKey ini.ign k) 0).isSome

/-- `formats/ini/m_ini.c:536-553`, `M_ini_kv_len`. -/
def kvLen (ini : Ini) (k : List UInt8) : Nat := ini.kvs.len (intKey ini.ign k)

/-- `formats/ini/m_ini.c:579-595`, `M_ini_kv_get_vals`: the values, of a key that is not empty. -/
def kvVals (ini : Ini) (k : List UInt8) : List (Option (List UInt8)) :=
  (List.range (kvLen ini k)).map fun i => (kvGet ini k i).getD none

/-- A key that names a section or nothing, `formats/ini/m_ini.c:434`, `:498`. -/
def badKey (k : List UInt8) : Bool := k = [] ∨ k.getLast? = some 47

/-- `formats/ini/m_ini.c:450-465`: the names of a new key. -/
def addNames (ini : Ini) (key : List UInt8) : List (List UInt8 × List UInt8) :=
  let l := match (splitKey key).2 with
    | some k => ins ini.lookup (intKey ini.ign key) k
    | none => ini.lookup
  match (splitKey key).1 with
  | some s => if s ≠ [] ∧ (look l (fullKey (some s) [])).isNone then ins l (intKey ini.ign (fullKey (some s) [])) s else l
  | none => l

/-- `formats/ini/m_ini.c:425-470`, `M_ini_kv_insert_int`, around one of the three functions. -/
def kvPut (ini : Ini) (key : List UInt8) (f : Kvs → List UInt8 → Bool × Kvs) : Bool × Ini :=
  if badKey key then (false, ini)
  else
    let r := f ini.kvs (intKey ini.ign key)
    let ini' := { ini with kvs := r.2 }
    if r.1 = true ∧ (look ini.lookup (intKey ini.ign key)).isNone then (true, { ini' with lookup := addNames ini' key })
    else (r.1, ini')

/-- `formats/ini/m_ini.c:477-480`. -/
def kvSet (ini : Ini) (key : List UInt8) (v : Option (List UInt8)) : Bool × Ini := kvPut ini key (fun d k => d.set k v)

/-- `formats/ini/m_ini.c:482-485`. -/
def kvInsert (ini : Ini) (key : List UInt8) (v : Option (List UInt8)) : Bool × Ini := kvPut ini key (fun d k => d.insert k v)

/-- `formats/ini/m_ini.c:472-475` with `formats/ini/m_ini_kvs.c:129-135`. -/
def kvAddKey (ini : Ini) (key : List UInt8) : Bool × Ini := kvPut ini key (fun d k => (true, d.ensure k))

/-- `formats/ini/m_ini.c:493-534`, `M_ini_kv_remove`. -/
def kvRemove (ini : Ini) (key : List UInt8) : Bool × Ini :=
  if badKey key then (false, ini)
  else
    let r := ini.kvs.remove (intKey ini.ign key)
    if r.1 then (true, { ini with kvs := r.2, lookup := del ini.lookup (intKey ini.ign key) }) else (false, { ini with kvs := r.2 })

/-- `formats/ini/m_ini.c:493-534`, `M_ini_kv_remove_vals`. -/
def kvRemoveVals (ini : Ini) (key : List UInt8) : Bool × Ini :=
  if badKey key then (false, ini) else (true, { ini with kvs := ini.kvs.removeAll (intKey ini.ign key) })

/-- `formats/ini/m_ini.c:493-534`, `M_ini_kv_remove_val_at`. -/
def kvRemoveAt (ini : Ini) (key : List UInt8) (i : Nat) : Bool × Ini :=
  if badKey key then (false, ini)
  else
    let r := ini.kvs.removeAt (intKey ini.ign key) i
    (r.1, { ini with kvs := r.2 })

/-- `formats/ini/m_ini.c:149-175`, `M_ini_duplicate`. -/
def duplicate (ini : Ini) : Ini := { ini with kvs := ini.kvs.duplicate }

/-- `formats/ini/m_ini.c:212-252`, `M_ini_kv_keys` (the null pointer for an empty table is the empty list). -/
def kvKeys (ini : Ini) : List (List UInt8) :=
  (ini.lookup.filter fun p => decide (p.1.getLast? ≠ some 47)).map fun p =>
    fullKey ((splitKey p.1).1.bind fun s => look ini.lookup (fullKey (some s) [])) p.2

/-- A list of elements: that of the file, that of a section, or the null pointer. -/
inductive Where
  | root
  | sec (key : List UInt8)
  | null
deriving DecidableEq, Repr

/-- `formats/ini/m_ini.c:623-658`, `M_ini_section_get` and `M_ini_section_get_direct`. -/
def secGet (ini : Ini) (name : List UInt8) : Where :=
  if name = [] ∨ name = [47] then .root
  else if (look ini.sections (intKey ini.ign name)).isSome then .sec (intKey ini.ign name) else .null

/-- `formats/ini/m_ini.c:597-621`, `M_ini_section_insert`. -/
def secInsert (ini : Ini) (name : List UInt8) : Ini :=
  if name = [] then ini
  else if (look ini.sections (intKey ini.ign name)).isSome then ini
  else { ini with sections := ins ini.sections (intKey ini.ign name) [], lookup := ins ini.lookup (intKey ini.ign (fullKey (some name) [])) name }

/-- The elements of a list. -/
def elems (ini : Ini) : Where → List Elem
  | .root => ini.elements
  | .sec k => (look ini.sections k).getD []
  | .null => []

/-- Other elements for a list. -/
def setElems (ini : Ini) (w : Where) (es : List Elem) : Ini :=
  match w with
  | .root => { ini with elements := es }
  | .sec k => { ini with sections := upd ini.sections k es }
  | .null => ini

/-! ## Writing one element -/

/-- `formats/ini/m_ini_writer.c:32-43`. -/
def lineEnd (st : Settings) : List UInt8 := st.ending.getD [st.delim]

/-- The blank behind a comment character, `formats/ini/m_ini_writer.c:314-315`, `:349-351`, `:483-485`. -/
def commentPad (st : Settings) (v : List UInt8) : List UInt8 :=
  if st.padComment = true ∧ (v.head?.any isSpace) = false then [32] else []

/-- A comment behind a value or a section, `formats/ini/m_ini_writer.c:343-353`, `:477-487`. -/
def tailComment (st : Settings) : Option (List UInt8) → List UInt8
  | none => []
  | some v => (if st.padVal then [32] else []) ++ [st.comment] ++ commentPad st v ++ v

/-- A value, `formats/ini/m_ini_writer.c:470-474`: `M_buf_add_str` stops at a NUL. -/
def valText (st : Settings) (v : List UInt8) : List UInt8 :=
  ((quoteIf v st.quote st.escape st.delim).getD v).takeWhile (· ≠ 0)

/-- `formats/ini/m_ini_writer.c:461-475`. -/
def valPart (st : Settings) : Option (List UInt8) → List UInt8
  | none => []
  | some v => (if st.padBefore then [32] else []) ++ [st.kv] ++ (if st.padAfter then [32] else []) ++ valText st v

/-- `formats/ini/m_ini_writer.c:449-490`, `M_ini_writer_write_element_kv`. -/
def writeKv (st : Settings) (key : Option (List UInt8)) (val comment : Option (List UInt8)) : List UInt8 :=
  match key with
  | none => []
  | some k => if k = [] then [] else k ++ valPart st val ++ tailComment st comment ++ lineEnd st

/-- `formats/ini/m_ini_writer.c:305-376`, `M_ini_writer_write_element`: `key` is the name to print. -/
def writeElem (st : Settings) (key : Option (List UInt8)) : Elem → List UInt8
  | .comment v => [st.comment] ++ commentPad st v ++ v ++ lineEnd st
  | .empty => lineEnd st
  | .section _ c => match key with
    | none => []
    | some k => if k = [] then [] else [91] ++ k ++ [93] ++ tailComment st c ++ lineEnd st
  | .kv _ v c => writeKv st key v c

/-- `formats/ini/m_ini_element.c:243-261`, `M_ini_element_kv_to_comment`: the last byte is cut off. -/
def kvToComment (st : Settings) : Elem → Elem
  | .kv k v c => .comment (writeKv st (some k) v c).dropLast
  | e => e

/-! ## Reading -/

/-- `formats/ini/m_ini_reader.c:66-80` (and 105-119): what the loops do with a character, by the character in front of it and the
one behind it. -/
def step (st : Settings) (prev : Option UInt8) (onq onc : Bool) (c next : UInt8) : QStep :=
  if st.quote ≠ 0 ∧ ceq c st.quote ∧ onc = false then
    if st.quote = st.escape ∧ ceq next st.quote then .skip2
    else if st.quote ≠ st.escape ∧ prev.any (ceq · st.escape) then .skip
    else .go (!onq)
  else .go onq

/-- The loop of `formats/ini/m_ini_reader.c:61-92`, and of 98-133 when `z`: the second one overwrites the delimiters.  `cur` is the
line so far; the last line counts if it has a character. -/
def walk (st : Settings) (z : Bool) : List UInt8 → Option UInt8 → Bool → Bool → List UInt8 → List (List UInt8)
  | [], _, _, _, cur => if cur = [] then [] else [cur]
  | [c], prev, onq, onc, cur =>
    match step st prev onq onc c 0 with
    | .go onq => if ceq c st.delim ∧ onq = false then [cur] else [cur ++ [c]]
    | _ => [cur ++ [c]]
  | c :: d :: r, prev, onq, onc, cur =>
    match step st prev onq onc c d with
    | .skip2 => walk st z r (some d) onq onc (cur ++ [c, d])
    | .skip => walk st z (d :: r) (some c) onq onc (cur ++ [c])
    | .go onq =>
      let onc := onc || (st.comment ≠ 0 ∧ ceq c st.comment ∧ onq = false)
      if ceq c st.delim ∧ onq = false then cur :: walk st z (d :: r) (some (if z then 0 else c)) onq false []
      else walk st z (d :: r) (some c) onq onc (cur ++ [c])

/-- `formats/ini/m_ini_reader.c:33-140`, `M_ini_explode_lines`: the array has as many slots as the first loop counted; when the
second loop needs more it writes outside, when it needs less the reader uses slots that were never set. -/
def explode (st : Settings) (s : List UInt8) : Option (List (List UInt8)) :=
  if s = [] then some []
  else if (walk st true s none false false []).length = (walk st false s none false false []).length then
    some (walk st true s none false false [])
  else none

/-- `formats/ini/m_ini_reader.c:172-191`, `M_ini_reader_parse_comment`. -/
def parseComment (line : List UInt8) : Elem := .comment (line.drop 1)

/-- `formats/ini/m_ini_reader.c:195-256`, `M_ini_reader_parse_section`; `none` is the failure. -/
def parseSection (st : Settings) (line : List UInt8) : Option Elem :=
  let s := line.drop 1
  let name := s.takeWhile (fun c => !(ceq c st.comment || decide (c = 93)))
  let rest := s.drop name.length
  match rest with
  | [] => none
  | c :: _ =>
    if ceq c st.comment then none
    else
      let tail := rest.dropWhile (fun c => !(ceq c st.comment))
      some (.section (trim name) (match tail with | [] => none | _ :: t => some (trim t)))

/-- `formats/ini/m_ini_reader.c:305-323`: the value and the comment. -/
def kvOf (st : Settings) (k : List UInt8) : Option (Nat × List (List UInt8)) → Option Elem
  | none => none
  | some (_, []) => some (.kv k (some []) none)
  | some (_, [v]) => some (.kv k (some (unquote v st.quote st.escape)) none)
  | some (_, v :: c :: _) => some (.kv k (some (unquote v st.quote st.escape)) (some (trim c)))

/-- `formats/ini/m_ini_reader.c:258-324`, `M_ini_reader_parse_kv`.  `none` would be an access outside the arrays of
`M_str_explode_str_quoted`. -/
def parseKv (st : Settings) (line : List UInt8) : Option Elem :=
  let k := line.takeWhile (fun c => !(ceq c st.kv || ceq c st.comment))
  match line.drop k.length with
  | [] => some (.kv (trim k) none none)
  | c :: r =>
    if ceq c st.comment then some (.kv (trim k) none (some r))
    else kvOf st (trim k) (explodeQ st.comment st.quote st.escape 2 r)

/-- `formats/ini/m_ini_reader.c:326-371`, `M_ini_reader_parse_line`, with 152-168: `none` is an access outside an array, `some none`
the failure. -/
def parseLine (st : Settings) (s : List UInt8) : Option (Option Elem) :=
  match trim s with
  | [] => some (some .empty)
  | c :: l =>
    if c = st.comment then some (some (parseComment (c :: l)))
    else if c = 91 then some (parseSection st (c :: l))
    else (parseKv st (c :: l)).map some

/-- `formats/ini/m_ini_reader.c:391-411`, `M_ini_reader_parse_str_handle_section`. -/
def handleSection (ini : Ini) (secName name : List UInt8) (comment : Option (List UInt8)) : Ini :=
  if secGet ini name ≠ .null then ini
  else
    let i := secInsert ini name
    { i with elements := i.elements ++ [.section secName comment] }

/-- The search of `formats/ini/m_ini_reader.c:453-466`: the first element with this very key is changed or removed. -/
def markPrev (st : Settings) (key : List UInt8) : List Elem → List Elem
  | [] => []
  | .kv k v c :: es =>
    if k = key then (if st.dup = .commentPrev then kvToComment st (.kv k v c) :: es else es) else .kv k v c :: markPrev st key es
  | e :: es => e :: markPrev st key es

/-- `formats/ini/m_ini_reader.c:453-466`: the earlier element of a key. -/
def markDup (st : Settings) (ini : Ini) (w : Where) (ik : List UInt8) (isDup : Bool) : Ini :=
  if isDup ∧ (st.dup = .commentPrev ∨ st.dup = .removePrev) then setElems ini w (markPrev st ik (elems ini w)) else ini

/-- `formats/ini/m_ini_reader.c:419-495`, `M_ini_reader_parse_str_handle_kv`: the object, and the element to add. -/
def handleKv (st : Settings) (ini : Ini) (sec : Option (List UInt8)) (w : Where) (key : List UInt8) (val comment : Option (List UInt8)) : Ini × Option Elem :=
  let ik := intKey ini.ign key
  let fk := fullKey sec ik
  let i1 := { ini with lookup := if (look ini.lookup fk).isSome then ini.lookup else ins ini.lookup fk key }
  let isDup := kvHas i1 fk
  let i2 := markDup st i1 w ik isDup
  let e := if isDup ∧ st.dup = .comment then some (kvToComment st (.kv ik val comment))
    else if isDup ∧ st.dup = .remove then none else some (.kv ik val comment)
  ((if st.dup = .collect then (kvInsert i2 fk val).2 else (kvSet i2 fk val).2), e)

/-- What is known between two lines: the object, the name of the section, and its list. -/
structure RState where
  ini : Ini
  sec : Option (List UInt8)
  wh : Where
deriving DecidableEq, Repr

/-- `formats/ini/m_ini_reader.c:547-568`, one round of the loop, with the element of the line. -/
def readElem (st : Settings) (r : RState) (e : Elem) : RState :=
  match e with
  | .section name c =>
    let sn := intKey r.ini.ign name
    let i := handleSection r.ini sn name c
    ⟨i, some sn, secGet i sn⟩
  | .kv k v c =>
    let h := handleKv st r.ini r.sec r.wh k v c
    match h.2 with
    | some e => { r with ini := setElems h.1 r.wh (elems h.1 r.wh ++ [e]) }
    | none => { r with ini := h.1 }
  | e => { r with ini := setElems r.ini r.wh (elems r.ini r.wh ++ [e]) }

/-- The loop; `none` is an access outside an array, `some none` a line that cannot be read. -/
def readLines (st : Settings) : List (List UInt8) → RState → Option (Option RState)
  | [], r => some (some r)
  | l :: ls, r => match parseLine st l with
    | none => none
    | some none => some none
    | some (some e) => readLines st ls (readElem st r e)

/-- `formats/ini/m_ini_reader.c:499-591`, `M_ini_reader_parse_str` and `M_ini_read`. -/
def read (st : Settings) (ign : Bool) (s : List UInt8) : Option (Option Ini) :=
  if s = [] then some none
  else match explode st s with
    | none => none
    | some ls => (readLines st ls ⟨create ign, none, .root⟩).map fun r => r.map (·.ini)

/-! ## Writing -/

/-- The values that remain to be written and the new element, `formats/ini/m_ini_writer.c:158-213`, for one element with its
full key; `none`: the element is removed. -/
def updateOne (st : Settings) (orig : Kvs) (kvs : Kvs) (fk : List UInt8) (key : List UInt8) (val comment : Option (List UInt8)) : Option Elem × Kvs :=
  if kvs.len fk = 0 then (none, (kvs.remove fk).2)
  else
    let r : Option Elem × Kvs :=
      if orig.len fk = 1 then (some (.kv key ((kvs.get fk 0).getD none) comment), (kvs.removeAt fk 0).2)
      else if st.multi = .useLast then (some (.kv key ((kvs.get fk (kvs.len fk - 1)).getD none) comment), kvs.removeAll fk)
      else if st.multi = .useFirst then (some (.kv key ((kvs.get fk 0).getD none) comment), kvs.removeAll fk)
      else if st.multi = .keepExisting then
        match ((look kvs.dict fk).getD []).findIdx? (fun v => decide (val.getD [] = v.getD [])) with
        | some j => (some (.kv key val comment), (kvs.removeAt fk j).2)
        | none => (none, kvs)
      else (none, kvs)
    if r.2.len fk = 0 then (r.1, (r.2.remove fk).2) else r

/-- `formats/ini/m_ini_writer.c:150-223`, one list of elements. -/
def updateList (st : Settings) (orig : Kvs) (sec : Option (List UInt8)) : List Elem → Kvs → List Elem × Kvs
  | [], kvs => ([], kvs)
  | .kv k v c :: es, kvs =>
    let r := updateOne st orig kvs (fullKey sec k) k v c
    let q := updateList st orig sec es r.2
    (match r.1 with | some e => e :: q.1 | none => q.1, q.2)
  | e :: es, kvs =>
    let q := updateList st orig sec es kvs
    (e :: q.1, q.2)

/-- The sections, in the order of the table. -/
def updateSecs (st : Settings) (orig : Kvs) : List (List UInt8 × List Elem) → Kvs → List (List UInt8 × List Elem) × Kvs
  | [], kvs => ([], kvs)
  | (k, es) :: ss, kvs =>
    let r := updateList st orig (some k) es kvs
    let q := updateSecs st orig ss r.2
    ((k, r.1) :: q.1, q.2)

/-- `formats/ini/m_ini_writer.c:130-226`, `M_ini_writer_tree_update_kv_vals`. -/
def updateVals (st : Settings) (ini : Ini) (kvs : Kvs) : Ini × Kvs :=
  let r := updateList st ini.kvs none ini.elements kvs
  let q := updateSecs st ini.kvs ini.sections r.2
  ({ ini with elements := r.1, sections := q.1 }, q.2)

/-- Where the first section is, `formats/ini/m_ini_writer.c:254-263`. -/
def firstSec : List Elem → Nat
  | [] => 0
  | .section _ _ :: _ => 0
  | _ :: es => firstSec es + 1

/-- `formats/ini/m_ini_writer.c:244-283`, one round: `idx` is `first_sect_idx` once it was looked for. -/
def addOne (ini : Ini) (idx : Option Nat) (fk : List UInt8) (v : Option (List UInt8)) : Ini × Option Nat :=
  let e := Elem.kv ((splitKey fk).2.getD []) v none
  match (splitKey fk).1 with
  | none =>
    let i := idx.getD (firstSec ini.elements)
    ({ ini with elements := ini.elements.take i ++ [e] ++ ini.elements.drop i }, some (i + 1))
  | some s =>
    match secGet ini s with
    | .null =>
      let n := secInsert ini s
      let n := { n with elements := n.elements ++ [.section s none] }
      (setElems n (secGet n s) (elems n (secGet n s) ++ [e]), idx)
    | w => (setElems ini w (elems ini w ++ [e]), idx)

/-- `formats/ini/m_ini_writer.c:228-286`, `M_ini_writer_tree_add_kv`. -/
def addAll : List (List UInt8 × Option (List UInt8)) → Ini → Option Nat → Ini
  | [], ini, _ => ini
  | (k, v) :: r, ini, idx =>
    let s := addOne ini idx k v
    addAll r s.1 s.2

/-- `formats/ini/m_ini_writer.c:63-94`, the elements that stay. -/
def pruneList (kvs : Kvs) (sec : Option (List UInt8)) (es : List Elem) : List Elem :=
  es.filter fun e => match e with
    | .kv k _ _ => kvs.has (fullKey sec k)
    | _ => true

/-- `formats/ini/m_ini_writer.c:46-61`, a list that has a key. -/
def hasKv (es : List Elem) : Bool := es.any fun e => match e with | .kv _ _ _ => true | _ => false

/-- `formats/ini/m_ini_writer.c:96-128`, `M_ini_writer_tree_prune`. -/
def prune (ini : Ini) : Ini :=
  { ini with elements := pruneList ini.kvs none ini.elements, sections := (ini.sections.map fun p => (p.1, pruneList ini.kvs (some p.1) p.2)).filter fun p => hasKv p.2 }

/-- `formats/ini/m_ini_writer.c:288-303`, `M_ini_writer_update_tree`. -/
def updateTree (st : Settings) (ini : Ini) : Ini :=
  let r := updateVals st ini ini.kvs.duplicate
  prune (addAll r.2.enum r.1 none)

/-- The name to print for a key of a list, `formats/ini/m_ini_writer.c:391-394`, `:425-431`. -/
def prettyKey (ini : Ini) (sec : Option (List UInt8)) : Elem → Option (List UInt8)
  | .kv k _ _ => look ini.lookup (fullKey sec k)
  | _ => none

/-- `formats/ini/m_ini_writer.c:378-398`, `M_ini_writer_write_section`. -/
def writeSection (st : Settings) (ini : Ini) (sec : List UInt8) : List UInt8 :=
  ((look ini.sections sec).getD []).flatMap fun e => writeElem st (prettyKey ini (some sec) e) e

/-- `formats/ini/m_ini_writer.c:400-445`, `M_ini_writer_tree_to_string`, over the elements of the file. -/
def treeText (st : Settings) (ini : Ini) : List Elem → Option (List UInt8) → List UInt8
  | [], _ => []
  | .section n c :: es, _ =>
    writeElem st (look ini.lookup (fullKey (some n) [])) (.section n c) ++ writeSection st ini n ++ treeText st ini es (some n)
  | e :: es, sec => writeElem st (prettyKey ini sec e) e ++ treeText st ini es sec

/-- `formats/ini/m_ini_writer.c:494-507`, `M_ini_write`: the text, and the object afterwards. -/
def write (st : Settings) (ini : Ini) : List UInt8 × Ini :=
  let i := updateTree st ini
  (treeText st i i.elements none, i)

end Verif.Ini
