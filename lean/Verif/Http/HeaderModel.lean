import Verif.Http.Model
/-! Model of the header fields of a message: `formats/http/m_http_header.c` and `formats/http/m_http_headers.c`.

Texts are lists of bytes without a zero; NULL and the empty text, which the functions do not tell apart, are `[]`.  A hash
table whose keys are ordered and compared without case is the list of its entries: an insertion under a key that exists
replaces the value and keeps the place and the key (`base/hash/m_hashtable.c:270-303`; C09 to C11 and C54 are about these tables).
Memory that is not freed is not modelled.  `none` is a write outside of an array in `M_str_explode`. -/
namespace Verif.Http
open Verif.Chr (toLower)

/-- Equality of the keys of a table with `M_HASH_DICT_CASECMP` or `M_HASH_STRVP_CASECMP`. -/
def same (a b : List UInt8) : Bool := a.map toLower == b.map toLower

/-- Insert into a table that is not multi-valued (`base/hash/m_hash_dict.c:120-127`, `base/hash/m_hash_strvp.c:106-113`): empty
keys are refused. -/
def tput {α : Type} (k : List UInt8) (v : α) (t : List (List UInt8 × α)) : List (List UInt8 × α) :=
  if k = [] then t
  else if t.any (fun e => same e.1 k) then t.map fun e => if same e.1 k then (e.1, v) else e
  else t ++ [(k, v)]

/-- Look up a key. -/
def tget {α : Type} (k : List UInt8) (t : List (List UInt8 × α)) : Option α := (t.find? fun e => same e.1 k).map (·.2)

/-- Remove a key. -/
def tdel {α : Type} (k : List UInt8) (t : List (List UInt8 × α)) : List (List UInt8 × α) := t.filter fun e => !same e.1 k

/-- `formats/http/m_http_header.c:29-32`, the value of a header. -/
structure HVal where
  value : List UInt8
  mods : List (List UInt8 × List UInt8)
deriving DecidableEq, Repr

/-- `formats/http/m_http_header.c:34-37`, `struct M_http_header`; the key of an entry of `values` is its value. -/
structure Header where
  key : List UInt8
  values : List HVal
deriving DecidableEq, Repr

/-- `base/list/m_list_str.c:306-339`, `M_list_str_join_range_str` of the whole list; `none` is NULL. -/
def joinStr (sep : List UInt8) : List (List UInt8) → Option (List UInt8)
  | [] => none
  | x :: xs => some (xs.foldl (fun out y => out ++ sep ++ y) x)

/-- `formats/http/m_http_header.c:98-108`: the text of a modifier. -/
def modText (m : List UInt8 × List UInt8) : List UInt8 := m.1 ++ if m.2 = [] then [] else 61 :: m.2

/-- `formats/http/m_http_header.c:80-115`, `M_http_header_value_string`. -/
def valueString (v : HVal) : Option (List UInt8) := joinStr [59, 32] (v.value :: v.mods.map modText)

/-- `formats/http/m_http_header.c:145-169`: one modifier in `M_http_header_split_value_and_modifiers`. -/
def addMod (ms : List (List UInt8 × List UInt8)) (part : List UInt8) : Option (List (List UInt8 × List UInt8)) :=
  match Str.explode 61 part with
  | none => none
  | some [] => some ms
  | some [k] => some (tput (Str.trim k) [] ms)
  | some (k :: v :: _) => some (tput (Str.trim k) (Str.trim v) ms)

/-- `formats/http/m_http_header.c:119-173`, `M_http_header_split_value_and_modifiers`; the inner `none` is false. -/
def splitValue (full : List UInt8) : Option (Option HVal) :=
  if full = [] then some none
  else
    match Str.explode 59 full with
    | none => none
    | some [] => some none
    | some (p :: ps) => (ps.foldlM addMod []).map fun ms => some ⟨Str.trim p, ms⟩

/-- `formats/http/m_http_header.c:230-241`: take a value into the table. -/
def addValue (vs : List HVal) (v : HVal) : List HVal :=
  if vs.any (fun e => same e.value v.value) then
    vs.map fun e => if same e.value v.value then { e with mods := v.mods.foldl (fun ms m => tput m.1 m.2 ms) e.mods } else e
  else if v.value = [] then vs
  else vs ++ [v]

/-- `formats/http/m_http_header.c:222-242`: the loop of `M_http_header_update`. -/
def addValues (vs : List HVal) (full : List UInt8) : Option (List HVal) :=
  match splitValue full with
  | none => none
  | some none => some vs
  | some (some v) => some (addValue vs v)

/-- `formats/http/m_http_header.c:207-246`, `M_http_header_update`. -/
def update (h : Header) (text : List UInt8) : Option (Bool × Header) :=
  if text = [] then some (false, h)
  else
    match splitVals h.key text with
    | none => none
    | some none => some (false, h)
    | some (some parts) => (parts.foldlM addValues h.values).map fun vs => (true, { h with values := vs })

/-- `formats/http/m_http_header.c:177-194`, `M_http_header_create`; the inner `none` is NULL. -/
def createHeader (key text : List UInt8) : Option (Option Header) :=
  if key = [] ∨ text = [] then some none
  else (update ⟨Str.trim key, []⟩ text).map fun r => if r.1 then some r.2 else none

/-- `formats/http/m_http_header.c:248-280`, `M_http_header_value`. -/
def headerText (h : Header) : Option (List UInt8) :=
  joinStr (if nosplit h.key then [32] else [44, 32]) (h.values.map fun v => (valueString v).getD [])

/-- The headers of a message, `M_http_t.headers`; the value of an entry may be NULL. -/
abbrev Store := List (List UInt8 × Option Header)

/-- `formats/http/m_http_headers.c:82-93`: the loop of `M_http_set_headers_int`. -/
def mergeOne (s : Store) (kv : List UInt8 × List UInt8) : Option Store :=
  match tget kv.1 s with
  | some (some h) => (update h kv.2).map fun r => s.map fun e => if same e.1 kv.1 then (e.1, some r.2) else e
  | _ => (createHeader kv.1 kv.2).map fun h => tput kv.1 h s

/-- `formats/http/m_http_headers.c:60-95`, `M_http_set_headers_int`; the new headers in the order they are enumerated. -/
def setHeaders (s : Store) (new : List (List UInt8 × List UInt8)) (merge : Bool) : Option Store :=
  new.foldlM mergeOne (if merge then s else [])

/-- `formats/http/m_http_headers.c:97-117`, `M_http_set_header_int`. -/
def setHeader (s : Store) (k v : List UInt8) (append : Bool) : Option (Bool × Store) :=
  if k = [] then some (false, s)
  else
    let s := if append then s else tdel k s
    if v = [] then some (true, s) else (setHeaders s [(k, v)] true).map fun s => (true, s)

/-- `formats/http/m_http_headers.c:277-289`, `M_http_add_header`. -/
def addHeader (s : Store) (k v : List UInt8) : Option (Bool × Store) :=
  if k = [] ∨ v = [] then some (false, s) else setHeader s k v true

/-- `formats/http/m_http_headers.c:291-297`, `M_http_remove_header`. -/
def removeHeader (s : Store) (k : List UInt8) : Store := if k = [] then s else tdel k s

/-- `formats/http/m_http_headers.c:119-128`, `M_http_header_int`: `none` is NULL. -/
def getHeader (s : Store) (k : List UInt8) : Option (List UInt8) := ((tget k s).getD none).bind headerText

/-- `formats/http/m_http_headers.c:130-145`, `M_http_headers_int`. -/
def headerKeys (s : Store) : List (List UInt8) := s.map (·.1)

/-- `formats/http/m_http_headers.c:34-58`, `M_http_headers_dict_int`, as far as lookups go: the keys are the same, and `none` is
NULL.  (Every key has one value, because the keys of the store differ.) -/
def dictGet (s : Store) (k : List UInt8) : Option (Option (List UInt8)) := (tget k s).map fun h => h.bind headerText

end Verif.Http
