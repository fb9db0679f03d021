import Verif.Str.Model
import Verif.Bithacks.Model
/- Model of `base/data/m_bitlist.c`: sets of bits as lists of names.  The table ends at the entry without a name; the error
texts are left out, `none` is the result `M_FALSE`.  Not modelled: the hash tables of `M_bitlist_tohash`. -/
namespace Verif.Bitlist
open Verif.Str (eq trim explode)

/-- `M_bitlist_flags_t`, `include/mstdlib/base/m_bitlist.h:90-97`. -/
structure Flags where
  ignoreUnknown : Bool
  dontPow2 : Bool
  caseSensitive : Bool
  dontTrim : Bool
deriving DecidableEq, Repr

/-- `M_bitlist_t`, `include/mstdlib/base/m_bitlist.h:84-87`. -/
structure Entry where
  id : BitVec 64
  name : List UInt8
deriving DecidableEq, Repr

/-- `base/data/m_bitlist.c:43-58`: the loop of `M_bitlist_list`; the text and the remaining bits. -/
def listLoop (fl : Flags) (delim : UInt8) : List Entry → BitVec 64 → List UInt8 → Option (List UInt8 × BitVec 64)
  | [], bits, buf => some (buf, bits)
  | t :: ts, bits, buf =>
    if fl.dontPow2 = false ∧ t.id ≠ 0 ∧ Bithacks.isPow64 t.id.toNat = false then none
    else if bits &&& t.id = t.id then
      listLoop fl delim ts (bits &&& ~~~t.id) ((if buf ≠ [] then buf ++ [delim] else buf) ++ t.name)
    else listLoop fl delim ts bits buf

/-- `base/data/m_bitlist.c:30-79`, `M_bitlist_list`. -/
def list (fl : Flags) (tab : List Entry) (bits : BitVec 64) (delim : UInt8) : Option (List UInt8) :=
  if delim = 0 then none
  else (listLoop fl delim tab bits []).bind fun r =>
    if fl.ignoreUnknown = false ∧ r.2 ≠ 0 then none else some r.1

/-- `base/data/m_bitlist.c:113-123`: the first entry of that name. -/
def lookup (cs : Bool) (name : List UInt8) : List Entry → Option (BitVec 64)
  | [] => none
  | t :: ts => if eq (!cs) t.name name then some t.id else lookup cs name ts

/-- `base/data/m_bitlist.c:96-139`: the loop of `M_bitlist_parse_int` over the parts. -/
def parseLoop (fl : Flags) (tab : List Entry) : List (List UInt8) → BitVec 64 → Option (BitVec 64)
  | [], out => some out
  | x :: xs, out =>
    let y := if fl.dontTrim then x else trim x
    if y = [] then parseLoop fl tab xs out
    else
      match lookup fl.caseSensitive y tab with
      | none => if fl.ignoreUnknown then parseLoop fl tab xs out else none
      | some id => if fl.dontPow2 = false ∧ Bithacks.isPow64 id.toNat = false then none else parseLoop fl tab xs (out ||| id)

/-- `base/data/m_bitlist.c:81-149`, `M_bitlist_parse_int` with a table, `M_bitlist_parse` (211-214).  The outer `none` is an
access outside the array of the parts. -/
def parse (fl : Flags) (tab : List Entry) (data : List UInt8) (delim : UInt8) : Option (Option (BitVec 64)) :=
  if delim = 0 then some none else (explode delim data).map fun xs => parseLoop fl tab xs 0

/-- `base/data/m_bitlist.c:221-231`, `M_bitlist_single_tostr`. -/
def singleToStr : List Entry → BitVec 64 → Option (List UInt8)
  | [], _ => none
  | t :: ts, id => if t.id = id then some t.name else singleToStr ts id

/-- `base/data/m_bitlist.c:233-243`, `M_bitlist_single_toint`. -/
def singleToInt : List Entry → List UInt8 → BitVec 64
  | [], _ => 0
  | t :: ts, name => if eq true t.name name then t.id else singleToInt ts name

end Verif.Bitlist
