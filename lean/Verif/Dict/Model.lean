import Verif.Str.Model
/- Model of the text form of dictionaries, `base/hash/m_hash_dict.c:275-500`.  A dictionary to be written is the list of the pairs in
the order the enumeration gives them; a dictionary that is read is the list of the insertions made.  A value may be a null pointer. -/
namespace Verif.Dict
open Verif.Chr Verif.Str

/-- `base/data/m_chr.c:61-66`, `M_chr_isprint`. -/
def isPrint (c : UInt8) : Bool := (33 ≤ c && c < 127) || (9 ≤ c && c ≤ 13) || c == 32

/-- `base/data/m_chr.c:103-106`, `M_chr_isalnumsp`. -/
def isAlnumSp (c : UInt8) : Bool := isAlpha c || isDigit c || c == 32

/-- The characters that are chosen by the caller. -/
structure Chars where
  delim : UInt8
  kv : UInt8
  quote : UInt8
  escape : UInt8

/-- `M_hash_dict_ser_flag_t`, `include/mstdlib/base/m_hash_dict.h:353-359`. -/
structure SerFlags where
  alwaysQuote : Bool
  quoteNonAns : Bool
  hex : Bool
  crlf : Bool

/-- `M_hashdict_quote_type_t`, `base/hash/m_hash_dict.c:277-281`. -/
inductive Quote where
  | off
  | on
  | escape
deriving DecidableEq

/-- `base/hash/m_hash_dict.c:302-313`: the loop over the characters. -/
def quoteLoop (ch : Chars) (fl : SerFlags) : List UInt8 → Quote → Quote
  | [], t => t
  | c :: cs, t =>
    let t := if t = .off ∧ ((fl.quoteNonAns = true ∧ isAlnumSp c = false) ∨ c = ch.delim ∨ c = ch.kv) then .on else t
    if c = ch.quote ∨ c = ch.escape ∨ (isPrint c = false ∧ fl.hex = true) then .escape else quoteLoop ch fl cs t

/-- `base/hash/m_hash_dict.c:284-314`, `M_hash_dict_serialize_quotetype`.  For an empty value line 298 reads the byte in front of it:
this is `before`, and the result is `none` if there is none. -/
def quoteType (before : Option UInt8) (ch : Chars) (fl : SerFlags) : Option (List UInt8) → Option Quote
  | none => some (if fl.alwaysQuote then .on else .off)
  | some v =>
    let t := if fl.alwaysQuote = true ∨ v = [] then Quote.on else .off
    if v.head?.any isSpace then some (quoteLoop ch fl v .on)
    else match v.getLast?.or before with
      | none => none
      | some c => some (quoteLoop ch fl v (if isSpace c then .on else t))

/-- A digit of `%X`. -/
def hexDigit (n : Nat) : UInt8 := if n < 10 then 48 + UInt8.ofNat n else 55 + UInt8.ofNat n

/-- `base/hash/m_hash_dict.c:356`: what `[%02X]` prints for a `char` that is converted to `unsigned int`: it is sign extended. -/
def hexText (c : UInt8) : List UInt8 :=
  [91] ++ (if c < 128 then [] else [70, 70, 70, 70, 70, 70]) ++ [hexDigit (c.toNat / 16), hexDigit (c.toNat % 16), 93]

/-- `base/hash/m_hash_dict.c:351-360`: a value with escapes. -/
def escVal (ch : Chars) (fl : SerFlags) : List UInt8 → List UInt8
  | [] => []
  | c :: cs => (if c = ch.quote ∨ c = ch.escape then [ch.escape] else []) ++
    (if isPrint c = false ∧ fl.hex = true then hexText c else [c]) ++ escVal ch fl cs

/-- `base/hash/m_hash_dict.c:339-343` and 370-374: a delimiter. -/
def sep (fl : SerFlags) (c : UInt8) : List UInt8 := if fl.crlf = true ∧ c = 10 then [13, 10] else [c]

/-- `base/hash/m_hash_dict.c:346-367`: a value. -/
def valText (ch : Chars) (fl : SerFlags) (val : Option (List UInt8)) (t : Quote) : List UInt8 :=
  let q := if t ≠ .off then [ch.quote] else []
  q ++ (if t = .escape then escVal ch fl (val.getD []) else val.getD []) ++ q

/-- `base/hash/m_hash_dict.c:332-375`: the pairs. -/
def serLoop (before : Option UInt8) (ch : Chars) (fl : SerFlags) : List (List UInt8 × Option (List UInt8)) → Option (List UInt8)
  | [] => some []
  | (k, v) :: r => (quoteType before ch fl v).bind fun t =>
    (serLoop before ch fl r).map fun rest => k ++ sep fl ch.kv ++ valText ch fl v t ++ sep fl ch.delim ++ rest

/-- `base/hash/m_hash_dict.c:317-379`, `M_hash_dict_serialize_buf`, and 382-399, `M_hash_dict_serialize`. -/
def serialize (before : Option UInt8) (ch : Chars) (fl : SerFlags) (kvs : List (List UInt8 × Option (List UInt8))) : Option (List UInt8) :=
  serLoop before ch fl kvs

/-- `base/hash/m_hash_dict.c:423-432`: the loop that takes the escapes out. -/
def unescLoop (e : UInt8) : List UInt8 → Bool → List UInt8
  | [], _ => []
  | c :: cs, on => if on = false ∧ c = e then unescLoop e cs true else c :: unescLoop e cs false

/-- `base/hash/m_hash_dict.c:402-435`, `M_hash_dict_fromstr_unquote`. -/
def fromUnquote (q e : UInt8) (s : List UInt8) : Option (List UInt8) :=
  if s = [] then none
  else if s.length ≥ 2 ∧ s.head? = some q ∧ s.getLast? = some q then some (unescLoop e (s.tail.take (s.length - 2)) false)
  else some (unescLoop e s false)

/-- What reading gives: the insertions, failure, or a store outside the memory. -/
inductive Res where
  | ok (kvs : List (List UInt8 × Option (List UInt8)))
  | fail
  | ub
deriving DecidableEq

/-- `base/hash/m_hash_dict.c:457-487`: the loop over the lines; a pair with an empty key is not inserted (120-127). -/
def deserLoop (ch : Chars) (trimWs : Bool) : List (List UInt8) → List (List UInt8 × Option (List UInt8)) → Res
  | [], out => .ok out
  | l :: ls, out =>
    let l := if trimWs then trim l else l
    if l = [] then deserLoop ch trimWs ls out
    else match explodeQ ch.kv ch.quote ch.escape 2 l with
      | none => .ub
      | some (n, kv) =>
        if n ≠ 2 then .fail
        else match kv with
          | [k, v] =>
            let k := if trimWs then trim k else k
            let v := if trimWs then trim v else v
            if k = [] then deserLoop ch trimWs ls out
            else deserLoop ch trimWs ls (out ++ [(k, fromUnquote ch.quote ch.escape v)])
          | _ => .ub

/-- `base/hash/m_hash_dict.c:438-500`, `M_hash_dict_deserialize`. -/
def deserialize (ch : Chars) (trimWs : Bool) (s : List UInt8) : Res :=
  if s = [] then .fail
  else match explodeQ ch.delim ch.quote ch.escape 0 s with
    | none => .ub
    | some (_, ls) => deserLoop ch trimWs ls []

end Verif.Dict
