import Verif.Re.Model
import Verif.Num.Model
/-! Model of replacing matches, `text/re/m_re.c:208-380`. -/
namespace Verif.Re
open Verif.Chr

/-- `base/data/m_parser.c:350-367`, `M_parser_read_uint_ascii` in base 10 on the rest of a terminated string: undefined (`none`), no
number, or the number and what follows it. -/
def readUint (rest : List UInt8) (n : Nat) : Option (Option (Nat × List UInt8)) :=
  if n > rest.length ∨ rest.length = 0 then some none
  else match Num.toUint64Ex (rest ++ [0]) n 10 with
    | none => none
    | some (.success, some (v, e)) => some (some (v, rest.drop (rest.length + 1 - e.length)))
    | some _ => some none

/-- `text/re/m_re.c:276-280`, `:296-301`: two digits, or one. -/
def refNum (rest : List UInt8) : Option (Option (Nat × List UInt8)) :=
  match readUint rest 2 with
  | none => none
  | some (some x) => some (some x)
  | some none => readUint rest 1

/-- `text/re/m_re.c:303-307`: the end of a reference. -/
def refClose (v : Nat) : List UInt8 → Option (Nat × List UInt8)
  | [] => none
  | e :: r => if e = 62 then some (v, r) else none

/-- `text/re/m_re.c:281-308`: a reference after `\g`. -/
def refG : List UInt8 → Option (Option (Nat × List UInt8))
  | [] => some none
  | d :: r =>
    if d ≠ 60 then some none
    else match refNum r with
      | none => none
      | some none => some none
      | some (some (v, r')) => some (refClose v r')

/-- `text/re/m_re.c:265-308`: the reference after a backslash and what follows it, if it is one. -/
def ref : List UInt8 → Option (Option (Nat × List UInt8))
  | [] => some none
  | c :: r =>
    if isDigit c then refNum (c :: r)
    else if c = 103 then refG r
    else some none

/-- `M_buf_add_bytes` of a piece of the text: it must lie within the memory of the text. -/
def slice (s : List UInt8) (o l : Int) : Option (List UInt8) :=
  if 0 ≤ o ∧ 0 ≤ l ∧ o + l ≤ s.length then some ((s.drop o.toNat).take l.toNat) else none

/-- `text/re/m_re.c:315-321`: what a reference stands for. -/
def capText (s : List UInt8) (m : List Cap) (v : Nat) : Option (List UInt8) :=
  match capIdx m v with
  | none => some []
  | some (o, l) => slice s o l

/-- `text/re/m_re.c:257-325`: the loop of `M_re_sub_build_repl` and the rest after it.  The first argument bounds the number of
backslashes. -/
def buildLoop (s : List UInt8) (m : List Cap) : Nat → List UInt8 → List UInt8 → Option (List UInt8)
  | 0, _, _ => none
  | n + 1, rest, buf =>
    match rest.dropWhile (· != 92) with
    | [] => some (buf ++ rest)
    | b :: r =>
      let buf := buf ++ rest.takeWhile (· != 92) ++ [b]
      if r.isEmpty then some buf
      else match ref r with
        | none => none
        | some none => buildLoop s m n r buf
        | some (some (v, r')) =>
          match capText s m v with
          | none => none
          | some x => buildLoop s m n r' (buf.dropLast ++ x)

/-- `text/re/m_re.c:247-329`, `M_re_sub_build_repl`.  The template and the captures have no zero bytes, so that passing on the result
as a string (`:366-367`) loses nothing. -/
def build1 (s : List UInt8) (m : List Cap) (repl : List UInt8) : Option (List UInt8) := buildLoop s m (repl.length + 1) repl []

/-- `text/re/m_re.c:355-377`: the loop of `M_re_sub` over the matches, and the trailing data. -/
def subLoop (s repl : List UInt8) : List (List Cap) → Int → List UInt8 → Option (List UInt8)
  | [], pos, buf =>
    match slice s pos (cLen s - pos) with
    | none => none
    | some x => some (buf ++ x)
  | m :: ms, pos, buf =>
    match slice s pos ((capIdx0 m).1 - pos), build1 s m repl with
    | some x, some y => subLoop s repl ms ((capIdx0 m).1 + (capIdx0 m).2) (buf ++ x ++ y)
    | _, _ => none

/-- `text/re/m_re.c:331-380`, `M_re_sub`, of strings that are not NULL. -/
def sub (alnum : Nat → Bool) (t : Tnfa) (repl s : List UInt8) : Option (List UInt8) :=
  if cLen s = 0 then some []
  else match all alnum t s with
    | none => none
    | some none => some (s.take (cLen s))
    | some (some ms) => subLoop s repl ms 0 []

/-- `text/re/m_re.c:226-240`: the loop of `M_re_find_all`. -/
def findLoop (s : List UInt8) : List (List Cap) → List (List UInt8) → Option (List (List UInt8))
  | [], acc => some acc
  | m :: ms, acc =>
    match capIdx m 0 with
    | none => findLoop s ms acc
    | some (o, l) =>
      match slice s o l with
      | none => none
      | some x => findLoop s ms (acc ++ [x])

/-- `text/re/m_re.c:208-245`, `M_re_find_all`; `some none` is NULL. -/
def findAll (alnum : Nat → Bool) (t : Tnfa) (s : List UInt8) : Option (Option (List (List UInt8))) :=
  if cLen s = 0 then some none
  else match all alnum t s with
    | none => none
    | some none => some none
    | some (some ms) => (findLoop s ms []).map some

end Verif.Re
