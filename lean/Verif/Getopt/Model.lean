import Verif.Num.Model
import Verif.Decimal.Text
import Verif.Str.Model
import Verif.Chr

/-!
Command line options, `base/data/m_getopt.c` and `base/data/m_getopt_parse.c`.

Not modelled: the help text, descriptions, null callbacks (refused when the option is added), the argument that old versions
of OS X add, and the overflow of the argument index at `INT_MAX`.
-/

namespace Verif.Getopt
open Verif

abbrev Bytes := List UInt8

/-- `base/data/m_getopt_int.h:35-41`, `M_getopt_type_t` without the unknown type, which no option has. -/
inductive Ty
  | integer | decimal | string | boolean
deriving DecidableEq, Repr

/-- `base/data/m_getopt_int.h:43-57`, `struct M_getopt_option`; the short name 0 and the long name `none` are absent ones.
The callback is part of the environment. -/
structure Opt where
  ty : Ty
  short : UInt8
  long : Option Bytes
  req : Bool
deriving DecidableEq, Repr

/-- `base/data/m_getopt_int.h:60-67`, `struct M_getopt`: the two tables, the list of options, and whether there is a callback
for other arguments.  The tables are lists of pairs (see `Verif.Hash` for the hash tables themselves). -/
structure G where
  shorts : List (UInt8 × Opt)
  longs : List (Bytes × Opt)
  list : List Opt
  nonopt : Bool
deriving DecidableEq, Repr

/-- `include/mstdlib/base/m_getopt.h:129-136`, `M_getopt_error_t` without success. -/
inductive Err
  | invalidOpt | invalidDataType | invalidOrder | missingValue | nonOption
deriving DecidableEq, Repr

/-- What a callback is given as the value; `none` is the null pointer. -/
inductive Val
  | integer (n : Option Int)
  | decimal (d : Option Decimal.Dec)
  | string (s : Option Bytes)
  | boolean (b : Bool)
deriving DecidableEq, Repr

/-- A call of a callback. -/
inductive Ev
  | opt (o : Opt) (v : Val)
  | nonopt (i : Nat) (w : Bytes)
deriving DecidableEq, Repr

/-- What the callbacks answer, which may depend on everything called before. -/
abbrev Cb := List Ev → Ev → Bool

/-- `base/data/m_getopt.c:31-43`, `M_getopt_validate_short_opt`. -/
def validShort (c : UInt8) : Bool :=
  if c = 0 then true
  else if !(33 ≤ c && c < 127) then false
  else if c = 45 ∨ c = 61 ∨ c = 34 ∨ c = 39 then false
  else true

/-- `base/data/m_getopt.c:45-63`, `M_getopt_validate_long_opt`. -/
def validLong : Option Bytes → Bool
  | none => true
  | some l =>
    if l = [] then false
    else if !(l.all fun c => 33 ≤ c && c < 127) then false
    else if l.head? = some 45 ∨ l.getLast? = some 45 then false
    else if 61 ∈ l ∨ 34 ∈ l ∨ 39 ∈ l then false
    else true

/-- `M_hash_u64vp_get_direct` on the table of short names. -/
def getShort (g : G) (c : UInt8) : Option Opt := (g.shorts.find? fun p => p.1 = c).map (·.2)

/-- `M_hash_strvp_get_direct` on the table of long names, made with `M_HASH_STRVP_CASECMP` (`base/data/m_getopt.c:130`). -/
def getLong (g : G) (k : Bytes) : Option Opt := (g.longs.find? fun p => p.1.map Chr.toLower = k.map Chr.toLower).map (·.2)

/-- `base/data/m_getopt.c:124-134`, `M_getopt_create`. -/
def create (nonopt : Bool) : G := ⟨[], [], [], nonopt⟩

/-- `base/data/m_getopt.c:97-120`, `M_getopt_append_option`. -/
def append (g : G) (o : Opt) : Option G :=
  if (o.short ≠ 0 ∧ (getShort g o.short).isSome) ∨ (o.long.bind (getLong g)).isSome then none
  else some { g with
    shorts := if o.short ≠ 0 then g.shorts ++ [(o.short, o)] else g.shorts
    longs := match o.long with
      | some l => g.longs ++ [(l, o)]
      | none => g.longs
    list := g.list ++ [o] }

/-- `base/data/m_getopt.c:65-84` and `234-308`: `M_getopt_addinteger`, `M_getopt_adddecimal`, `M_getopt_addstring` and
`M_getopt_addboolean` with a callback; `none` is `M_FALSE`, the object is then as before. -/
def add (g : G) (o : Opt) : Option G :=
  if (o.short = 0 ∧ o.long = none) ∨ !validShort o.short ∨ !validLong o.long then none
  else append g o

/-- `base/data/m_str.c:348-360`, `M_str_istrue`. -/
def isTrue (s : Bytes) : Bool :=
  if s = [] then false
  else Str.eq true s [121, 101, 115] || Str.eq true s [121] || Str.eq true s [116, 114, 117, 101] || Str.eq true s [116] ||
    Str.eq true s [49] || Str.eq true s [111, 110]

/-- `base/data/m_getopt_parse.c:31-75`: the value made of an argument for a callback.  The outer `none` is an undefined
conversion, the inner one a conversion that fails. -/
def convert : Ty → Option Bytes → Option (Option Val)
  | .integer, none => some (some (.integer none))
  | .integer, some v =>
    (Num.toInt64Ex (v ++ [0]) v.length 10).bind fun r =>
      if r.1 ≠ .success then some none else r.2.map fun x => some (.integer (some x.1))
  | .decimal, none => some (some (.decimal none))
  | .decimal, some v =>
    (Decimal.fromStr (v ++ [0]) v.length).map fun r => if r.1 ≠ .success then none else some (.decimal (some r.2.1))
  | .string, v => some (some (.string v))
  | .boolean, none => some (some (.boolean true))
  | .boolean, some v => some (some (.boolean (isTrue v)))

/-- `base/data/m_getopt_parse.c:60-75`, `M_getopt_parse_option_value`: the answer and the calls made. -/
def optValue (cb : Cb) (o : Opt) (v : Option Bytes) (log : List Ev) : Option (Bool × List Ev) :=
  (convert o.ty v).map fun
    | none => (false, log)
    | some x => (cb log (.opt o x), log ++ [.opt o x])

/-- `base/data/m_getopt_parse.c:77-93`, `M_getopt_parse_option_verify_value`: the value and the index afterwards.  The pointer
`val` is null exactly if the value is. -/
def verify (o : Opt) (v : Option Bytes) (isval : Bool) (idx : Nat) : Except Err (Option Bytes × Nat) :=
  if o.req ∧ v = none then .error .missingValue
  else if v ≠ none ∧ o.ty = .boolean ∧ ¬ o.req then
    if isval then .error .invalidDataType else .ok (none, idx)
  else if v ≠ none ∧ ¬ isval then .ok (v, idx + 1)
  else .ok (v, idx)

/-- The index of the argument and the calls made. -/
structure St where
  idx : Nat
  log : List Ev
deriving DecidableEq, Repr

/-- `base/data/m_getopt_parse.c:104-111` and `147-154`: an option that has been found. -/
def apply (cb : Cb) (o : Opt) (v : Option Bytes) (isval : Bool) (s : St) : Option (Option Err × St) :=
  match verify o v isval s.idx with
  | .error e => some (some e, s)
  | .ok (v, idx) => (optValue cb o v s.log).map fun r => (if r.1 then none else some .invalidDataType, ⟨idx, r.2⟩)

/-- `base/data/m_getopt_parse.c:95-112`, `M_getopt_parse_option_long`. -/
def long (cb : Cb) (g : G) (name : Bytes) (v : Option Bytes) (isval : Bool) (s : St) : Option (Option Err × St) :=
  match getLong g name with
  | none => some (some .invalidOpt, s)
  | some o => apply cb o v isval s

/-- `base/data/m_getopt_parse.c:143-154`: the single short option of `M_getopt_parse_option_short`. -/
def shortOne (cb : Cb) (g : G) (c : UInt8) (v : Option Bytes) (isval : Bool) (s : St) : Option (Option Err × St) :=
  match getShort g c with
  | none => some (some .invalidOpt, s)
  | some o => apply cb o v isval s

/-- `base/data/m_getopt_parse.c:129-140`: the loop over several short options; the value is for the last one. -/
def shortLoop (cb : Cb) (g : G) (v : Option Bytes) (isval : Bool) : List UInt8 → St → Option (Option Err × St)
  | [], s => some (none, s)
  | c :: cs, s =>
    (shortOne cb g c (if cs = [] then v else none) (if cs = [] then isval else false) s).bind fun
      | (some e, s) => some (some e, s)
      | (none, s) => shortLoop cb g v isval cs s

/-- `base/data/m_getopt_parse.c:114-155`, `M_getopt_parse_option_short`: after the loop the first option is processed once
more.  The first byte of an empty string is its end. -/
def short (cb : Cb) (g : G) (name : Bytes) (v : Option Bytes) (isval : Bool) (s : St) : Option (Option Err × St) :=
  (if name.length > 1 then shortLoop cb g v isval name s else some (none, s)).bind fun
    | (some e, s) => some (some e, s)
    | (none, s) => shortOne cb g (name.headD 0) v isval s

/-- `base/data/m_getopt_parse.c:157-173`, `M_getopt_parse_option`. -/
def option (cb : Cb) (g : G) (w : Bytes) (v : Option Bytes) (isval : Bool) (s : St) : Option (Option Err × St) :=
  if w.take 2 = [45, 45] then long cb g (w.drop 2) v isval s else short cb g (w.drop 1) v isval s

/-- `base/data/m_getopt_parse.c:175-180`, `M_getopt_parse_isoption`. -/
def isOption (w : Bytes) : Bool := w.head? = some 45

/-- `base/data/m_getopt_parse.c:239-268`: the name, the value, and whether they were joined by `=`. -/
def split (w : Bytes) (next : Option Bytes) : Option (Except Err (Bytes × Option Bytes × Bool)) :=
  if 61 ∈ w then
    (Str.explode 61 w).map fun parts =>
      match parts with
      | [a, b] => if a = [] ∨ b = [] then .error .missingValue else .ok (a, some b, true)
      | _ => .error .missingValue
  else some (.ok (w, next.filter fun n => !isOption n, false))

/-- The result of parsing: the error, the index of the argument returned as `opt_fail`, and the calls made. -/
structure Out where
  err : Option Err
  fail : Option Nat
  log : List Ev
deriving DecidableEq, Repr

/-- `base/data/m_getopt_parse.c:207-291`: the loop of `M_getopt_parse`.  The first argument bounds the number of rounds; when
it is used up the result is `none`. -/
def parseLoop (cb : Cb) (g : G) (argv : List Bytes) : Nat → Nat → Bool → Bool → List Ev → Option Out
  | 0, _, _, _, _ => none
  | f + 1, i, done, proc, log =>
    if i ≥ argv.length then some ⟨none, none, log⟩
    else argv[i]?.bind fun w =>
      if proc ∧ w = [45, 45] then parseLoop cb g argv f (i + 1) done false log
      else if proc ∧ isOption w then
        if done then some ⟨some .invalidOrder, some i, log⟩
        else if w = [45] then some ⟨some .invalidOpt, some i, log⟩
        else (split w argv[i + 1]?).bind fun
          | .error e => some ⟨some e, some i, log⟩
          | .ok (o, v, isval) => (option cb g o v isval ⟨i, log⟩).bind fun
            | (some e, s) => some ⟨some e, some i, s.log⟩
            | (none, s) => parseLoop cb g argv f (s.idx + 1) done proc s.log
      else if !g.nonopt then some ⟨some .nonOption, some i, log⟩
      else if !cb log (.nonopt i w) then some ⟨some .nonOption, some i, log ++ [.nonopt i w]⟩
      else parseLoop cb g argv f (i + 1) true proc (log ++ [.nonopt i w])

/-- `base/data/m_getopt_parse.c:184-292`, `M_getopt_parse`.  Each round but the last uses up an argument. -/
def parse (cb : Cb) (g : G) (argv : List Bytes) : Option Out :=
  if argv = [] then some ⟨some .nonOption, none, []⟩
  else parseLoop cb g argv (argv.length + 1) 1 false true []

end Verif.Getopt
