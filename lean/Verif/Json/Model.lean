import Verif.Decimal.Text
import Verif.Utf8.Model
import Verif.Chr
/- Model of the JSON reader and writer, `formats/json/m_json_reader.c` and `formats/json/m_json_writer.c`.

The parser (`Verif.Parser`; here a read-only one over the caller's data) is represented by the bytes it has left; `after` is the
memory that follows the data, which some functions look at.  A read past that memory is the outcome `none`.  The line and column
of errors are not modelled.  Functions that recurse take `fuel`, which bounds the number of nested calls and loop iterations;
running out of it is `none` too (`read_fuel`, `strLoop_fuel` and `eatLoop_fuel` show that what is supplied is as good as any more). -/
namespace Verif.Json
open Verif.Decimal (Dec)

/-- `M_json_node_t`.  A string is its bytes up to the terminator.  An object is the `M_hash_strvp` of its members in the order of
their insertion (`Verif.Hash`). -/
inductive Json
  | null
  | bool (b : Bool)
  | int (n : Int)
  | dec (d : Dec)
  | str (s : List UInt8)
  | arr (l : List Json)
  | obj (l : List (List UInt8 × Json))

/-- `M_json_error_t`. -/
inductive Err
  | misuse
  | invalidStart
  | expectedEnd
  | missingCommentClose
  | unexpectedCommentStart
  | invalidPairStart
  | duplicateKey
  | missingPairSeparator
  | objectUnexpectedChar
  | expectedValue
  | unclosedObject
  | arrayUnexpectedChar
  | unclosedArray
  | unexpectedNewline
  | unexpectedControlChar
  | invalidUnicodeEscape
  | unexpectedEscape
  | unclosedString
  | invalidBool
  | invalidNull
  | invalidNumber
  | unexpectedTermination
  | invalidIdentifier
  | unexpectedEnd
deriving DecidableEq, Repr

/-- `M_json_reader_flags_t`. -/
structure RFlags where
  allowTrunc : Bool := false
  noComments : Bool := false
  uniqueKeys : Bool := false
  dontDecode : Bool := false
  replaceBad : Bool := false

/-- The result of reading something: undefined behaviour, an error, or the value. -/
abbrev Res (α : Type) := Option (Except Err α)

def Res.andThen {α β : Type} (x : Res α) (f : α → Res β) : Res β :=
  match x with
  | none => none
  | some (.error e) => some (.error e)
  | some (.ok a) => f a

/-- `base/data/m_parser.c`, `M_parser_consume`: nothing happens if there is not that much data. -/
def consume (n : Nat) (p : List UInt8) : List UInt8 := if n ≤ p.length then p.drop n else p

/-- `M_parser_consume_whitespace`. -/
def eatWs (p : List UInt8) : List UInt8 := p.dropWhile Chr.isSpace

/-- `M_parser_consume_until(parser, "*/", 2, M_TRUE)`: the data after the first occurrence. -/
def afterClose : List UInt8 → Option (List UInt8)
  | 42 :: 47 :: r => some r
  | _ :: r => afterClose r
  | [] => none

/-- `M_parser_consume_eol`: the data after the first newline, nothing if there is none. -/
def afterEol (p : List UInt8) : List UInt8 := (p.dropWhile (· ≠ 10)).drop 1

/-- `formats/json/m_json_reader.c:44-77`, `M_json_eat_comment`; only called when comments are allowed. -/
def eatComment : List UInt8 → Except Err (List UInt8)
  | 47 :: c :: r =>
    if c = 42 then
      match afterClose r with
      | none => .error .missingCommentClose
      | some r => .ok r
    else if c = 47 then .ok (afterEol (47 :: c :: r))
    else .error .unexpectedCommentStart
  | p => .ok p

/-- The loop of `M_json_eat_ignored`, `formats/json/m_json_reader.c:111-121`, over the eaters of lines 87-94. -/
def eatLoop : Nat → List UInt8 → Res (List UInt8)
  | 0, _ => none
  | fuel + 1, p =>
    match eatWs p with
    | [] => some (.ok [])
    | c :: r =>
      match eatComment (c :: r) with
      | .error e => some (.error e)
      | .ok q =>
        let q := if q.length = 0 then q else eatWs q
        if q[0]? = some 47 ∧ p.length ≠ q.length then eatLoop fuel q else some (.ok q)

/-- `formats/json/m_json_reader.c:96-124`, `M_json_eat_ignored`. -/
def eatIgnored (fl : RFlags) (p : List UInt8) : Res (List UInt8) :=
  if fl.noComments then some (.ok (eatWs p)) else eatLoop (p.length + 1) p

/-- `M_str_ishex_max(s, n)`, `base/data/m_str.c:427-443`: the test stops at the terminator. -/
def isHexMax : Nat → List UInt8 → Option Bool
  | 0, _ => some true
  | _ + 1, [] => none
  | n + 1, c :: r => if c = 0 then some true else if Chr.isHex c then isHexMax n r else some false

/-- The condition of `formats/json/m_json_reader.c:391-394`: the character of a `\u` escape, if it is good.  `p` is the data from
the backslash, `s` the memory from the character after the `u`. -/
def uniEscape (p s : List UInt8) : Option (Option (List UInt8)) :=
  if p.length < 6 then some none
  else (isHexMax 4 s).bind fun hex =>
    if hex then
      (Num.toUint32Ex s 4 16).bind fun r =>
        match r with
        | (.success, some (cp, _)) =>
          match Utf8.fromCp 8 cp with
          | .ok u => some (some u)
          | .error _ => some none
        | (.success, none) => none
        | _ => some none
    else some none

/-- `formats/json/m_json_reader.c:402-407`: the parser after a bad `\u` escape was skipped, short of the final two characters. -/
def skipBad (s : List UInt8) : Nat → Nat → List UInt8 → Option (List UInt8)
  | 0, _, p => some p
  | n + 1, j, p => s[j]?.bind fun c => skipBad s n (j + 1) (if Chr.isHex c then consume 1 p else p)

/-- The single-character escapes of `formats/json/m_json_reader.c:362-387`: the byte added. -/
def simpleEscape (ce : UInt8) : Option UInt8 :=
  if ce = 34 ∨ ce = 47 ∨ ce = 92 then some ce
  else if ce = 98 then some 8
  else if ce = 102 then some 12
  else if ce = 110 then some 10
  else if ce = 114 then some 13
  else if ce = 116 then some 9
  else none

/-- The loop of `M_json_read_string`, `formats/json/m_json_reader.c:338-444`: the buffer and the rest of the data. -/
def strLoop (fl : RFlags) (after : List UInt8) : Nat → List UInt8 → UInt8 → List UInt8 → Res (List UInt8 × List UInt8)
  | 0, _, _, _ => none
  | _ + 1, [], _, _ => some (.error .unclosedString)
  | fuel + 1, c :: r, cp, buf =>
    if c = 34 then some (.ok (buf, r))
    else if cp = 92 then some (.error .unclosedString)
    else if c < 32 then
      if fl.replaceBad then strLoop fl after fuel r c (buf ++ [63] ++ [c])
      else some (.error (if c = 10 then .unexpectedNewline else .unexpectedControlChar))
    else if c = 92 then
      match r with
      | [] => some (.error .unexpectedEscape)
      | ce :: r =>
        match simpleEscape ce with
        | some b => strLoop fl after fuel r (if ce = 92 then 0 else ce) (buf ++ [b])
        | none =>
          if ce = 117 then
            (uniEscape (c :: ce :: r) (r ++ after)).bind fun u =>
              match u with
              | none =>
                if fl.replaceBad then
                  (skipBad (r ++ after) 3 1 (consume 1 (c :: ce :: r))).bind fun q => strLoop fl after fuel (consume 2 q) ce (buf ++ [63])
                else some (.error .invalidUnicodeEscape)
              | some u => strLoop fl after fuel (r.drop 4) ce (buf ++ if fl.dontDecode then [92, 117] ++ r.take 4 else u)
          else some (.error .unexpectedEscape)
    else strLoop fl after fuel r c (buf ++ [c])

/-- `formats/json/m_json_reader.c:319-452`, `M_json_read_string`, after the opening quote.  The string ends at the first zero byte. -/
def readString (fl : RFlags) (after p : List UInt8) : Res (List UInt8 × List UInt8) :=
  (strLoop fl after (p.length + 1) p 0 []).andThen fun (buf, r) => some (.ok (buf.takeWhile (· ≠ 0), r))

/-- `formats/json/m_json_reader.c:495-518`, `M_json_read_number`, with `M_parser_read_decimal`, `base/data/m_parser.c:1168-1189`.
`M_decimal_to_int` of a number without decimals is the number.  When the end is NULL or past the data nothing is consumed (the
difference of the pointers is taken to be more than the data left). -/
def readNumber (fl : RFlags) (after p : List UInt8) : Res (Json × List UInt8) :=
  (Decimal.fromStr (p ++ after) p.length).bind fun (rv, d, e) =>
    if rv = .success ∨ rv = .truncation ∧ fl.allowTrunc = true then
      let rest := match e with
        | none => p
        | some e => consume ((p ++ after).length - e.length) p
      some (.ok (if d.nd = 0 then .int d.num else .dec d, rest))
    else some (.error .invalidNumber)

/-- `M_json_object_insert`, `formats/json/m_json.c:314-324`: an empty key is refused, which the reader ignores; an existing key
keeps its place and gets the new value. -/
def insert (l : List (List UInt8 × Json)) (k : List UInt8) (v : Json) : List (List UInt8 × Json) :=
  if k = [] then l
  else if l.any (fun m => m.1 == k) then l.map fun m => if m.1 == k then (k, v) else m
  else l ++ [(k, v)]

mutual

/-- `formats/json/m_json_reader.c:520-565`, `M_json_read_value`, with `M_json_read_bool` (454-480) and `M_json_read_null`
(482-493). -/
def readValue (fl : RFlags) (after : List UInt8) : Nat → List UInt8 → Res (Json × List UInt8)
  | 0, _ => none
  | fuel + 1, p => (eatIgnored fl p).andThen fun p =>
    match p with
    | [] => some (.error .unexpectedEnd)
    | c :: r =>
      if c = 123 then readObj fl after fuel r []
      else if c = 91 then (eatIgnored fl r).andThen fun r => readArr fl after fuel 0 r []
      else if c = 34 then (readString fl after r).andThen fun (s, r) => some (.ok (.str s, r))
      else if c = 116 then
        if (c :: r).take 4 = [116, 114, 117, 101] then some (.ok (.bool true, (c :: r).drop 4)) else some (.error .invalidBool)
      else if c = 102 then
        if (c :: r).take 5 = [102, 97, 108, 115, 101] then some (.ok (.bool false, (c :: r).drop 5)) else some (.error .invalidBool)
      else if c = 110 then
        if (c :: r).take 4 = [110, 117, 108, 108] then some (.ok (.null, (c :: r).drop 4)) else some (.error .invalidNull)
      else if c = 45 ∨ Chr.isDigit c = true then readNumber fl after (c :: r)
      else if c = 0 then some (.error .unexpectedTermination)
      else some (.error .invalidIdentifier)

/-- `formats/json/m_json_reader.c:126-241`, `M_json_read_object`, after the opening brace: the loop and what follows it.  The
test of line 210 fails only at the end of the data, where `c` is the colon read last. -/
def readObj (fl : RFlags) (after : List UInt8) : Nat → List UInt8 → List (List UInt8 × Json) → Res (Json × List UInt8)
  | 0, _, _ => none
  | fuel + 1, p, acc =>
    if p = [] then some (.error .unclosedObject)
    else if p[0]? = some 125 then some (.ok (.obj acc, p.drop 1))
    else (eatIgnored fl p).andThen fun p =>
      match p with
      | [] => some (.error .unclosedObject)
      | c :: r =>
        if c = 125 then some (.ok (.obj acc, r))
        else if c ≠ 34 then some (.error .invalidPairStart)
        else (readString fl after r).andThen fun (key, p) =>
          if fl.uniqueKeys = true ∧ acc.any (fun m => m.1 == key) = true then some (.error .duplicateKey)
          else (eatIgnored fl p).andThen fun p =>
            match p with
            | [] => some (.error .missingPairSeparator)
            | c :: r =>
              if c ≠ 58 then some (.error .missingPairSeparator)
              else (readValue fl after fuel r).andThen fun (v, p) => (eatIgnored fl p).andThen fun p =>
                match p with
                | [] => some (.error .objectUnexpectedChar)
                | c :: r =>
                  if c = 44 then (eatIgnored fl r).andThen fun p =>
                    if p = [] ∨ p[0]? = some 125 then some (.error .expectedValue)
                    else readObj fl after fuel p (insert acc key v)
                  else readObj fl after fuel (c :: r) (insert acc key v)

/-- `formats/json/m_json_reader.c:243-317`, `M_json_read_array`, from the loop on.  The test of line 287 fails only at the end of
the data, where `c` is the first character of the value read last. -/
def readArr (fl : RFlags) (after : List UInt8) : Nat → Nat → List UInt8 → List Json → Res (Json × List UInt8)
  | 0, _, _, _ => none
  | fuel + 1, len, p, acc =>
    if p = [] then some (.error .unclosedArray)
    else if p[0]? = some 93 then some (.ok (.arr acc, p.drop 1))
    else if len = p.length then some (.error .unclosedArray)
    else (eatIgnored fl p).andThen fun q =>
      match q with
      | [] => some (.error .unclosedArray)
      | c :: r =>
        if c = 93 then some (.ok (.arr acc, r))
        else (readValue fl after fuel (c :: r)).andThen fun (v, q) => (eatIgnored fl q).andThen fun q =>
          match q with
          | [] => some (.error .arrayUnexpectedChar)
          | c :: r =>
            if c = 44 then (eatIgnored fl r).andThen fun q =>
              if q = [] ∨ q[0]? = some 93 then some (.error .expectedValue)
              else readArr fl after fuel p.length q (acc ++ [v])
            else readArr fl after fuel p.length (c :: r) (acc ++ [v])

end

/-- `formats/json/m_json_reader.c:593-656`, `M_json_read`: the document and the number of bytes left.  `whole` says that
`processed_len` is NULL: nothing may be left. -/
def read (fl : RFlags) (whole : Bool) (after data : List UInt8) : Res (Json × Nat) :=
  if data = [] ∨ data[0]? = some 0 then some (.error .misuse)
  else (readValue fl after (2 * data.length + 2) data).andThen fun (v, p) =>
    let root := match v with
      | .obj _ => true
      | .arr _ => true
      | _ => false
    if root = false then some (.error .invalidStart)
    else (if p.length > 0 then eatIgnored fl p else some (.ok p)).andThen fun p =>
      if whole = true ∧ p.length > 0 then some (.error .expectedEnd) else some (.ok (v, p.length))

/-! ### Writer -/

/-- `M_json_writer_flags_t`. -/
structure WFlags where
  space : Bool := false
  tab : Bool := false
  winLineEnd : Bool := false
  noCompat : Bool := false
  dontEncode : Bool := false
  replaceBad : Bool := false

/-- `formats/json/m_json_writer.c:38-45`, `M_json_write_depth`. -/
def indent (fl : WFlags) (depth : Nat) : List UInt8 :=
  if fl.space then List.replicate (depth * 2) 32 else if fl.tab then List.replicate depth 9 else []

/-- `formats/json/m_json_writer.c:47-58`, `M_json_write_newline`. -/
def newline (fl : WFlags) : List UInt8 :=
  if (fl.space || fl.tab) = false then [] else if fl.winLineEnd then [13, 10] else [10]

/-- A digit of `%X`. -/
def hexDig (n : Nat) : UInt8 := UInt8.ofNat (if n < 10 then 48 + n else 55 + n)

/-- `%X`. -/
def hexStr (n : Nat) : List UInt8 := if n < 16 then [hexDig n] else hexStr (n / 16) ++ [hexDig (n % 16)]

/-- `%04X`. -/
def hex4 (n : Nat) : List UInt8 := List.replicate (4 - (hexStr n).length) 48 ++ hexStr n

/-- The loop of `M_json_write_node_string`, `formats/json/m_json_writer.c:145-202`, over the bytes left; `acc` is the buffer.
`M_utf8_get_cp` sees the terminator too. -/
def wStrLoop (fl : WFlags) : Nat → List UInt8 → List UInt8 → Option (Option (List UInt8))
  | 0, _, _ => none
  | _ + 1, [], acc => some (some acc)
  | fuel + 1, c :: r, acc =>
    if c = 8 then wStrLoop fl fuel r (acc ++ [92, 98])
    else if c = 12 then wStrLoop fl fuel r (acc ++ [92, 102])
    else if c = 10 then wStrLoop fl fuel r (acc ++ [92, 110])
    else if c = 13 then wStrLoop fl fuel r (acc ++ [92, 114])
    else if c = 9 then wStrLoop fl fuel r (acc ++ [92, 116])
    else if c = 47 then wStrLoop fl fuel r (acc ++ [92, 47])
    else
      let acc := if c = 34 ∨ c = 92 then acc ++ [92] else acc
      if c < 32 then wStrLoop fl fuel r (acc ++ [92, 117] ++ hex4 c.toNat)
      else if c > 127 then
        (Utf8.getCp (c :: r ++ [0])).bind fun res =>
          match res with
          | .error _ => if fl.replaceBad then wStrLoop fl fuel r (acc ++ [63]) else some none
          | .ok (cp, next) =>
            let n := (c :: r ++ [0]).length - next.length
            wStrLoop fl fuel ((c :: r).drop n) (acc ++ if fl.dontEncode then (c :: r).take n else [92, 117] ++ hex4 cp)
      else wStrLoop fl fuel r (acc ++ [c])

/-- `formats/json/m_json_writer.c:130-206`, `M_json_write_node_string`. -/
def wStr (fl : WFlags) (s : List UInt8) : Option (Option (List UInt8)) :=
  (wStrLoop fl (s.length + 1) s [34]).map fun o => o.map fun t => t ++ [34]

/-- `%lld`. -/
def intStr (n : Int) : List UInt8 := (if n < 0 then [45] else []) ++ Decimal.decStr n.natAbs

/-- `JAVASCRIPT_MAX_INT`, `formats/json/m_json_writer.c:33-34`. -/
def jsMax : Int := 9007199254740991

/-- `formats/json/m_json_writer.c:208-222`, `M_json_write_node_integer`. -/
def wInt (fl : WFlags) (n : Int) : List UInt8 :=
  let big := n < -jsMax ∨ n > jsMax
  (if fl.noCompat = false ∧ big then [34] else []) ++ intStr n ++ if big then [34] else []

/-- `base/math/m_decimal.c:57-70`, `M_decimal_to_int(dec, 0)`. -/
def decToInt (d : Dec) : Option Int := (Decimal.transform d 0 .traditional).map fun r =>
  if r.1 ≠ .success ∧ r.1 ≠ .truncation then 0 else r.2.num

/-- `formats/json/m_json_writer.c:224-247`, `M_json_write_node_decimal`, with `M_buf_add_decimal`, `base/data/m_buf.c:1022-1058`. -/
def wDec (fl : WFlags) (d : Dec) : Option (Option (List UInt8)) :=
  (decToInt d).bind fun i =>
    let q : List UInt8 := if fl.noCompat = false ∧ (d.nd > 15 ∨ i < -jsMax ∨ i > jsMax) then [34] else []
    (Decimal.toStr d 256).map fun o => o.map fun t => q ++ t ++ q

/-- Two writers in sequence. -/
def seqW (a b : Option (Option (List UInt8))) : Option (Option (List UInt8)) :=
  a.bind fun a =>
    match a with
    | none => some none
    | some x => b.map fun b => b.map fun y => x ++ y

mutual

/-- `formats/json/m_json_writer.c:274-303`, `M_json_write_node`, with the functions for objects (60-101), arrays (103-128), booleans
(249-261) and null (263-272).  The inner `none` is `M_FALSE`. -/
def write (fl : WFlags) (depth : Nat) : Json → Option (Option (List UInt8))
  | .null => some (some [110, 117, 108, 108])
  | .bool true => some (some [116, 114, 117, 101])
  | .bool false => some (some [102, 97, 108, 115, 101])
  | .int n => some (some (wInt fl n))
  | .dec d => wDec fl d
  | .str s => wStr fl s
  | .arr l => seqW (some (some (91 :: newline fl))) (seqW (writeElems fl (depth + 1) l) (some (some (indent fl depth ++ [93]))))
  | .obj l => seqW (some (some (123 :: newline fl))) (seqW (writeMembers fl (depth + 1) l) (some (some (indent fl depth ++ [125]))))

/-- The loop of `M_json_write_node_array`, `formats/json/m_json_writer.c:114-123`. -/
def writeElems (fl : WFlags) (depth : Nat) : List Json → Option (Option (List UInt8))
  | [] => some (some [])
  | v :: l => seqW (some (some (indent fl depth))) (seqW (write fl depth v)
      (seqW (some (some ((if l.isEmpty then [] else [44]) ++ newline fl))) (writeElems fl depth l)))

/-- The loop of `M_json_write_node_object`, `formats/json/m_json_writer.c:74-94`: the key is written as it is. -/
def writeMembers (fl : WFlags) (depth : Nat) : List (List UInt8 × Json) → Option (Option (List UInt8))
  | [] => some (some [])
  | (k, v) :: l =>
    let sp : List UInt8 := if fl.space || fl.tab then [32] else []
    seqW (some (some (indent fl depth ++ [34] ++ k ++ [34] ++ sp ++ [58] ++ sp))) (seqW (write fl depth v)
      (seqW (some (some ((if l.isEmpty then [] else [44]) ++ newline fl))) (writeMembers fl depth l)))

end

end Verif.Json
