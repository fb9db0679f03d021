import Verif.Mem.Model
import Verif.Chr
/- Model of the searching and splitting functions of `base/data/m_parser.c`.  They look at the remaining bytes `rest` and then
consume a number of them; the consuming itself is modelled in `Verif.Parser.Model`, and here the number is the result. -/
namespace Verif.Parser.Scan

/-- `base/data/m_parser.c:964-984`, `M_parser_consume_until`; the number consumed is returned.  `none` is a read outside the
buffer. -/
def untilLen (rest pat : List UInt8) (eat : Bool) : Option Nat :=
  if pat.length = 0 then some 0
  else (Mem.mem rest pat).map fun r =>
    match r with
    | none => 0
    | some k => if eat then k + pat.length else k

/-- `base/data/m_parser.c:1001-1015`, the loop of `M_parser_consume_boundary`, entered with `i`, `j` and the length so far.
`mem` is what can be read from the position of the parser on, of which `n` bytes belong to it.  The results are the
length and whether the pattern was found. -/
def boundaryLoop (mem : List UInt8) (n : Nat) (pat : List UInt8) : Nat → Nat → Nat → Nat → Option (Nat × Bool)
  | 0, _, _, _ => none
  | fuel + 1, i, j, len =>
    mem[i]?.bind fun c =>
    pat[j]?.bind fun d =>
      if c = d then
        if j + 1 ≥ pat.length then some (len, true)
        else if i + 1 < n then boundaryLoop mem n pat fuel (i + 1) (j + 1) len
        else some (len, false)
      else if i + 1 < n then boundaryLoop mem n pat fuel (i + 1) 0 (i + 1)
      else some (i + 1, false)

/-- `base/data/m_parser.c:987-1022`, `M_parser_consume_boundary`: the returned length and whether the pattern was found. -/
def boundary (mem : List UInt8) (n : Nat) (pat : List UInt8) (eat : Bool) : Option (Nat × Bool) :=
  if pat.length = 0 then some (0, false)
  else (boundaryLoop mem n pat (n + 1) 0 0 0).map fun r => (if r.2 = true ∧ eat = true then r.1 + pat.length else r.1, r.2)

/-- `base/data/m_parser.c:168-189`, `M_parser_consume_charset_int`. -/
def charset (set : List UInt8) (incl : Bool) : List UInt8 → Nat
  | [] => 0
  | c :: cs => if set.length = 0 then 0 else if (if incl then set.contains c else !set.contains c) then charset set incl cs + 1 else 0

/-- `base/data/m_parser.c:1030-1048`, `M_parser_consume_predicate_max`. -/
def predMax (f : UInt8 → Bool) : Nat → List UInt8 → Nat
  | 0, _ => 0
  | _, [] => 0
  | max + 1, c :: cs => if f c then predMax f max cs + 1 else 0

/-- `base/data/m_parser.c:937-961`, `M_parser_consume_whitespace`; `nl` stands for `M_PARSER_WHITESPACE_TO_NEWLINE` and `sp`
for `M_PARSER_WHITESPACE_SPACEONLY`. -/
def whitespace (nl sp : Bool) : List UInt8 → Nat
  | [] => 0
  | c :: cs => if nl = true ∧ c = 10 then 1 else if (if sp then c ≠ 32 else Chr.isSpace c = false) then 0 else whitespace nl sp cs + 1

/-- `base/data/m_parser.c:1094-1110`, `M_parser_consume_eol`. -/
def eol : List UInt8 → Nat
  | [] => 0
  | c :: cs => if c = 10 then 1 else eol cs + 1

/-- `base/data/m_parser.c:1741-1747`, the counting loop of `M_parser_split_pat`; `fuel` bounds the iterations. -/
def countLoop (pat : List UInt8) (max : Nat) : Nat → List UInt8 → Nat → Option Nat
  | 0, _, _ => none
  | fuel + 1, rest, cnt =>
    (untilLen rest pat true).bind fun n =>
      if n = 0 then some cnt
      else if max ≠ 0 ∧ cnt + 1 = max then some (cnt + 1)
      else countLoop pat max fuel (rest.drop n) (cnt + 1)

/-- `base/data/m_parser.c:1757-1800`, the loop of `M_parser_split_pat`.  `out` holds the finished sections, and a section is
open; `slots` is the length of the array, and storing outside it is `none`. -/
def splitLoop (pat : List UInt8) (max slots : Nat) : Nat → List UInt8 → List (List UInt8) → Option (List (List UInt8))
  | 0, _, _ => none
  | fuel + 1, rest, out =>
    if rest.length = 0 then some (out ++ [[]])
    else if max ≠ 0 ∧ out.length + 1 = max then some (out ++ [rest])
    else (untilLen rest pat true).bind fun n =>
      if n = 0 then some (out ++ [rest])
      else if slots ≤ out.length + 1 then none
      else splitLoop pat max slots fuel (rest.drop n) (out ++ [rest.take (n - pat.length)])

/-- `base/data/m_parser.c:1728-1811`, `M_parser_split_pat`: the bytes of the sections, or no array (the inner `none`).
`keep` stands for `M_PARSER_SPLIT_FLAG_DONT_TRIM_LAST` and `err` for `M_PARSER_SPLIT_FLAG_NODELIM_ERROR`. -/
def split (rest pat : List UInt8) (max : Nat) (keep err : Bool) : Option (Option (List (List UInt8))) :=
  (countLoop pat max (rest.length + 1) rest 1).bind fun cnt =>
    if cnt = 1 ∧ err = true then some none
    else (splitLoop pat max cnt (rest.length + 1) rest []).map fun out =>
      if keep = false ∧ out.getLast? = some [] then some out.dropLast else some out

/-- `base/mem/m_mem.c:469-484`, `M_mem_calc_lrc`. -/
def lrc (l : List UInt8) : UInt8 := l.foldl (· ^^^ ·) 0

/-- `M_PARSER_FRAME_ERROR`. -/
inductive Frame
  | success
  | invalid
  | noStx
  | noEtx
  | noLrc
  | badLrc
deriving DecidableEq, Repr

/-- `base/data/m_parser.c:1830-1895`, `M_parser_read_stxetxlrc_message`: the result, the message given out, and the number of
bytes consumed.  `stx` and `etx` say which framing characters belong to the checksum. -/
def frame (rest : List UInt8) (stx etx : Bool) : Option (Frame × Option (List UInt8) × Nat) :=
  if rest.length < 4 then some (.invalid, none, 0)
  else if rest.head? ≠ some 2 then some (.noStx, none, 0)
  else
    (untilLen rest [3] true).bind fun n =>
      if n = 0 then some (.noEtx, none, 0)
      else
        match rest.drop n with
        | [] => some (.noLrc, none, 0)
        | b :: _ =>
          let data := rest.take n
          let d1 := if stx then data else data.drop 1
          let d2 := if etx then d1 else d1.take (d1.length - 1)
          some (if lrc d2 = b then .success else .badLrc, some ((data.drop 1).take (n - 2)), n + 1)

end Verif.Parser.Scan
