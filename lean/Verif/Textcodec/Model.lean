import Verif.Bincodec.Model
import Verif.Num.Model
import Verif.Parser.Scan
/- Model of `text/textcodec/m_textcodec_percent.c` and `text/textcodec/m_textcodec_quoted_printable.c`.  Strings are the lists
of their bytes without the terminator; the parser is the list of the bytes that are left (`Verif.Parser` shows that this is
what it does) and the output is the list of the bytes added.  `none` is a memory access outside an object. -/
namespace Verif.Textcodec

/-- `M_textcodec_ehandler_t`. -/
inductive Eh | fail | replace | ignore
deriving DecidableEq

/-- `M_textcodec_error_t`, the values used here. -/
inductive Rc | success | successEh | fail | badInput
deriving DecidableEq

/-- The four variants of percent encoding. -/
inductive Pct | url | urlMin | form | formMin
deriving DecidableEq

def Pct.isForm : Pct → Bool
  | .form => true
  | .formMin => true
  | _ => false

/-- `text/textcodec/m_textcodec_percent.c:28-39`, `is_percent_reserved`; no value is 128 or more, so the sign of `char` does not
matter. -/
def reserved (c : UInt8) : Bool := c ∈ [33, 42, 39, 40, 41, 59, 58, 64, 38, 61, 36, 44, 47, 63, 35, 91, 93]

/-- `text/textcodec/m_textcodec_percent.c:54-85`: whether the character is changed.  `char` is signed, so bytes from 128 on are
below `0x21`. -/
def process (v : Pct) (c : UInt8) : Bool :=
  let p := if c < 0x21 ∨ c ≥ 128 ∨ c > 0x7E ∨ c = 37 then true
    else match v with
      | .url => reserved c
      | .urlMin => false
      | .form => reserved c || (c == 43 || c == 126)
      | .formMin => c == 43 || c == 126
  if v.isForm = true ∧ (c = 13 ∨ c = 10) then false else p

/-- `text/textcodec/m_textcodec_percent.c:110-122`: the encoder of the hex digits failed. -/
def pctBad (eh : Eh) (out : List UInt8) : Rc × List UInt8 := match eh with
  | .fail => (.fail, out)
  | .replace => (.successEh, out ++ [63])
  | .ignore => (.successEh, out)

/-- `text/textcodec/m_textcodec_percent.c:41-129`, `M_textcodec_encode_percent`: the loop with `res` and the output. -/
def pctEncLoop (eh : Eh) (v : Pct) : List UInt8 → Rc → List UInt8 → Option (Rc × List UInt8)
  | [], rc, out => some (rc, out)
  | c :: s, rc, out =>
    if process v c = false then pctEncLoop eh v s rc (out ++ [c])
    else if c = 32 then pctEncLoop eh v s rc (out ++ if v.isForm then [43] else [37, 50, 48])
    else (Bincodec.hexEncode 4 [c] 0).bind fun hex =>
      if hex.length = 0 then
        if eh = .fail then some (pctBad eh out) else pctEncLoop eh v s (pctBad eh out).1 (pctBad eh out).2
      else pctEncLoop eh v s rc (out ++ 37 :: hex)

def pctEncode (eh : Eh) (v : Pct) (s : List UInt8) : Option (Rc × List UInt8) := pctEncLoop eh v s .success []

/-- `text/textcodec/m_textcodec_percent.c:161-173`, 180-191 and `text/textcodec/m_textcodec_quoted_printable.c:100-111`, 130-141: a
bad sequence. -/
def bad (eh : Eh) (out : List UInt8) : Rc × List UInt8 := match eh with
  | .fail => (.fail, out)
  | .replace => (.successEh, out ++ [0xFF, 0xFD])
  | .ignore => (.successEh, out)

/-- `text/textcodec/m_textcodec_percent.c:143-196`: the loop of `M_textcodec_decode_percent`, over the bytes that are left. -/
def pctDecLoop (eh : Eh) (v : Pct) : List UInt8 → Rc → List UInt8 → Option (Rc × List UInt8)
  | [], rc, out => some (rc, out)
  | [c], rc, out =>
    if c = 43 ∧ v.isForm = true then some (rc, out ++ [32])
    else if c ≠ 37 then some (rc, out ++ [c])
    else some (bad eh out)
  | [c, a], rc, out =>
    if c = 43 ∧ v.isForm = true then pctDecLoop eh v [a] rc (out ++ [32])
    else if c ≠ 37 then pctDecLoop eh v [a] rc (out ++ [c])
    else if eh = .ignore then pctDecLoop eh v [a] (bad eh out).1 (bad eh out).2
    else some (bad eh out)
  | c :: a :: b :: s, rc, out =>
    if c = 43 ∧ v.isForm = true then pctDecLoop eh v (a :: b :: s) rc (out ++ [32])
    else if c ≠ 37 then pctDecLoop eh v (a :: b :: s) rc (out ++ [c])
    else (Bincodec.hexDecode 4 [a, b, 0, 0] 2).bind fun dec =>
      match dec with
      | [] => if eh = .fail then some (bad eh out) else pctDecLoop eh v s (bad eh out).1 (bad eh out).2
      | d :: _ => pctDecLoop eh v s rc (out ++ [d])

/-- `text/textcodec/m_textcodec_percent.c:131-200`, `M_textcodec_decode_percent`. -/
def pctDecode (eh : Eh) (v : Pct) (s : List UInt8) : Option (Rc × List UInt8) :=
  if eh = .fail ∧ s.any (· ≥ 128) then some (.badInput, []) else pctDecLoop eh v s .success []

/-- `"0123456789ABCDEF"[i]`, `text/textcodec/m_textcodec_quoted_printable.c:45-46`. -/
def hexDig : List UInt8 := [48, 49, 50, 51, 52, 53, 54, 55, 56, 57, 65, 66, 67, 68, 69, 70]

/-- `text/textcodec/m_textcodec_quoted_printable.c:43`. -/
def qpEsc (c : UInt8) : Bool := c ≠ 9 ∧ c ≠ 13 ∧ c ≠ 10 ∧ (c ≥ 128 ∨ c < 32 ∨ c = 61 ∨ c > 126)

/-- `text/textcodec/m_textcodec_quoted_printable.c:44-46`: the three bytes.  `c >> 4` of a byte from 128 on is negative, the table
is read before its beginning. -/
def qpHex (c : UInt8) : Option (List UInt8) :=
  if c ≥ 128 then none else some [61, hexDig.getD (c.toNat / 16) 0, hexDig.getD (c.toNat % 16) 0]

/-- `text/textcodec/m_textcodec_quoted_printable.c:53-62`: the count and what is added behind the character. -/
def qpWrap (c : UInt8) (cnt : Nat) : Nat × List UInt8 :=
  let cnt := if c = 10 then 0 else cnt
  if cnt > 72 then (0, [61, 13, 10]) else (cnt, [])

/-- `text/textcodec/m_textcodec_quoted_printable.c:28-66`, `M_textcodec_encode_quoted_printable`: the loop with `cnt`. -/
def qpEncLoop : List UInt8 → Nat → List UInt8 → Option (List UInt8)
  | [], _, out => some out
  | c :: s, cnt, out =>
    if qpEsc c then (qpHex c).bind fun h => qpEncLoop s (qpWrap c (cnt + 3)).1 (out ++ h ++ (qpWrap c (cnt + 3)).2)
    else qpEncLoop s (qpWrap c (cnt + 1)).1 (out ++ [c] ++ (qpWrap c (cnt + 1)).2)

def qpEncode (s : List UInt8) : Option (List UInt8) := qpEncLoop s 0 []

/-- `base/data/m_parser.c:330-347`, `M_parser_read_int_ascii` of `len` bytes: the value and the bytes that are left.  The memory
is the string with its terminator. -/
def readInt (rest : List UInt8) (len base : Nat) : Option (Option (Int × List UInt8)) :=
  if len > rest.length ∨ rest.length = 0 then some none
  else (Num.toInt64Ex (rest ++ [0]) (if len = 0 then rest.length else len) base).bind fun r =>
    match r with
    | (.success, some (v, e)) => some (some (v, rest.drop (rest.length + 1 - e.length)))
    | _ => some none

/-- `text/textcodec/m_textcodec_quoted_printable.c:148-150`: the end. -/
def qpEnd (rc : Rc) (rest out : List UInt8) : Rc × List UInt8 :=
  if rc = .successEh ∨ rc = .success then (rc, out ++ rest) else (rc, out)

/-- `text/textcodec/m_textcodec_quoted_printable.c:96-145`: the loop body from the `=`, with the bytes behind it.  The results are
whether the loop ends, `res`, the bytes left and the output. -/
def qpStep (eh : Eh) (rest : List UInt8) (rc : Rc) (out : List UInt8) : Option (Bool × Rc × List UInt8 × List UInt8) :=
  if rest.length < 2 then some (true, (bad eh out).1, rest, (bad eh out).2)
  else if rest.take 2 = [13, 10] then some (false, rc, rest.drop 2, out)
  else (readInt rest 2 16).bind fun r =>
    match r with
    | some (v, rest') => some (false, rc, rest', out ++ [UInt8.ofNat (v % 256).toNat])
    | none => some (eh == .fail, (bad eh out).1, rest, (bad eh out).2)

/-- `text/textcodec/m_textcodec_quoted_printable.c:77-146`: the loop of `M_textcodec_decode_quoted_printable`. -/
def qpDecLoop (eh : Eh) : Nat → List UInt8 → Rc → List UInt8 → Option (Rc × List UInt8)
  | 0, _, _, _ => none
  | fuel + 1, s, rc, out =>
    (Parser.Scan.untilLen s [61] false).bind fun len =>
      match s.drop len with
      | [] => some (qpEnd rc (s.drop len) out)
      | b :: rest =>
        if b ≠ 61 ∧ len = 0 then some (qpEnd rc (s.drop len) out)
        else (qpStep eh rest rc (out ++ s.take len)).bind fun r =>
          if r.1 = true ∨ r.2.2.1 = [] then some (qpEnd r.2.1 r.2.2.1 r.2.2.2)
          else qpDecLoop eh fuel r.2.2.1 r.2.1 r.2.2.2

/-- `text/textcodec/m_textcodec_quoted_printable.c:68-154`, `M_textcodec_decode_quoted_printable`.  Every turn consumes the `=`. -/
def qpDecode (eh : Eh) (s : List UInt8) : Option (Rc × List UInt8) := qpDecLoop eh (s.length + 1) s .success []

end Verif.Textcodec
