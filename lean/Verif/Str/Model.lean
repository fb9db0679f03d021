import Verif.Buf.Model
import Verif.Chr
/- Model of the string functions of `base/data/m_str.c`.  A C string is the list of its bytes without the terminator, so it
holds no zero byte; where a function writes into memory of the caller the memory is a list of bytes, every store is checked
against it and `none` is an access outside it.  The strings the library allocates itself are lists as well, but the
arrays it fills after counting are checked against their size.  Null arguments are only modelled where they do more than
return at once, and allocation does not fail. -/
namespace Verif.Str
open Verif.Buf (wr rd)
open Verif.Chr (isSpace toLower)

/-- A byte of a string of (signed) `char` compared with an `unsigned char` argument: the byte is sign extended, so a byte
of 128 or more equals no argument. -/
def ceq (c u : UInt8) : Bool := c = u ∧ c < 128

/- Comparison -/

/-- `base/data/m_str.c:102-110`: the loops of `M_str_eq_max_int`.  The result is the accumulator, what is left of the
maximum, and the rests of the strings. -/
def eqLoop (ci : Bool) : Nat → UInt8 → List UInt8 → List UInt8 → UInt8 × Nat × List UInt8 × List UInt8
  | n + 1, r, x :: a, y :: b => eqLoop ci n (r ||| ((if ci then toLower x else x) ^^^ (if ci then toLower y else y))) a b
  | n, r, a, b => (r, n, a, b)

/-- `base/data/m_str.c:86-127`, `M_str_eq_max_int`; a null pointer is the empty string. -/
def eqMaxInt (ci : Bool) (a b : List UInt8) (max : Nat) : Bool :=
  let r := eqLoop ci max 0 a b
  if r.1 ≠ 0 then false
  else if r.2.1 ≠ 0 ∧ ((r.2.2.1 = [] ∧ r.2.2.2 ≠ []) ∨ (r.2.2.1 ≠ [] ∧ r.2.2.2 = [])) then false
  else true

/-- `base/data/m_str.c:764-784`, `M_str_eq` and `M_str_caseeq`: no limit is the largest `size_t`. -/
def eq (ci : Bool) (a b : List UInt8) : Bool := eqMaxInt ci a b (Buf.W - 1)

/-- `base/data/m_str.c:796-804`, `M_str_eq_start` and `M_str_caseeq_start`. -/
def eqStart (ci : Bool) (a b : List UInt8) : Bool := eqMaxInt ci a b b.length

/-- `base/data/m_str.c:129-146`, `M_str_eq_end_int`. -/
def eqEnd (ci : Bool) (a b : List UInt8) : Bool :=
  if b.length > a.length then false else eqMaxInt ci (a.drop (a.length - b.length)) b b.length

/-- `base/data/m_str.c:697-703`: the loop of `M_str_casestr` from index `i` on, over the rest of the haystack. -/
def casestrLoop (needle : List UInt8) : Nat → List UInt8 → Option Nat
  | _, [] => none
  | i, c :: cs =>
    if needle.length > (c :: cs).length then none
    else if eqMaxInt true (c :: cs) needle needle.length then some i
    else casestrLoop needle (i + 1) cs

/-- `base/data/m_str.c:686-704`, `M_str_casestr`: the index of the match. -/
def casestr (hay needle : List UInt8) : Option Nat := casestrLoop needle 0 hay

/-- The C library's `strstr`, used by `M_str_str` (`base/data/m_str.c:675-684`): index of the first occurrence. -/
def find (needle : List UInt8) : List UInt8 → Option Nat
  | [] => if needle = [] then some 0 else none
  | c :: cs => if needle.isPrefixOf (c :: cs) then some 0 else (find needle cs).map (· + 1)

/- Bounded copies -/

/-- `M_str_len`, `base/data/m_str.c:364-369`: the bytes before the first zero byte; `none` if the memory holds no zero byte. -/
def strlen (m : List UInt8) : Option Nat := if 0 ∈ m then some (m.takeWhile (· ≠ 0)).length else none

/-- `base/data/m_str.c:1800-1817`, `M_str_cpy_max` from a source that is not null: `dest` is the memory of the
destination, `src` that of the source.  `M_str_cpy` (1795-1798) passes the largest `size_t` (`srcLen = none`). -/
def cpyMax (dest : List UInt8) (destLen : Nat) (src : List UInt8) (srcLen : Option Nat) : Option (List UInt8 × Bool) :=
  if destLen = 0 then some (dest, false)
  else (match srcLen with | none => strlen src | some n => some n).bind fun n =>
    (rd src 0 (min n (destLen - 1))).bind fun bs =>
    (wr dest 0 bs).bind fun d => (wr d (min n (destLen - 1)) [0]).map (·, true)

/-- `base/data/m_str.c:1639-1656`, `M_str_cat` of the string `src`. -/
def cat (dest : List UInt8) (destLen : Nat) (src : List UInt8) : Option (List UInt8 × Bool) :=
  if destLen = 0 then some (dest, false)
  else (strlen dest).bind fun n =>
    if n + src.length ≥ destLen then some (dest, false)
    else (wr dest n src).bind fun d => (wr d (n + src.length) [0]).map (·, true)

/- Trimming and quoting -/

/-- `base/data/m_str.c:1251-1286`, `M_str_trim_max`. -/
def trimMax (s : List UInt8) (max : Nat) : List UInt8 :=
  let p := s.take max
  if p.length = 0 then s
  else
    let q := p.dropWhile isSpace
    if q = [] then [] else (q.reverse.dropWhile isSpace).reverse

/-- `base/data/m_str.c:1246-1249`, `M_str_trim`. -/
def trim (s : List UInt8) : List UInt8 := trimMax s s.length

/-- `base/data/m_str.c:1596-1602`: the loop of `M_str_quote_max`; `pend` are the bytes from `start` on. -/
def quoteLoop (quote escape : UInt8) : List UInt8 → List UInt8 → List UInt8 → List UInt8
  | [], pend, out => out ++ pend
  | c :: cs, pend, out =>
    if ceq c quote ∨ ceq c escape then quoteLoop quote escape cs [c] (out ++ pend ++ [escape])
    else quoteLoop quote escape cs (pend ++ [c]) out

/-- `base/data/m_str.c:1579-1609`, `M_str_quote_max`. -/
def quoteMax (s : List UInt8) (quote escape : UInt8) (max : Nat) : List UInt8 :=
  if s = [] then [] else quoteLoop quote escape (s.take max) [] [quote] ++ [quote]

/-- `base/data/m_str.c:1574-1577`, `M_str_quote`. -/
def quote (s : List UInt8) (q e : UInt8) : List UInt8 := quoteMax s q e s.length

/-- `base/data/m_str.c:1561-1569`: the loop of `M_str_unquote_max` that removes the escape characters.  (The byte behind
the last one is the terminator, which is neither the quote nor the escape of a string that gets here.) -/
def unescape (quote escape : UInt8) : List UInt8 → List UInt8
  | [] => []
  | [c] => [c]
  | c :: d :: r => if c = escape ∧ (ceq d escape ∨ ceq d quote) then d :: unescape quote escape r else c :: unescape quote escape (d :: r)

/-- `base/data/m_str.c:1530-1572`, `M_str_unquote_max`. -/
def unquoteMax (s : List UInt8) (quote escape : UInt8) (max : Nat) : List UInt8 :=
  let t := trimMax s max
  if t = [] then t
  else
    let p := t.take max
    if p.length = 1 then t
    else if (p.head?.any (ceq · quote) && p.getLast?.any (ceq · quote)) = false then t
    else unescape quote escape (p.tail.take (p.length - 2))

/-- `base/data/m_str.c:1525-1528`, `M_str_unquote`. -/
def unquote (s : List UInt8) (q e : UInt8) : List UInt8 := unquoteMax s q e s.length

/-- `base/data/m_str.c:1611-1635`, `M_str_quote_if_necessary`; `none` is the result `M_FALSE`. -/
def quoteIf (s : List UInt8) (q e d : UInt8) : Option (List UInt8) :=
  if s = [] then none
  else if s.head? = some 32 ∨ s.getLast? = some 32 then some (quote s q e)
  else if s.any fun c => ceq c q || ceq c d then some (quote s q e)
  else none

/- Splitting and joining -/

/-- `base/data/m_str.c:850-853`: the number of delimiters. -/
def countDelim (delim : UInt8) : List UInt8 → Nat → Nat
  | [], n => n
  | c :: cs, n => countDelim delim cs (if c = delim then n + 1 else n)

/-- `base/data/m_str.c:860-875`: the second loop of `M_str_explode` and the length of the last section.  `out` are the
sections finished so far, `cur` the bytes from the last stored pointer on; a pointer is stored for every section when it
begins, so `slots` must exceed their number. -/
def explodeLoop (delim : UInt8) (slots : Nat) : List UInt8 → List (List UInt8) → List UInt8 → Option (List (List UInt8))
  | [], out, cur => some (out ++ [cur])
  | c :: cs, out, cur =>
    if c ≠ delim then explodeLoop delim slots cs out (cur ++ [c])
    else if out.length + 1 ≥ slots then none
    else explodeLoop delim slots cs (out ++ [cur]) []

/-- `base/data/m_str.c:826-879`, `M_str_explode`: the sections with their lengths from `len_array`.  The empty list is the
null pointer. -/
def explode (delim : UInt8) (s : List UInt8) : Option (List (List UInt8)) :=
  if s.head? = none ∨ s.head? = some 0 then some []
  else explodeLoop delim (countDelim delim s 1) s [] []

/-- What `base/data/m_str.c:1004-1015` does with the character `c`: skip it, skip it and the next one, or go on with the
quote flag given. -/
inductive QStep where
  | skip
  | skip2
  | go (on : Bool)

/-- `base/data/m_str.c:1004-1015` (and 1043-1054): `prev` and `next` are the neighbours of `c` in memory. -/
def qstep (q e : UInt8) (prev : Option UInt8) (on : Bool) (c : UInt8) (next : UInt8) : QStep :=
  if q ≠ 0 ∧ ceq c q then
    if q = e ∧ ceq next q then .skip2
    else if e ≠ 0 ∧ q ≠ e ∧ prev.any (ceq · e) then .skip
    else .go (!on)
  else .go on

/-- `base/data/m_str.c:1002-1025`: the counting loop of `M_str_explode_quoted` over the rest of the string. -/
def countQ (delim q e : UInt8) (max : Nat) : List UInt8 → Option UInt8 → Bool → Nat → Nat
  | [], _, _, num => num
  | c :: [], prev, on, num =>
    match qstep q e prev on c 0 with
    | .go on => if ceq c delim ∧ on = false then num + 1 else num
    | _ => num
  | c :: d :: r, prev, on, num =>
    match qstep q e prev on c d with
    | .skip2 => countQ delim q e max r (some d) on num
    | .skip => countQ delim q e max (d :: r) (some c) on num
    | .go on =>
      if ceq c delim ∧ on = false then
        if max ≠ 0 ∧ num + 1 = max - 1 then num + 1 else countQ delim q e max (d :: r) (some c) on (num + 1)
      else countQ delim q e max (d :: r) (some c) on num

/-- Storing a section, `base/data/m_str.c:1057` and 1067. -/
def push (slots : Nat) (out : List (List UInt8)) (x : List UInt8) : Option (List (List UInt8)) :=
  if out.length ≥ slots then none else some (out ++ [x])

/-- `base/data/m_str.c:1041-1071`: the filling loop of `M_str_explode_quoted`.  `cur` are the bytes of the section so
far; a delimiter that ends a section has been overwritten with zero when the next character is looked at. -/
def fillQ (delim q e : UInt8) (max slots : Nat) : List UInt8 → Option UInt8 → Bool → List (List UInt8) → List UInt8 → Option (List (List UInt8))
  | [], _, _, out, cur => push slots out cur
  | c :: [], prev, on, out, cur =>
    match qstep q e prev on c 0 with
    | .go on => if ceq c delim ∧ on = false then (push slots out cur).bind fun o => push slots o [] else push slots out (cur ++ [c])
    | _ => push slots out (cur ++ [c])
  | c :: d :: r, prev, on, out, cur =>
    match qstep q e prev on c d with
    | .skip2 => fillQ delim q e max slots r (some d) on out (cur ++ [c, d])
    | .skip => fillQ delim q e max slots (d :: r) (some c) on out (cur ++ [c])
    | .go on =>
      if ceq c delim ∧ on = false then
        (push slots out cur).bind fun o =>
          if max ≠ 0 ∧ o.length = max - 1 then push slots o (d :: r)
          else fillQ delim q e max slots (d :: r) (some 0) on o []
      else fillQ delim q e max slots (d :: r) (some c) on out (cur ++ [c])

/-- `base/data/m_str.c:976-1071`, `M_str_explode_quoted`: the number of sections reported and the sections stored. -/
def explodeQ (delim q e : UInt8) (max : Nat) (s : List UInt8) : Option (Nat × List (List UInt8)) :=
  if s = [] then some (0, [])
  else
    let n := countQ delim q e max s none false 0 + 1
    (fillQ delim q e max n s none false [] []).map (n, ·)

/-- `base/data/m_str.c:149-161`, `M_str_implode_has_restricted_chars`. -/
def restricted (s : List UInt8) (d q e : UInt8) : Bool := s.any fun c => ceq c d || ceq c q || ceq c e

/-- `base/data/m_str.c:163-176`, `M_str_implode_escape`: the bytes added. -/
def escape (q e : UInt8) : List UInt8 → List UInt8
  | [] => []
  | c :: cs => if ceq c q ∨ ceq c e then e :: c :: escape q e cs else c :: escape q e cs

/-- `base/data/m_str.c:1149-1153`: whether a string of `M_str_implode` has to be enclosed; `none` is a null pointer. -/
def mustEnclose (d q e : UInt8) : Option (List UInt8) → Bool
  | none => false
  | some s => restricted s d q e

/-- `base/data/m_str.c:1149-1165`: one string of `M_str_implode`. -/
def encloseOne (d q e : UInt8) (always : Bool) (s : Option (List UInt8)) : List UInt8 :=
  if always = true ∨ mustEnclose d q e s = true then
    [q] ++ (if mustEnclose d q e s = true then escape q e (s.getD []) else s.getD []) ++ [q]
  else s.getD []

/-- `base/data/m_str.c:1144-1168`: the loop of `M_str_implode`. -/
def implodeLoop (d q e : UInt8) (always : Bool) : List (Option (List UInt8)) → Bool → List UInt8 → List UInt8
  | [], _, out => out
  | s :: ss, first, out => implodeLoop d q e always ss false ((if first then out else out ++ [d]) ++ encloseOne d q e always s)

/-- `base/data/m_str.c:1134-1171`, `M_str_implode`; no strings give a null pointer, here the empty list (as does a result
without bytes). -/
def implode (d q e : UInt8) (strs : List (Option (List UInt8))) (always : Bool) : List UInt8 := implodeLoop d q e always strs true []

/- Replacing -/

/-- `base/data/m_str.c:1763-1780`: the loop of `M_strdup_replace_str` from the offset `p` on, `lp` the offset of the bytes
not yet copied.  The result is the text so far and `lp`.  (`fuel` bounds the number of turns: `p` grows in each.) -/
def replaceLoop (s b a : List UInt8) : Nat → Nat → Nat → List UInt8 → List UInt8 × Nat
  | 0, _, lp, out => (out, lp)
  | fuel + 1, p, lp, out =>
    match find b (s.drop p) with
    | none => (out, lp)
    | some k =>
      let out := out ++ (s.drop lp).take (p + k - lp) ++ a
      if p + k + b.length ≥ s.length then (out, lp)
      else replaceLoop s b a fuel (p + k + b.length) (p + k + b.length) out

/-- `base/data/m_str.c:1744-1786`, `M_strdup_replace_str`. -/
def replaceStr (s b a : List UInt8) : List UInt8 :=
  if s = [] then []
  else if b = [] then s
  else
    let r := replaceLoop s b a (s.length + 1) 0 0 []
    if r.2 ≤ s.length then r.1 ++ s.drop r.2 else r.1

/-- `base/data/m_str.c:1731-1739`: one character of `M_strdup_replace_charset`. -/
def replaceCharset (bcs a : List UInt8) : List UInt8 → List UInt8 → List UInt8
  | [], out => out
  | c :: cs, out =>
    let out := out ++ [c]
    replaceCharset bcs a cs (if bcs.any (ceq c ·) then out.take (out.length - 1) ++ a else out)

/- Quoted sections -/

/-- `base/data/m_str.c:194-218`, `is_escaped`: `rev` are the characters before the position, the nearest first. -/
def isEscaped (e : UInt8) (rev : List UInt8) : Bool := (rev.takeWhile (· = e)).length % 2 = 1

/-- `base/data/m_str.c:1449-1468` and 1497-1516: the loops of `M_str_remove_quoted` (`keep = false`) and
`M_str_keep_quoted` (`keep = true`).  `rev` are the characters passed, `dst` the text written; overwriting its last byte
when there is none is a store before the buffer. -/
def quotedLoop (keep : Bool) (q e : UInt8) : List UInt8 → List UInt8 → Bool → List UInt8 → Option (Bool × List UInt8)
  | [], _, on, dst => some (on, dst)
  | c :: cs, rev, on, dst =>
    if c = q ∧ isEscaped e rev = false then quotedLoop keep q e cs (c :: rev) (!on) dst
    else if on = keep then
      if c = q ∨ (c = e ∧ isEscaped e rev = true) then
        if dst = [] then none else quotedLoop keep q e cs (c :: rev) on (dst.dropLast ++ [c])
      else quotedLoop keep q e cs (c :: rev) on (dst ++ [c])
    else quotedLoop keep q e cs (c :: rev) on dst

/-- `base/data/m_str.c:1431-1475`, `M_str_remove_quoted`, and 1478-1522, `M_str_keep_quoted`; the inner `none` is the null
pointer returned for an empty string and for an open quote. -/
def quoted (keep : Bool) (s : List UInt8) (q e : UInt8) : Option (Option (List UInt8)) :=
  if s = [] then some none
  else (quotedLoop keep q e s [] false []).map fun r => if r.1 then none else some r.2

/-- `base/data/m_str.c:1317-1346`: the loop of `M_str_remove_bracketed_quoted` (`keep = false`), and 1392-1421 that of
`M_str_keep_bracketed_quoted` (`keep = true`); `none` is the null pointer returned for a stray closing bracket. -/
def bracketLoop (keep : Bool) (o c q e : UInt8) : List UInt8 → List UInt8 → Bool → Nat → List UInt8 → Option (Bool × Nat × List UInt8)
  | [], _, on, n, dst => some (on, n, dst)
  | x :: xs, rev, on, n, dst =>
    let on := if x = q ∧ isEscaped e rev = false then !on else on
    if keep then
      if x = c ∧ on = false ∧ n = 0 then none
      else
        let n := if x = c ∧ on = false then n - 1 else n
        let dst := if n > 0 then dst ++ [x] else dst
        bracketLoop keep o c q e xs (x :: rev) on (if x = o ∧ on = false then n + 1 else n) dst
    else
      let n := if x = o ∧ on = false then n + 1 else n
      let dst := if n = 0 then dst ++ [x] else dst
      if x = c ∧ on = false ∧ n = 0 then none
      else bracketLoop keep o c q e xs (x :: rev) on (if x = c ∧ on = false then n - 1 else n) dst

/-- `base/data/m_str.c:1295-1361`, `M_str_remove_bracketed_quoted`, and 1370-1428, `M_str_keep_bracketed_quoted`. -/
def bracketed (keep : Bool) (s : List UInt8) (o c q e : UInt8) : Option (List UInt8) :=
  if o = c ∨ o = 0 ∨ c = 0 ∨ s = [] then none
  else (bracketLoop keep o c q e s [] false 0 []).bind fun r => if r.2.1 > 0 ∨ r.1 = true then none else some r.2.2

/- Lines -/

/-- `base/data/m_str.c:926-929`: back from the offset `k` to white space. -/
def backToSpace (s : List UInt8) : Nat → Nat
  | 0 => 0
  | k + 1 => if isSpace (s.getD (k + 1) 0) then k + 1 else backToSpace s k

/-- `base/data/m_str.c:919-935`: the length of the chunk for the next line. -/
def chunk (maxChars : Nat) (s : List UInt8) : Nat :=
  if s.length ≤ maxChars then s.length
  else if backToSpace s maxChars = 0 then maxChars else backToSpace s maxChars

/-- `base/data/m_str.c:907-951`: the loop of `M_str_explode_lines`; `n` lines may still be made, `room` bytes of the
buffer are left.  The result holds the lines and the rest of the source. -/
def linesLoop (maxChars : Nat) : Nat → Nat → List UInt8 → List (List UInt8) → Option (List (List UInt8) × List UInt8)
  | 0, _, s, out => some (out, s)
  | n + 1, room, s, out =>
    let t := s.dropWhile isSpace
    if t = [] then some (out, t)
    else
      let line := ((t.take (chunk maxChars t)).reverse.dropWhile isSpace).reverse
      if line.length + 1 > room then none
      else linesLoop maxChars n (room - (line.length + 1)) (t.drop (chunk maxChars t)) (out ++ [line])

/-- `base/data/m_str.c:886-974`, `M_str_explode_lines`; the empty list is the null pointer. -/
def explodeLines (maxLines maxChars : Nat) (s : List UInt8) (truncate : Bool) : Option (List (List UInt8)) :=
  if maxLines = 0 ∨ maxChars = 0 then some []
  else (linesLoop maxChars maxLines (s.length + maxLines) s []).map fun r =>
    if truncate = false ∧ r.2.dropWhile isSpace ≠ [] then [] else r.1

end Verif.Str
