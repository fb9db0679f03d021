import Verif.Textcodec.Model
import Verif.Utf8.Model
/- Model of `text/textcodec/m_textcodec_punycode.c`.  `M_uint32` values are natural numbers below `M`, reduced where the code can
wrap.  The outer `none` is undefined behaviour, and a loop that would need more turns than modelled. -/
namespace Verif.Textcodec.Puny
open Verif.Textcodec

def M : Nat := 4294967296

/-- The loop of `adapt`, `text/textcodec/m_textcodec_punycode.c:52-55`. -/
def adaptLoop : Nat → Nat → Nat → Option (Nat × Nat)
  | 0, _, _ => none
  | fuel + 1, delta, k => if delta > 455 then adaptLoop fuel (delta / 35) (k + 36) else some (delta, k)

/-- `text/textcodec/m_textcodec_punycode.c:38-57`, `adapt`; dividing by zero is undefined. -/
def adapt (delta numpoints : Nat) (first : Bool) : Option Nat :=
  if numpoints = 0 then none
  else
    let delta := if first then delta / 700 else delta / 2
    let delta := (delta + delta / numpoints) % M
    (adaptLoop 32 delta 0).map fun r => r.2 + 36 * r.1 / (r.1 + 38)

/-- `text/textcodec/m_textcodec_punycode.c:59-67`, `encode_digit`. -/
def encodeDigit (d : Nat) : UInt8 := if d ≤ 25 then UInt8.ofNat (d + 0x61) else UInt8.ofNat (d + 0x16)

/-- `text/textcodec/m_textcodec_punycode.c:69-78`, `decode_digit`. -/
def decodeDigit (c : UInt8) : Nat :=
  let d := c.toNat
  if d ≥ 0x41 ∧ d ≤ 0x5A then d - 0x41
  else if d ≥ 0x61 ∧ d ≤ 0x7A then d - 0x61
  else if d ≥ 0x30 ∧ d ≤ 0x39 then d - 0x16
  else 36

/-- `text/textcodec/m_textcodec_punycode.c:80-88`, `threshold`. -/
def threshold (k bias : Nat) : Nat := if k ≤ bias + 1 then 1 else if k ≥ bias + 26 then 26 else k - bias

/-- `text/textcodec/m_textcodec_punycode.c:173-183`: the digits of `q`. -/
def encDigits (bias : Nat) : Nat → Nat → Nat → Option (List UInt8)
  | 0, _, _ => none
  | fuel + 1, k, q =>
    let t := threshold (k % M) bias
    if q < t then some [encodeDigit q]
    else (encDigits bias fuel (k + 36) ((q - t) / (36 - t))).map fun ds => encodeDigit (t + (q - t) % (36 - t)) :: ds

structure Enc where
  delta : Nat
  bias : Nat
  h : Nat
  out : List UInt8

/-- `text/textcodec/m_textcodec_punycode.c:151-187`: one pass over the code points for the code point `n`.  The inner `none` is
`goto fail`. -/
def encPass (b n : Nat) : List Nat → Enc → Option (Option Enc)
  | [], s => some (some s)
  | c :: cs, s =>
    if c < n then
      if s.delta = M - 1 then some none else encPass b n cs ⟨s.delta + 1, s.bias, s.h, s.out⟩
    else if c > n then encPass b n cs s
    else (encDigits s.bias 64 36 s.delta).bind fun ds =>
      (adapt s.delta ((s.h + 1) % M) (s.h == b)).bind fun bias => encPass b n cs ⟨0, bias, (s.h + 1) % M, s.out ++ ds⟩

/-- `text/textcodec/m_textcodec_punycode.c:138-191`: the loop over the sorted set of the code points that are not ASCII. -/
def encLoop (cps : List Nat) (b : Nat) : List Nat → Nat → Enc → Option (Option Enc)
  | [], _, s => some (some s)
  | m :: ms, n, s =>
    let d := (m + M - n) % M
    if (s.h + 1) % M = 0 then none
    else if d > (M - 1 - s.delta) / ((s.h + 1) % M) then some none
    else (encPass b m cps ⟨(s.delta + d * ((s.h + 1) % M)) % M, s.bias, s.h, s.out⟩).bind fun r =>
      match r with
      | none => some none
      | some s => encLoop cps b ms ((m + 1) % M) ⟨(s.delta + 1) % M, s.bias, s.h, s.out⟩

/-- `M_list_u64_insert` into a list with `M_LIST_U64_SORTASC` and `M_LIST_U64_SET` (`Verif.MList` models the list itself). -/
def insertSet (m : Nat) : List Nat → List Nat
  | [] => [m]
  | x :: xs => if m < x then m :: x :: xs else if m = x then x :: xs else x :: insertSet m xs

/-- `text/textcodec/m_textcodec_punycode.c:123-131`: the code points of the string.  The code reads them again in every pass. -/
def readCps : Nat → List UInt8 → Option (List Nat)
  | 0, _ => none
  | fuel + 1, s => s[0]?.bind fun c =>
    if c = 0 then some []
    else (Utf8.getCp s).bind fun r =>
      match r with
      | .error _ => some []
      | .ok (cp, rest) => (readCps fuel rest).map fun l => cp :: l

/-- `text/textcodec/m_textcodec_punycode.c:114-198` on the code points. -/
def encCps (cps : List Nat) : Option (Rc × List UInt8) :=
  let basic := cps.filter (· < 0x80)
  let set := (cps.filter fun c => ¬ c < 0x80).foldl (fun l m => insertSet m l) []
  let h := basic.length % M
  (encLoop cps h set 128 ⟨0, 72, h, basic.map UInt8.ofNat ++ if h ≠ 0 then [45] else []⟩).map fun r =>
    match r with
    | none => (.fail, [])
    | some s => (.success, s.out)

/-- `text/textcodec/m_textcodec_punycode.c:92-199`, `M_textcodec_encode_punycode`; `s` is without its terminator.  When it fails the
output already written is not part of the result. -/
def encode (s : List UInt8) : Option (Rc × List UInt8) :=
  if s.all (· < 128) then some (.success, s ++ [45])
  else (Utf8.isValid (s ++ [0])).bind fun v =>
    if v.1 = false then some (.badInput, [])
    else (readCps (s.length + 1) (s ++ [0])).bind encCps

/-- `text/textcodec/m_textcodec_punycode.c:252-272`: one number, from the digits that are left.  At the end of the string the
terminator is not a digit.  `none` is `goto fail`. -/
def decVar (bias : Nat) : List UInt8 → Nat → Nat → Nat → Option (Nat × List UInt8)
  | [], _, _, _ => none
  | c :: r, k, i, w =>
    let d := decodeDigit c
    if d ≥ 36 then none
    else if d > (M - 1 - i) / w then none
    else
      let i := i + d * w
      let t := threshold (k % M) bias
      if d < t then some (i, r)
      else if w > (M - 1) / (36 - t) then none
      else decVar bias r (k + 36) i (w * (36 - t))

structure Dec where
  i : Nat
  n : Nat
  bias : Nat
  l : List (List UInt8)

/-- `text/textcodec/m_textcodec_punycode.c:245-286`: the loop over the digits.  The inner `none` is `goto fail`. -/
def decLoop : Nat → List UInt8 → Dec → Option (Option Dec)
  | 0, _, _ => none
  | _ + 1, [], s => some (some s)
  | fuel + 1, c :: r, s =>
    match decVar s.bias (c :: r) 36 s.i 1 with
    | none => some none
    | some (i, rest) =>
      let len2 := s.l.length + 1
      (adapt (i - s.i) (len2 % M) (s.i == 0)).bind fun bias =>
        let n := (s.n + i / len2 % M) % M
        if len2 % M = 0 then none
        else
          let i := i % (len2 % M)
          match Utf8.fromCp 8 n with
          | .error _ => some none
          | .ok bytes => decLoop fuel rest ⟨i + 1, n, bias, s.l.take i ++ bytes :: s.l.drop i⟩

/-- `text/textcodec/m_textcodec_punycode.c:226-239`: the text before the last `-` and after it. -/
def cut (s : List UInt8) : List UInt8 × List UInt8 :=
  if 45 ∈ s then ((s.reverse.dropWhile (· ≠ 45)).tail.reverse, (s.reverse.takeWhile (· ≠ 45)).reverse) else ([], s)

/-- `text/textcodec/m_textcodec_punycode.c:201-299`, `M_textcodec_decode_punycode`. -/
def decode (s : List UInt8) : Option (Rc × List UInt8) :=
  if s.any (· ≥ 128) then some (.badInput, [])
  else
    (decLoop (s.length + 1) (cut s).2 ⟨0, 128, 72, (cut s).1.map fun c => [c]⟩).map fun r =>
      match r with
      | none => (.fail, [])
      | some s => (.success, s.l.flatten)

end Verif.Textcodec.Puny
