import Verif.Str.Model

/-!
# Checking domain names and email addresses

Model of text/verify/m_verify.c on top of the model of strings (`Verif.Str`).  A string is the list of its bytes without the
final zero; the null pointer is not modelled, except where a function called here returns it.  `none` is a store or a read
outside of memory.
-/

namespace Verif.Verify
open Verif

/-- `0-9a-zA-Z`, with which all character sets in text/verify/m_verify.c:43-69 begin. -/
def alnum : List UInt8 :=
  [48, 49, 50, 51, 52, 53, 54, 55, 56, 57,
   97, 98, 99, 100, 101, 102, 103, 104, 105, 106, 107, 108, 109, 110, 111, 112, 113, 114, 115, 116, 117, 118, 119, 120, 121, 122,
   65, 66, 67, 68, 69, 70, 71, 72, 73, 74, 75, 76, 77, 78, 79, 80, 81, 82, 83, 84, 85, 86, 87, 88, 89, 90]

/-- `allowed_in_local` (text/verify/m_verify.c:43-47), the symbols being `.'*+-=^_{}~`. -/
def inLocal : List UInt8 := alnum ++ [46, 39, 42, 43, 45, 61, 94, 95, 123, 125, 126]

/-- `allowed_in_dns_label` (text/verify/m_verify.c:52-56). -/
def inLabel : List UInt8 := alnum ++ [45]

/-- `allowed_in_display_name` (text/verify/m_verify.c:58-62), the symbols being as in the source, space
and tab. -/
def inName : List UInt8 := alnum ++ [33, 35, 36, 37, 38, 39, 42, 43, 45, 47, 61, 63, 94, 95, 96, 123, 124, 125, 126, 32, 9]

/-- `allowed_in_quoted_display_name` (text/verify/m_verify.c:64-69), with `()<>[]:;@,.` in addition. -/
def inQuoted : List UInt8 := inName ++ [40, 41, 60, 62, 91, 93, 58, 59, 64, 44, 46]

/-- `M_str_ischarset` (base/data/m_str.c:542-584). -/
def isCharset (s set : List UInt8) : Bool := !s.isEmpty && !set.isEmpty && s.all fun c => set.any fun a => c == a

/-- The loop of `str_count_chars_quoted` (text/verify/m_verify.c:112-119).  `rev` are the characters passed, the nearest first;
`Str.isEscaped` is also `is_escaped` of this file (text/verify/m_verify.c:72-96). -/
def countLoop (ch q e : UInt8) : List UInt8 → List UInt8 → Bool → Nat → Nat
  | [], _, _, n => n
  | c :: s, rev, on, n =>
    if c = q ∧ Str.isEscaped e rev = false then countLoop ch q e s (c :: rev) (!on) n
    else if c = ch ∧ on = false then countLoop ch q e s (c :: rev) on (n + 1)
    else countLoop ch q e s (c :: rev) on n

/-- `str_count_chars_quoted` (text/verify/m_verify.c:102-122). -/
def countQuoted (s : List UInt8) (ch : UInt8) : Nat := countLoop ch 34 92 s [] false 0

/-- Not empty and not of the character set: the condition in text/verify/m_verify.c:143 and text/verify/m_verify.c:147.  The null
pointer is empty. -/
def bad (s : Option (List UInt8)) (set : List UInt8) : Bool := !(s.getD []).isEmpty && !isCharset (s.getD []) set

/-- `verify_display_name` (text/verify/m_verify.c:132-155). -/
def displayName (disp : List UInt8) : Option Bool :=
  (Str.quoted true disp 34 92).bind fun quoted =>
    (Str.quoted false disp 34 92).map fun unquoted => !bad quoted inQuoted && !bad unquoted inName

/-- `verify_local_part` (text/verify/m_verify.c:158-178). -/
def localPart (s : List UInt8) : Option Bool :=
  if s.length = 0 ∨ s.length > 64 then some false
  else
    s[0]?.bind fun a => s[s.length - 1]?.bind fun z =>
      some (if a = 46 ∨ z = 46 then false else if a = 45 then false else isCharset s inLocal)

/-- `verify_dns_label` (text/verify/m_verify.c:181-196). -/
def dnsLabel (s : List UInt8) : Option Bool :=
  if s.length = 0 ∨ s.length > 63 then some false
  else
    s[0]?.bind fun a => s[s.length - 1]?.bind fun z =>
      some (if a = 45 ∨ z = 45 then false else isCharset s inLabel)

/-- The loop over the labels (text/verify/m_verify.c:216-221). -/
def labels : List (List UInt8) → Option Bool
  | [] => some true
  | l :: ls => (dnsLabel l).bind fun b => if b then labels ls else some false

/-- `M_verify_domain` (text/verify/m_verify.c:201-225). -/
def domain (s : List UInt8) : Option Bool :=
  if s.isEmpty ∨ s.length > 253 then some false
  else (Str.explode 46 s).bind labels

/-- The address without its display name (text/verify/m_verify.c:283-296). -/
def bare (email : List UInt8) : Option Bool :=
  (Str.explode 64 email).bind fun ps =>
    if ps.length ≠ 2 then some false
    else ps[0]?.bind fun l => ps[1]?.bind fun d =>
      (localPart l).bind fun b => if b then domain d else some false

/-- `M_verify_email_address` (text/verify/m_verify.c:228-303). -/
def email (s : List UInt8) : Option Bool :=
  if s.length < 3 ∨ s.length > 254 then some false
  else
    let o := countQuoted s 60
    if o ≠ countQuoted s 62 ∨ o > 1 then some false
    else if o > 0 then
      s[s.length - 1]?.bind fun z =>
        if z ≠ 62 then some false
        else
          let disp := (Str.bracketed false s 60 62 34 92).getD []
          (if disp.isEmpty then some true else displayName disp).bind fun ok =>
            if ok then bare ((Str.bracketed true s 60 62 34 92).getD []) else some false
    else bare s

/-- The delimiter types (include/mstdlib/text/m_verify.h:46-50). -/
inductive Delim where
  | auto
  | semicolon
  | comma
deriving DecidableEq

/-- The choice of the delimiter (text/verify/m_verify.c:330-346); `none` if there are both. -/
def delimiter (ty : Delim) (commas semis : Nat) : Option UInt8 :=
  match ty with
  | .auto => if commas > 0 ∧ semis > 0 then none else if commas > 0 then some 44 else if semis > 0 then some 59 else some 44
  | .comma => some 44
  | .semicolon => some 59

/-- The loop over the addresses (text/verify/m_verify.c:363-369). -/
def each : List (List UInt8) → Option Bool
  | [] => some true
  | a :: as =>
    let t := Str.trim a
    (if t.isEmpty then some false else email t).bind fun b => if b then each as else some false

/-- `M_verify_email_address_list` (text/verify/m_verify.c:306-373). -/
def list (s : List UInt8) (ty : Delim) : Option Bool :=
  if s.isEmpty then some false
  else if !(s.all fun c => !([13, 10, 12, 11] : List UInt8).any fun a => c == a) then some false
  else
    let commas := countQuoted s 44
    let semis := countQuoted s 59
    match delimiter ty commas semis with
    | none => some false
    | some d =>
      if (d = 44 ∧ commas = 0) ∨ (d = 59 ∧ semis = 0) then email s
      else (Str.explodeQ d 34 92 0 s).bind fun r => if r.1 > 100 then some false else each r.2

end Verif.Verify
