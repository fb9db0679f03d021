import Verif.Str.SplitProps

/-!
# What a domain name and an email address are

A grammar; nothing here uses the functions of the model.  `Str.join d xs` is the strings `xs` with `d` between them.
-/

namespace Verif.Verify
open Verif

/-- A letter or digit. -/
def Alnum (c : UInt8) : Prop := (48 ≤ c ∧ c ≤ 57) ∨ (65 ≤ c ∧ c ≤ 90) ∨ (97 ≤ c ∧ c ≤ 122)

/-- One of the parts of a domain name between dots: 1 to 63 letters, digits and hyphens, with no hyphen at the ends. -/
structure Label (s : List UInt8) : Prop where
  chars : ∀ c ∈ s, Alnum c ∨ c = 45
  ne : s ≠ []
  short : s.length ≤ 63
  first : s.head? ≠ some 45
  last : s.getLast? ≠ some 45

/-- A domain name: labels with dots between them, 253 characters at the most. -/
def Domain (s : List UInt8) : Prop := s.length ≤ 253 ∧ ∃ ls, ls ≠ [] ∧ (∀ l ∈ ls, Label l) ∧ s = Str.join [46] ls

/-- The part before the at sign: 1 to 64 letters, digits and symbols `.'*+-=^_{}~`, with no dot at the ends and no hyphen at
the beginning. -/
structure Local (s : List UInt8) : Prop where
  chars : ∀ c ∈ s, Alnum c ∨ c ∈ ([46, 39, 42, 43, 45, 61, 94, 95, 123, 125, 126] : List UInt8)
  ne : s ≠ []
  short : s.length ≤ 64
  first : s.head? ≠ some 46
  hyphen : s.head? ≠ some 45
  last : s.getLast? ≠ some 46

/-- An address without a display name. -/
def Addr (s : List UInt8) : Prop := ∃ l d, Local l ∧ Domain d ∧ s = l ++ 64 :: d

/-- What may be in a display name: letters, digits, symbols, space and tab. -/
def NameChar (c : UInt8) : Prop :=
  Alnum c ∨ c ∈ ([33, 35, 36, 37, 38, 39, 42, 43, 45, 47, 61, 63, 94, 95, 96, 123, 124, 125, 126, 32, 9] : List UInt8)

/-- And between quotes: `()<>[]:;@,.` also. -/
def QuotedChar (c : UInt8) : Prop := NameChar c ∨ c ∈ ([40, 41, 60, 62, 91, 93, 58, 59, 64, 44, 46] : List UInt8)

/-- A display name: characters and quoted strings in any order. -/
inductive Disp : List UInt8 → Prop
  | nil : Disp []
  | char {c : UInt8} {r : List UInt8} : NameChar c → Disp r → Disp (c :: r)
  | quoted {cs r : List UInt8} : (∀ c ∈ cs, QuotedChar c) → Disp r → Disp (34 :: (cs ++ 34 :: r))

/-- An email address: an address, or a display name and then an address in angle brackets; 254 characters at the most. -/
def Email (s : List UInt8) : Prop :=
  s.length ≤ 254 ∧ (Addr s ∨ ∃ n a, Disp n ∧ Addr a ∧ s = n ++ 60 :: (a ++ [62]))

/-- Space and tab. -/
def White (w : List UInt8) : Prop := ∀ c ∈ w, c = 32 ∨ c = 9

/-- An entry of a list of addresses. -/
def Entry (s : List UInt8) : Prop := ∃ w a w', White w ∧ White w' ∧ Email a ∧ s = w ++ a ++ w'

end Verif.Verify
