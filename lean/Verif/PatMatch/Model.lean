import Verif.Chr
/- Model of `base/data/m_str_patmatch.c`.

Pattern and string are the characters before the terminator.  The C function carries the two strings and an index into
each; here the arguments are the suffixes at these indexes.  `char` is signed, as on the supported compilers: only the range
comparison depends on it. -/
namespace Verif.PatMatch
open Verif.Chr

/-- The value of a signed `char`. -/
def sgn (c : UInt8) : Int := if c < 128 then c.toNat else (c.toNat : Int) - 256

/-- The loop of `base/data/m_str_patmatch.c:40-67`, `pattern_range_close`, on the suffix at index `i` of the string whose
first character is `c0`: the index of the closing bracket. -/
def rangeClose (c0 : Option UInt8) : List UInt8 → Nat → Bool → Option Nat
  | [], _, _ => none
  | c :: q, i, esc =>
    if c = 92 then rangeClose c0 q (i + 1) (!esc)
    else if c = 93 then
      if ¬ (i = 0 ∨ (i = 1 ∧ c0 = some 33)) ∧ ¬ esc then some i else rangeClose c0 q (i + 1) false
    else rangeClose c0 q (i + 1) false

/-- What the loop over a bracket does. -/
inductive Br
  | hit
  | miss
  | err
deriving DecidableEq, Repr

/-- The characters that may be escaped: `[ ] ? * \`. -/
def escapable (c : UInt8) : Bool := c = 91 || c = 93 || c = 63 || c = 42 || c = 92

/-- The character comparison `(casecmp && tolower == tolower) || (!casecmp && ==)`, lines 164 and 200. -/
def chrEq (ci : Bool) (a b : UInt8) : Bool := if ci then toLower a == toLower b else a == b

/-- The loop over the bracket contents of `pattern_matches`, `base/data/m_str_patmatch.c:121-171`.  `q` is the text after the
opening bracket, `k` the index of the closing one, `start` the first index of the contents, `x` the string character.
`left` is the number of remaining iterations. -/
def bracket (ci : Bool) (q : List UInt8) (k start : Nat) (x : UInt8) : Nat → Nat → Br
  | 0, _ => .miss
  | left + 1, i =>
    let c2 := q[i]?.getD 0
    if c2 = 92 then
      let c3 := q[i + 1]?.getD 0
      if escapable c3 then if x = c3 then .hit else bracket ci q k start x left (i + 1)
      else .err
    else if c2 = 45 then
      if i = start ∨ i = k - 1 then if x = 45 then .hit else bracket ci q k start x left (i + 1)
      else if sgn (q[i - 1]?.getD 0) < sgn x ∧ sgn x < sgn (q[i + 1]?.getD 0) then .hit
      else bracket ci q k start x left (i + 1)
    else if c2 = 93 then
      if i = start then if x = c2 then .hit else bracket ci q k start x left (i + 1)
      else .err
    else if chrEq ci x c2 then .hit
    else bracket ci q k start x left (i + 1)

/-- `base/data/m_str_patmatch.c:70-208`, `pattern_matches`. -/
def pm (ci : Bool) : List UInt8 → List UInt8 → Bool
  | [], s => s.isEmpty
  | c :: p, s =>
    if c = 92 then
      match p with
      | [] => false
      | c2 :: p => if escapable c2 then match s with
          | [] => false
          | x :: s => if x = c2 then pm ci p s else false
        else false
    else if c = 91 then
      match s with
      | [] => false
      | x :: s =>
        match rangeClose p.head? p 0 false with
        | none => false
        | some k =>
          let neg := p.head? == some 33
          let start := if neg then 1 else 0
          match bracket ci p k start x (k - start) start with
          | .hit => if neg then false else pm ci (p.drop (k + 1)) s
          | .err => false
          | .miss => if neg then pm ci (p.drop (k + 1)) s else false
    else if c = 93 then false
    else if c = 63 then
      match s with
      | [] => false
      | _ :: s => pm ci p s
    else if c = 42 then
      if p.isEmpty then true else (List.range (s.length + 1)).any fun i => pm ci p (s.drop i)
    else
      match s with
      | [] => false
      | x :: s => if chrEq ci x c then pm ci p s else false
termination_by p => p.length
decreasing_by all_goals simp_wf; try omega

/-- `base/data/m_str_patmatch.c:215-218`, `M_str_pattern_match`. -/
def patternMatch (p s : List UInt8) : Bool := pm false p s

/-- `base/data/m_str_patmatch.c:220-223`, `M_str_case_pattern_match`. -/
def casePatternMatch (p s : List UInt8) : Bool := pm true p s

end Verif.PatMatch
