import Verif.Chr
/- Model of the integer parsers of `base/data/m_str_num.c`.

A string pointer is the list of bytes from the pointer to the end of its memory block; a read past the block is the outcome
`none`.  64 bit values are naturals below `2^64` with explicit wrapping; signed results are integers.  `val` and `endptr`
are not NULL. -/
namespace Verif.Num
open Verif.Chr

/-- `M_str_int_retval_t`. -/
inductive Rv
  | success
  | overflow
  | invalid
deriving DecidableEq, Repr

/-- `2^64`. -/
def w64 : Nat := 18446744073709551616

/-- The loop of `base/data/m_str.c:86-127`, `M_str_eq_max_int` with `case_insensitive`, from index `i`: the difference
flag and the final `i`. -/
def eqLoop (s1 s2 : List UInt8) : Nat → Nat → Bool → Option (Bool × Nat)
  | 0, i, diff => some (diff, i)
  | max + 1, i, diff => do
    let a ← s1[i]?
    if a = 0 then some (diff, i)
    else do
      let b ← s2[i]?
      if b = 0 then some (diff, i)
      else eqLoop s1 s2 max (i + 1) (diff || toLower a != toLower b)

/-- `base/data/m_str.c:775-779`, `M_str_caseeq_max`. -/
def caseEqMax (s1 s2 : List UInt8) (max : Nat) : Option Bool := do
  let (diff, i) ← eqLoop s1 s2 max 0 false
  if diff then some false
  else if i ≠ max then do
    let a ← s1[i]?
    let b ← s2[i]?
    some (¬ ((a = 0 ∧ b ≠ 0) ∨ (a ≠ 0 ∧ b = 0)))
  else some true

/-- `base/data/m_str_num.c:32-36`, `eat_whitespace`: the character is read before the length is tested. -/
def eatWs : List UInt8 → Nat → Option (List UInt8 × Nat)
  | [], _ => none
  | c :: s, len => if isSpace c ∧ len ≠ 0 then eatWs s (len - 1) else some (c :: s, len)

/-- `base/data/m_str_num.c:38-56`, `M_str_sign`. -/
def sign (s : List UInt8) (len : Nat) : Option (Bool × List UInt8 × Nat) :=
  if len = 0 then some (false, s, len)
  else do
    let c ← s[0]?
    if c = 45 ∨ c = 43 then some (c == 45, s.drop 1, len - 1) else some (false, s, len)

/-- The digit conversion of `M_str_to_uint64_int`, `base/data/m_str_num.c:78-87`. -/
def digit (c : UInt8) : Nat :=
  if 48 ≤ c ∧ c ≤ 57 then c.toNat - 48
  else if 97 ≤ c ∧ c ≤ 122 then c.toNat - 97 + 10
  else if 65 ≤ c ∧ c ≤ 90 then c.toNat - 65 + 10
  else 36

/-- The loop of `base/data/m_str_num.c:59-116`, `M_str_to_uint64_int`: the value, the overflow flag and the end. -/
def u64Loop (base : Nat) : List UInt8 → Nat → Nat → Bool → Option (Nat × Bool × List UInt8)
  | s, 0, ret, ov => some (ret, ov, s)
  | [], _ + 1, _, _ => none
  | c :: s, len + 1, ret, ov =>
    if c = 0 then some (ret, ov, c :: s)
    else if digit c ≥ base then some (ret, ov, c :: s)
    else
      let v := (ret * base + digit c) % w64
      u64Loop base s len v (ov || decide (v < ret))

/-- `base/data/m_str_num.c:59-116`, `M_str_to_uint64_int`. -/
def toUint64Int (s : List UInt8) (len base : Nat) : Option (Rv × Nat × List UInt8) :=
  if base < 2 ∨ base > 36 then some (.invalid, 0, s)
  else do
    let (ret, ov, p) ← u64Loop base s len 0 false
    if ov then some (.overflow, ret, p)
    else if p.length = s.length then some (.invalid, ret, p)
    else some (.success, ret, p)

/-- `"0x"`. -/
def zeroX : List UInt8 := [48, 120, 0]

/-- The test `*len >= 2 && M_str_caseeq_max(*s, "0x", *len)` of `M_str_intconv_prep`, lines 126 and 136. -/
def hexPrefix (s : List UInt8) (len : Nat) : Option Bool := if len ≥ 2 then caseEqMax s zeroX len else some false

/-- The automatic base of `M_str_intconv_prep`, `base/data/m_str_num.c:124-133`. -/
def autoBase (s : List UInt8) (len base : Nat) : Option Nat :=
  if base = 0 then
    (hexPrefix s len).bind fun hex =>
      if hex then some 16
      else if len ≥ 1 then s[0]?.map fun c => if c = 48 then 8 else 10
      else some 10
  else some base

/-- `base/data/m_str_num.c:119-140`, `M_str_intconv_prep`: the string, length, base and sign. -/
def prep (s : List UInt8) (len base : Nat) : Option (List UInt8 × Nat × Nat × Bool) := do
  let (s, len) ← eatWs s len
  let (neg, s, len) ← sign s len
  let base ← autoBase s len base
  if base = 16 then (hexPrefix s len).map fun hex => if hex then (s.drop 2, len - 2, base, neg) else (s, len, base, neg)
  else some (s, len, base, neg)

/-- `base/data/m_str_num.c:236-266`, `M_str_to_uint64_ex`: `(rv, *val, *endptr)`.  When `len = 0` neither output is written:
`.inl`. -/
def toUint64Ex (s : List UInt8) (len base : Nat) : Option (Rv × Option (Nat × List UInt8)) :=
  if len = 0 then some (.invalid, none)
  else do
    let (s, len, base, neg) ← prep s len base
    let (rv, val, e) ← toUint64Int s len base
    if rv = .overflow then some (rv, some (w64 - 1, e))
    else if neg then some (rv, some ((w64 - val) % w64, e))
    else some (rv, some (val, e))

/-- `base/data/m_str_num.c:269-304`, `M_str_to_int64_ex`. -/
def toInt64Ex (s : List UInt8) (len base : Nat) : Option (Rv × Option (Int × List UInt8)) :=
  if len = 0 then some (.invalid, none)
  else do
    let (s, len, base, neg) ← prep s len base
    let (rv, uval, e) ← toUint64Int s len base
    let rv := if neg ∧ uval > 9223372036854775807 + 1 then .overflow
      else if ¬ neg ∧ uval > 9223372036854775807 then .overflow else rv
    if rv = .overflow then some (rv, some (if neg then -9223372036854775808 else 9223372036854775807, e))
    else if neg then some (rv, some (-(uval : Int), e))
    else some (rv, some ((uval : Int), e))

/-- `base/data/m_str_num.c:307-329`, `M_str_to_uint32_ex`; `u64val` is 0 when the inner call writes nothing. -/
def toUint32Ex (s : List UInt8) (len base : Nat) : Option (Rv × Option (Nat × List UInt8)) := do
  let (rv, r) ← toUint64Ex s len base
  match r with
  | none => some (.invalid, none)
  | some (u, e) => if u > 4294967295 then some (.overflow, some (4294967295, e)) else some (rv, some (u, e))

/-- `base/data/m_str_num.c:332-357`, `M_str_to_int32_ex`. -/
def toInt32Ex (s : List UInt8) (len base : Nat) : Option (Rv × Option (Int × List UInt8)) := do
  let (rv, r) ← toInt64Ex s len base
  match r with
  | none => some (.invalid, none)
  | some (i, e) =>
    if i > 2147483647 then some (.overflow, some (2147483647, e))
    else if i < -2147483648 then some (.overflow, some (-2147483648, e))
    else some (rv, some (i, e))

end Verif.Num
