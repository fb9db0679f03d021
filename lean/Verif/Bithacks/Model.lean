/-! Model of `base/math/m_bithacks.c`.

Machine words are natural numbers below `2^32` or `2^64`; subtraction wraps explicitly. -/
namespace Verif.Bithacks

/-- `base/math/m_bithacks.c:30-39`, `M_uint32_is_power_of_two`; `n - 1` does not wrap, as `n` is not zero. -/
def isPow32 (n : Nat) : Bool := if n = 0 then false else if n &&& (n - 1) ≠ 0 then false else true

/-- `base/math/m_bithacks.c:42-51`, `M_uint64_is_power_of_two`, and `:54-63`, `M_size_t_is_power_of_two`. -/
def isPow64 (n : Nat) : Bool := if n = 0 then false else if n &&& (n - 1) ≠ 0 then false else true

/-- `base/math/m_bithacks.c:68-72`: the statements `n |= n >> k`. -/
def smear32 (n : Nat) : Nat :=
  let n := n ||| (n >>> 1)
  let n := n ||| (n >>> 2)
  let n := n ||| (n >>> 4)
  let n := n ||| (n >>> 8)
  n ||| (n >>> 16)

/-- `base/math/m_bithacks.c:79-84`: the statements `n |= n >> k`. -/
def smear64 (n : Nat) : Nat :=
  let n := n ||| (n >>> 1)
  let n := n ||| (n >>> 2)
  let n := n ||| (n >>> 4)
  let n := n ||| (n >>> 8)
  let n := n ||| (n >>> 16)
  n ||| (n >>> 32)

/-- `base/math/m_bithacks.c:66-74`, `M_uint32_round_down_to_power_of_two`. -/
def roundDown32 (n : Nat) : Nat :=
  let n := smear32 n
  (n + 2 ^ 32 - (n >>> 1)) % 2 ^ 32

/-- `base/math/m_bithacks.c:77-86`, `M_uint64_round_down_to_power_of_two`. -/
def roundDown64 (n : Nat) : Nat :=
  let n := smear64 n
  (n + 2 ^ 64 - (n >>> 1)) % 2 ^ 64

/-- `base/math/m_bithacks.c:96-106`, `M_uint32_round_up_to_power_of_two`. -/
def roundUp32 (n : Nat) : Nat :=
  let n := (n + 2 ^ 32 - 1) % 2 ^ 32
  (smear32 n + 1) % 2 ^ 32

/-- `base/math/m_bithacks.c:109-120`, `M_uint64_round_up_to_power_of_two`. -/
def roundUp64 (n : Nat) : Nat :=
  let n := (n + 2 ^ 64 - 1) % 2 ^ 64
  (smear64 n + 1) % 2 ^ 64

/-- `base/math/m_bithacks.c:132-137`, `tab32`. -/
def tab32 : List Nat := [
  0,  1, 28,  2, 29, 14, 24,  3,
  30, 22, 20, 15, 25, 17,  4,  8,
  31, 27, 13, 23, 21, 19, 16,  7,
  26, 12, 18,  6, 11,  5, 10,  9]

/-- `base/math/m_bithacks.c:148-157`, `tab64`. -/
def tab64 : List Nat := [
  63,  0, 58,  1, 59, 47, 53,  2,
  60, 39, 48, 27, 54, 33, 42,  3,
  61, 51, 37, 40, 49, 18, 28, 20,
  55, 30, 34, 11, 43, 14, 22,  4,
  62, 57, 46, 52, 38, 26, 32, 41,
  50, 36, 17, 19, 29, 10, 13, 21,
  56, 45, 25, 31, 35, 16,  9, 12,
  44, 24, 15,  8, 23,  7,  6,  5]

/-- `base/math/m_bithacks.c:130-143`, `M_uint32_log2`; `none` is a table access out of bounds. -/
def log32 (n : Nat) : Option Nat :=
  let n := if isPow32 n then n else roundDown32 n
  tab32[(n * 0x077CB531 % 2 ^ 32) >>> 27]?

/-- `base/math/m_bithacks.c:146-163`, `M_uint64_log2`; `none` is a table access out of bounds. -/
def log64 (n : Nat) : Option Nat :=
  let n := if isPow64 n then n else roundDown64 n
  tab64[(n * 0x07EDD5E59A4E28C2 % 2 ^ 64) >>> 58]?

/-- `base/math/m_bithacks.c:166-170`, `M_sign_extend`; `none` is a shift by a negative amount or by 64 or more. -/
def signExtend (x num : Nat) : Option Int :=
  if num = 0 ∨ num > 64 then none
  else
    let mask := 1 <<< (num - 1)
    let r : Nat := ((x ^^^ mask) + 2 ^ 64 - mask) % 2 ^ 64
    some (if r < 2 ^ 63 then (r : Int) else (r : Int) - 2 ^ 64)

/-- `base/math/m_bithacks.c:176-178`, the macros `B2`, `B4`, `B6`. -/
def b2 (n : Nat) : List Nat := [n, n + 1, n + 1, n + 2]
def b4 (n : Nat) : List Nat := b2 n ++ b2 (n + 1) ++ b2 (n + 1) ++ b2 (n + 2)
def b6 (n : Nat) : List Nat := b4 n ++ b4 (n + 1) ++ b4 (n + 1) ++ b4 (n + 2)

/-- `base/math/m_bithacks.c:173-183`, `M_uint8_popcount`; `none` is a table access out of bounds. -/
def popcount8 (x : Nat) : Option Nat := (b6 0 ++ b6 1 ++ b6 1 ++ b6 2)[x]?

/-- `base/math/m_bithacks.c:185-195`, `M_uint64_popcount`; the counter is a byte. -/
def popcount64 (num count : Nat) : Nat :=
  if h : num = 0 then count
  else
    have : num &&& (num - 1) < num := Nat.lt_of_le_of_lt Nat.and_le_right (by omega)
    popcount64 (num &&& (num - 1)) ((count + 1) % 256)
termination_by num

end Verif.Bithacks
