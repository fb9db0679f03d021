/- Model of `base/utf8/m_utf8.c`.

A string pointer is the list of bytes from the pointer to the end of its memory block; every read goes through `[i]?` and
a read past the block is the outcome `none` (undefined behaviour).  Pointers are not NULL.  `char` values are modelled
as unsigned bytes: all uses mask the sign extension away or cast to `unsigned char`. -/
namespace Verif.Utf8

inductive Err
  | badStart
  | truncated
  | expectContinue
  | badCodePoint
  | overlong
  | invalidParam
deriving DecidableEq, Repr

/-- `base/utf8/m_utf8.c:28-33`, `M_utf8_is_continue`. -/
def isContinue (b : UInt8) : Bool := 0x80 ≤ b && b ≤ 0xBF

/-- `base/utf8/m_utf8.c:35-57`, `M_utf8_byte_width`. -/
def byteWidth (b : UInt8) : Nat :=
  if b ≤ 0x7F then 1
  else if 0x80 ≤ b ∧ b ≤ 0xBF then 0
  else if 0xC2 ≤ b ∧ b ≤ 0xDF then 2
  else if 0xE0 ≤ b ∧ b ≤ 0xEF then 3
  else if 0xF0 ≤ b ∧ b ≤ 0xF4 then 4
  else 0

/-- `base/utf8/m_utf8.c:59-71`, `M_utf8_cp_width`. -/
def cpWidth (cp : Nat) : Nat :=
  if cp ≤ 0x7F then 1
  else if 0x80 ≤ cp ∧ cp ≤ 0x7FF then 2
  else if 0x800 ≤ cp ∧ cp ≤ 0xFFFF then 3
  else 4

/-- `base/utf8/m_utf8.c:116-144`, `M_utf8_is_valid_cp`. -/
def isValidCp (cp : Nat) : Bool :=
  if cp > 0x10FFFF then false
  else if 0xD800 ≤ cp ∧ cp ≤ 0xDFFF then false
  else if cp = 0xFFFE ∨ cp = 0xFFFF ∨ cp = 0x1FFFE ∨ cp = 0x1FFFF ∨ cp = 0x2FFFE ∨ cp = 0x2FFFF ∨
    cp = 0x3FFFE ∨ cp = 0x3FFFF ∨ cp = 0x4FFFE ∨ cp = 0x4FFFF ∨ cp = 0x5FFFE ∨ cp = 0x5FFFF ∨
    cp = 0x6FFFE ∨ cp = 0x6FFFF ∨ cp = 0x7FFFE ∨ cp = 0x7FFFF ∨ cp = 0x8FFFE ∨ cp = 0x8FFFF ∨
    cp = 0x9FFFE ∨ cp = 0x9FFFF ∨ cp = 0x10FFFE ∨ cp = 0x10FFFF ∨ (0xFDD0 ≤ cp ∧ cp ≤ 0xFDEF) then false
  else true

/-- The loop of `M_utf8_get_cp` over the continuation bytes (lines 186-194), `n` bytes from index `i`. -/
def checkCont (s : List UInt8) : Nat → Nat → Option (Option Err)
  | 0, _ => some none
  | n + 1, i => do
    let c ← s[i]?
    if c = 0 then some (some .truncated)
    else if ¬ isContinue c then some (some .expectContinue)
    else checkCont s n (i + 1)

/-- `base/utf8/m_utf8.c:146-219`, `M_utf8_get_cp`: the code point and `*next`, or the error (`*next` is then NULL).  The test
`width > 4` cannot succeed and is left out. -/
def getCp (s : List UInt8) : Option (Except Err (Nat × List UInt8)) := do
  let c0 ← s[0]?
  if c0 = 0 then some (.ok (0, s))
  else
    let width := byteWidth c0
    if width = 0 then some (.error .badStart)
    else if width = 1 then some (.ok (c0.toNat, s.drop 1))
    else (checkCont s (width - 1) 1).bind fun
      | some e => some (.error e)
      | none => do
        let mycp ←
          if width = 2 then do
            let c1 ← s[1]?
            some ((c0.toNat &&& 0x1F) <<< 6 ||| (c1.toNat &&& 0x3F))
          else if width = 3 then do
            let c1 ← s[1]?
            let c2 ← s[2]?
            some ((c0.toNat &&& 0x0F) <<< 12 ||| (c1.toNat &&& 0x3F) <<< 6 ||| (c2.toNat &&& 0x3F))
          else do
            let c1 ← s[1]?
            let c2 ← s[2]?
            let c3 ← s[3]?
            some ((c0.toNat &&& 0x07) <<< 18 ||| (c1.toNat &&& 0x3F) <<< 12 ||| (c2.toNat &&& 0x3F) <<< 6 ||| (c3.toNat &&& 0x3F))
        if ¬ isValidCp mycp then some (.error .badCodePoint)
        else if width ≠ cpWidth mycp then some (.error .overlong)
        else some (.ok (mycp, s.drop width))

/-- `base/utf8/m_utf8.c:265-302`, `M_utf8_from_cp` into a buffer of `size` bytes: the bytes written. -/
def fromCp (size cp : Nat) : Except Err (List UInt8) :=
  if ¬ isValidCp cp then .error .badCodePoint
  else
    let width := cpWidth cp
    if width > size then .error .truncated
    else if width = 1 then .ok [UInt8.ofNat cp]
    else if width = 2 then .ok [UInt8.ofNat (0xC0 ||| (cp >>> 6 &&& 0x3F)), UInt8.ofNat (0x80 ||| (cp &&& 0x3F))]
    else if width = 3 then
      .ok [UInt8.ofNat (0xE0 ||| (cp >>> 12 &&& 0x3F)), UInt8.ofNat (0x80 ||| (cp >>> 6 &&& 0x3F)), UInt8.ofNat (0x80 ||| (cp &&& 0x3F))]
    else
      .ok [UInt8.ofNat (0xF0 ||| (cp >>> 18 &&& 0x3F)), UInt8.ofNat (0x80 ||| (cp >>> 12 &&& 0x3F)),
        UInt8.ofNat (0x80 ||| (cp >>> 6 &&& 0x3F)), UInt8.ofNat (0x80 ||| (cp &&& 0x3F))]

/-- The loop of `base/utf8/m_utf8.c:73-101`, `M_utf8_validate_int`: success, the end pointer and the count.  `fuel` bounds the
number of iterations. -/
def validateLoop : Nat → List UInt8 → Nat → Option (Bool × List UInt8 × Nat)
  | 0, _, _ => none
  | fuel + 1, s, len => do
    let c ← s[0]?
    if c = 0 then some (true, s, len)
    else
      (getCp s).bind fun
      | .error _ => some (false, s, len + 1)
      | .ok (_, next) => validateLoop fuel next (len + 1)

/-- `base/utf8/m_utf8.c:73-101`, `M_utf8_validate_int`. -/
def validateInt (s : List UInt8) : Option (Bool × List UInt8 × Nat) := do
  let c ← s[0]?
  if c = 0 then some (false, s, 0) else validateLoop (s.length + 1) s 0

/-- `base/utf8/m_utf8.c:105-114`, `M_utf8_is_valid` with its end pointer. -/
def isValid (s : List UInt8) : Option (Bool × List UInt8) := do
  let c ← s[0]?
  if c = 0 then some (true, s)
  else do
    let (ok, e, _) ← validateInt s
    some (ok, e)

/-- `base/utf8/m_utf8.c:317-324`, `M_utf8_cnt`. -/
def cnt (s : List UInt8) : Option Nat := do
  let (ok, _, len) ← validateInt s
  if ok then some len else some 0

/-- The loop of `base/utf8/m_utf8.c:326-349`, `M_utf8_cp_at`: the last code point read and the final `i`. -/
def cpAtLoop (idx : Nat) : Nat → List UInt8 → Nat → Nat → Option (Except Err (Nat × Nat))
  | 0, _, _, _ => none
  | fuel + 1, s, i, cp => do
    let c ← s[0]?
    if c = 0 then some (.ok (cp, i))
    else
      (getCp s).bind fun
      | .error e => some (.error e)
      | .ok (cp, next) => if i = idx then some (.ok (cp, i)) else cpAtLoop idx fuel next (i + 1) cp

/-- `base/utf8/m_utf8.c:326-349`, `M_utf8_cp_at`. -/
def cpAt (s : List UInt8) (idx : Nat) : Option (Except Err Nat) := do
  let c ← s[0]?
  if c = 0 then some (.error .invalidParam)
  else
    (cpAtLoop idx (s.length + 1) s 0 0).bind fun
    | .error e => some (.error e)
    | .ok (cp, i) => if i ≠ idx then some (.error .invalidParam) else some (.ok cp)

/-- `base/utf8/m_utf8.c:351-361`, `M_utf8_chr_at`. -/
def chrAt (s : List UInt8) (size idx : Nat) : Option (Except Err (List UInt8)) :=
  (cpAt s idx).bind fun
  | .error e => some (.error e)
  | .ok cp => some (fromCp size cp)

/-- The loop of `base/utf8/m_utf8.c:250-263`, `M_utf8_next_chr`. -/
def skipCont : List UInt8 → Option (List UInt8)
  | [] => none
  | c :: s => if isContinue c then skipCont s else some (c :: s)

/-- `base/utf8/m_utf8.c:250-263`, `M_utf8_next_chr`: `some none` is NULL. -/
def nextChr (s : List UInt8) : Option (Option (List UInt8)) := do
  let c ← s[0]?
  if c = 0 then some none else (skipCont (s.drop 1)).map some

end Verif.Utf8
