/-! Model of the comparing and searching functions of `base/mem/m_mem.c` and of `base/mem/m_endian.c`.

A buffer is a list of bytes and its length is the length passed; pointers into a buffer are indices. -/
namespace Verif.Mem

/-- The loop of `base/mem/m_mem.c:335-337` in `M_mem_eq`: the differences are accumulated. -/
def eqLoop (acc : UInt8) : List UInt8 → List UInt8 → UInt8
  | a :: as, b :: bs => eqLoop (acc ||| (a ^^^ b)) as bs
  | _, _ => acc

/-- `base/mem/m_mem.c:324-339`, `M_mem_eq`, of the first `size` bytes; `none` is a read outside a buffer.  The shortcut for equal
pointers is not modelled, its result is the same. -/
def memEq (a b : List UInt8) (size : Nat) : Option Bool :=
  if a.length < size ∨ b.length < size then none
  else some (eqLoop 0 (a.take size) (b.take size) = 0)

/-- C `memcmp` of equally long buffers. -/
def memcmp : List UInt8 → List UInt8 → Int
  | a :: as, b :: bs => if a < b then -1 else if b < a then 1 else memcmp as bs
  | _, _ => 0

/-- `base/mem/m_mem.c:341-355`, `M_mem_cmpsort`; NULL is `none`. -/
def cmpsort (m1 m2 : Option (List UInt8)) : Int :=
  match m1, m2 with
  | none, none => 0
  | none, some b => if b.length = 0 then 0 else -1
  | some a, none => if a.length = 0 then 0 else 1
  | some a, some b =>
    if a.length = 0 ∧ b.length = 0 then 0
    else if a.length < b.length then -1
    else if a.length > b.length then 1
    else memcmp a b

/-- C `memchr`. -/
def memchr (b : UInt8) : List UInt8 → Option Nat
  | [] => none
  | a :: as => if a = b then some 0 else (memchr b as).map (· + 1)

/-- The loop of `base/mem/m_mem.c:381-406` in `M_mem_mem`, at index `i`; `fuel` bounds the iterations.  The outer `none` is a read
outside the buffer or no fuel, the inner one is NULL. -/
def memLoop (hay needle : List UInt8) (first : UInt8) : Nat → Nat → Option (Option Nat)
  | 0, _ => none
  | fuel + 1, i =>
    if i ≤ hay.length - needle.length then
      match memchr first (hay.drop i) with
      | none => some none
      | some d =>
        let i := i + d
        if i > hay.length - needle.length then some none
        else (memEq (hay.drop i) needle needle.length).bind fun eq =>
          if eq then some (some i) else memLoop hay needle first fuel (i + 1)
    else some none

/-- `base/mem/m_mem.c:368-409`, `M_mem_mem`. -/
def mem (hay needle : List UInt8) : Option (Option Nat) :=
  if hay.length = 0 ∨ needle.length > hay.length then some none
  else
    match needle with
    | [] => some (some 0)
    | first :: _ => memLoop hay needle first (hay.length + 1) 0

/-- The loop of `base/mem/m_mem.c:425-430` in `M_mem_rmem`; the argument is `i` before the decrement. -/
def rmemLoop (hay needle : List UInt8) : Nat → Option (Option Nat)
  | 0 => some none
  | i + 1 => (memEq (hay.drop i) needle needle.length).bind fun eq => if eq then some (some i) else rmemLoop hay needle i

/-- `base/mem/m_mem.c:411-433`, `M_mem_rmem`. -/
def rmem (hay needle : List UInt8) : Option (Option Nat) :=
  if hay.length = 0 then some none
  else if needle.length = 0 then some (some 0)
  else if needle.length > hay.length then some none
  else rmemLoop hay needle (hay.length - needle.length + 1)

/-- `base/mem/m_mem.c:451-467`, `M_mem_count`. -/
def countLoop (b : UInt8) (cnt : Nat) : List UInt8 → Nat
  | [] => cnt
  | a :: as => countLoop b (if a = b then cnt + 1 else cnt) as

/-- `base/mem/m_mem.c:666-681`, `M_mem_swap_bytes`. -/
def swapBytes (s : List UInt8) (i j : Nat) : Bool × List UInt8 :=
  if s.length = 0 ∨ i ≥ s.length ∨ j ≥ s.length then (false, s)
  else if i = j then (true, s)
  else
    let b := s.getD i 0
    let s := s.set i (s.getD j 0)
    (true, s.set j b)

/-- `base/mem/m_endian.c:54-59`, `M_swap16`; the cast binds tighter than the or, the result has 16 bits anyway. -/
def swap16 (n : BitVec 16) : BitVec 16 := ((n &&& 0x00ff#16) <<< 8) ||| ((n &&& 0xff00#16) >>> 8)

/-- `base/mem/m_endian.c:61-67`, `M_swap32`. -/
def swap32 (n : BitVec 32) : BitVec 32 :=
  ((n &&& 0x000000ff#32) <<< 24) ||| ((n &&& 0x0000ff00#32) <<< 8) ||| ((n &&& 0x00ff0000#32) >>> 8) ||| ((n &&& 0xff000000#32) >>> 24)

/-- `base/mem/m_endian.c:69-79`, `M_swap64`. -/
def swap64 (n : BitVec 64) : BitVec 64 :=
  ((n &&& 0x00000000000000ff#64) <<< 56) |||
  ((n &&& 0x000000000000ff00#64) <<< 40) |||
  ((n &&& 0x0000000000ff0000#64) <<< 24) |||
  ((n &&& 0x00000000ff000000#64) <<< 8) |||
  ((n &&& 0x000000ff00000000#64) >>> 8) |||
  ((n &&& 0x0000ff0000000000#64) >>> 24) |||
  ((n &&& 0x00ff000000000000#64) >>> 40) |||
  ((n &&& 0xff00000000000000#64) >>> 56)

/-- `base/mem/m_endian.c:43-50`, `M_endianess`: the byte order of the machine. -/
inductive Endian
  | little | big
deriving DecidableEq, Repr

/-- `base/mem/m_endian.c:84-86`, `M_hton16`, `M_hton32`, `M_hton64`. -/
def hton16 (e : Endian) (h : BitVec 16) : BitVec 16 := if e = .big then h else swap16 h
def hton32 (e : Endian) (h : BitVec 32) : BitVec 32 := if e = .big then h else swap32 h
def hton64 (e : Endian) (h : BitVec 64) : BitVec 64 := if e = .big then h else swap64 h

/-- `base/mem/m_endian.c:89-91`, `M_htol16`, `M_htol32`, `M_htol64`. -/
def htol16 (e : Endian) (h : BitVec 16) : BitVec 16 := if e = .little then h else swap16 h
def htol32 (e : Endian) (h : BitVec 32) : BitVec 32 := if e = .little then h else swap32 h
def htol64 (e : Endian) (h : BitVec 64) : BitVec 64 := if e = .little then h else swap64 h

/-- `base/mem/m_endian.c:94-96`, `M_ntoh16`, `M_ntoh32`, `M_ntoh64`. -/
def ntoh16 (e : Endian) (h : BitVec 16) : BitVec 16 := if e = .big then h else swap16 h
def ntoh32 (e : Endian) (h : BitVec 32) : BitVec 32 := if e = .big then h else swap32 h
def ntoh64 (e : Endian) (h : BitVec 64) : BitVec 64 := if e = .big then h else swap64 h

/-- `base/mem/m_endian.c:99-101`, `M_ltoh16`, `M_ltoh32`, `M_ltoh64`. -/
def ltoh16 (e : Endian) (h : BitVec 16) : BitVec 16 := if e = .little then h else swap16 h
def ltoh32 (e : Endian) (h : BitVec 32) : BitVec 32 := if e = .little then h else swap32 h
def ltoh64 (e : Endian) (h : BitVec 64) : BitVec 64 := if e = .little then h else swap64 h

end Verif.Mem
