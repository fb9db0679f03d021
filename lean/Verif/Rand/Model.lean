/- Model of `base/math/m_rand.c`.  A null state, for which a fresh one is created, is not modelled. -/
namespace Verif.Rand

/-- `struct M_rand`, `base/math/m_rand.c:38-40`. -/
structure St where
  s0 : BitVec 64
  s1 : BitVec 64
  s2 : BitVec 64
  s3 : BitVec 64
deriving DecidableEq, Repr

/-- `base/math/m_rand.c:44-48`, `M_RAND_XOROSHIRO256SS_JUMP`. -/
def jumpTable : List (BitVec 64) := [0x180EC6D33CFD0ABA, 0xD5A61266F0C9392C, 0xA9582618E03FC9AA, 0x39ABDC4529B1661C]

/-- `base/math/m_rand.c:52-55`, `M_rand_rotate_left`. -/
def rotl (v : BitVec 64) (r : Nat) : BitVec 64 := (v <<< r) ||| (v >>> (64 - r))

/-- `base/math/m_rand.c:57-64`, `M_rand_splitmix64`. -/
def splitmix (seed : BitVec 64) : BitVec 64 :=
  let a := seed + 0x9E3779B97F4A7C15
  let b := (a ^^^ (a >>> 30)) * 0xBF58476D1CE4E5B9
  let c := (b ^^^ (b >>> 27)) * 0x94D049BB133111EB
  c ^^^ (c >>> 31)

/-- `base/math/m_rand.c:128`: the number `M_rand` returns. -/
def out (st : St) : BitVec 64 := rotl (st.s1 * 5) 7 * 9

/-- `base/math/m_rand.c:130-136`: the state `M_rand` leaves. -/
def step (st : St) : St :=
  let tmp := st.s1 <<< 17
  let s2 := st.s2 ^^^ st.s0
  let s3 := st.s3 ^^^ st.s1
  let s1 := st.s1 ^^^ s2
  let s0 := st.s0 ^^^ s3
  ⟨s0, s1, s2 ^^^ tmp, rotl s3 45⟩

/-- `base/math/m_rand.c:117-141`, `M_rand`. -/
def rand (st : St) : BitVec 64 × St := (out st, step st)

/-- `base/math/m_rand.c:255-263`: the loop over the bits of one word, from bit `b` on; `n` rounds are left, `acc` are the sums. -/
def jumpBits (w : BitVec 64) : Nat → Nat → St → St → St × St
  | 0, _, acc, st => (acc, st)
  | n + 1, b, acc, st =>
    let acc := if w &&& (1#64 <<< b) ≠ 0 then ⟨acc.s0 ^^^ st.s0, acc.s1 ^^^ st.s1, acc.s2 ^^^ st.s2, acc.s3 ^^^ st.s3⟩ else acc
    jumpBits w n (b + 1) acc (rand st).2

/-- `base/math/m_rand.c:254-264`: the loop over the words. -/
def jumpWords : List (BitVec 64) → St → St → St
  | [], acc, _ => acc
  | w :: ws, acc, st => jumpWords ws (jumpBits w 64 0 acc st).1 (jumpBits w 64 0 acc st).2

/-- `base/math/m_rand.c:242-270`, `M_rand_jump`. -/
def jump (st : St) : St := jumpWords jumpTable ⟨0, 0, 0, 0⟩ st

/-- `base/math/m_rand.c:69-106`, `M_rand_create`; `entropy` is the seed that is made up if none is given (76-98). -/
def create (seed entropy : BitVec 64) : St :=
  let seed := if seed = 0 then entropy else seed
  let a := splitmix seed
  let b := splitmix a
  let c := splitmix b
  jump ⟨seed, a, b, c⟩

/-- `M_RAND_MAX`, `include/mstdlib/base/m_rand.h:45`. -/
def randMax : BitVec 64 := 0xFFFFFFFFFFFFFFFF

/-- `base/math/m_rand.c:144-192`, `M_rand_range`: the number and the new state; `none` if more than `n` calls would be nested. -/
def range : Nat → St → BitVec 64 → BitVec 64 → Option (BitVec 64 × St)
  | 0, _, _, _ => none
  | n + 1, st, min, max =>
    if min ≥ max then
      if min = max then some (min, st) else some (0, st)
    else
      let range' := max - min
      let r := rand st
      if r.1 ≥ randMax - randMax % range' then range n r.2 min max
      else some (min + r.1 / (randMax / range'), r.2)

/-- `base/math/m_rand.c:216-218`: the loop of `M_rand_str`; `n` bounds the nested calls of each round, and `ub` is a read outside
the character set. -/
def strLoop (n : Nat) (charset : List UInt8) : Nat → St → List UInt8 → Option (Option (List UInt8) × St)
  | 0, st, acc => some (some acc, st)
  | len + 1, st, acc =>
    match range n st 0 (BitVec.ofNat 64 charset.length) with
    | none => none
    | some (i, st) => match charset[i.toNat]? with
      | none => some (none, st)
      | some c => strLoop n charset len st (acc ++ [c])

/-- `base/math/m_rand.c:201-222`, `M_rand_str`: `none` if a call does not return, then the buffer that was written, or `none` for a
read outside the character set.  The empty list tells failure. -/
def randStr (n : Nat) (st : St) (charset : List UInt8) (len : Nat) : Option (Option (List UInt8)) :=
  if charset.length = 0 ∨ len = 0 then some (some [])
  else (strLoop n charset len st []).map fun r => r.1.map (· ++ [0])

end Verif.Rand
