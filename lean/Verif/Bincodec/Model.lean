/- Model of the binary codecs `base/bincodec/m_base64.c`, `m_base32.c`, `m_hex.c`.

Memory is explicit: the input buffer is a list of bytes and every read of it goes through `inp[i]?`; an output buffer of
capacity `cap` is written through `put`.  A read or write outside makes the function return `none` (undefined behaviour).
The result `some []` is a return value of 0 (failure; a successful call never returns 0).  Pointers are not NULL.
`size_t` does not wrap in the size computations except where stated; characters are unsigned bytes (all comparisons in
this code treat bytes above 127 alike, signed or not). -/
namespace Verif.Bincodec

/-- `out[pos++] = c` in a buffer of `cap` bytes of which `out` are written. -/
def put (cap : Nat) (out : List UInt8) (c : UInt8) : Option (List UInt8) :=
  if out.length < cap then some (out ++ [c]) else none

/-- `base/data/m_chr.c:56-59`, `M_chr_isspace`, with `M_chr_isblank`. -/
def isSpace (c : UInt8) : Bool := c == 32 || c == 9 || c == 12 || c == 10 || c == 13 || c == 11

/-- The text of a literal. -/
def str (s : String) : List UInt8 := s.toList.map fun c => UInt8.ofNat c.toNat

/-- `while (*idx < inlen && M_chr_isspace(in[*idx])) (*idx)++`, the loop of `M_base64_get_decchar` and `get_byte`. -/
def skipWs (inp : List UInt8) (inlen idx : Nat) : Option Nat :=
  if idx < inlen then
    match inp[idx]? with
    | none => none
    | some c => if isSpace c then skipWs inp inlen (idx + 1) else some idx
  else some idx
termination_by inlen - idx

/-! ### base64 -/

/-- `base/bincodec/m_base64.c:31`. -/
def encTable : List UInt8 := str "ABCDEFGHIJKLMNOPQRSTUVWXYZabcdefghijklmnopqrstuvwxyz0123456789+/"

/-- `base/bincodec/m_base64.c:34-38`. -/
def decTable : List Int :=
  [62, -1, -1, -1, 63, 52, 53, 54, 55, 56, 57, 58, 59, 60, 61,
   -1, -1, -1, -1, -1, -1, -1, 0, 1, 2, 3, 4, 5, 6, 7, 8, 9, 10,
   11, 12, 13, 14, 15, 16, 17, 18, 19, 20, 21, 22, 23, 24, 25, -1,
   -1, -1, -1, -1, -1, 26, 27, 28, 29, 30, 31, 32, 33, 34, 35, 36,
   37, 38, 39, 40, 41, 42, 43, 44, 45, 46, 47, 48, 49, 50, 51]

/-- `base/bincodec/m_base64.c:42-53`, `b64_isvalidchar`. -/
def b64Valid (c : UInt8) : Bool :=
  (48 ≤ c && c ≤ 57) || (65 ≤ c && c ≤ 90) || (97 ≤ c && c ≤ 122) || c == 43 || c == 47 || c == 61

/-- `base/bincodec/m_base64.c:55-61`, `M_base64_encode_adder`; state: bytes written and `len`. -/
def b64Adder (cap wrap : Nat) (st : List UInt8 × Nat) (c : UInt8) : Option (List UInt8 × Nat) := do
  let out ← put cap st.1 c
  let len := st.2 + 1
  if wrap > 0 ∧ len > 0 ∧ len % wrap = 0 then
    let out ← put cap out 10
    some (out, len)
  else some (out, len)

/-- `base/bincodec/m_base64.c:116-138`, `M_base64_encode_size`. -/
def b64EncodeSize (inlen wrap : Nat) : Nat :=
  if inlen = 0 then 0
  else
    let ret := (4 * inlen / 3 + 3) / 4 * 4
    let ret := if wrap > 0 then (if ret % wrap ≠ 0 then ret + ret / wrap else ret + (ret / wrap - 1)) else ret
    ret + 1

/-- `base/bincodec/m_base64.c:140-147`, `M_base64_decode_size`. -/
def b64DecodeSize (inlen : Nat) : Nat := inlen / 4 * 3

/-- `enc_table[i]`, `i` is always masked with 63. -/
def encChar (i : Nat) : UInt8 := encTable.getD i 0

/-- The encoding loop of `base/bincodec/m_base64.c:149-207`, `M_base64_encode` (lines 160-198). -/
def b64EncLoop (cap wrap : Nat) : List UInt8 → List UInt8 × Nat → Option (List UInt8 × Nat)
  | a :: b :: c :: rest, st => do
    let tmp := a.toNat <<< 16 ||| b.toNat <<< 8 ||| c.toNat
    let st ← b64Adder cap wrap st (encChar (tmp >>> 18 &&& 63))
    let st ← b64Adder cap wrap st (encChar (tmp >>> 12 &&& 63))
    let st ← b64Adder cap wrap st (encChar (tmp >>> 6 &&& 63))
    let st ← b64Adder cap wrap st (encChar (tmp &&& 63))
    b64EncLoop cap wrap rest st
  | [a, b], st => do
    let tmp := a.toNat <<< 16 ||| b.toNat <<< 8
    let st ← b64Adder cap wrap st (encChar (tmp >>> 18 &&& 63))
    let st ← b64Adder cap wrap st (encChar (tmp >>> 12 &&& 63))
    let st ← b64Adder cap wrap st (encChar (tmp >>> 6 &&& 63))
    b64Adder cap wrap st 61
  | [a], st => do
    let tmp := a.toNat <<< 16
    let st ← b64Adder cap wrap st (encChar (tmp >>> 18 &&& 63))
    let st ← b64Adder cap wrap st (encChar (tmp >>> 12 &&& 63))
    let st ← b64Adder cap wrap st 61
    b64Adder cap wrap st 61
  | [], st => some st

/-- `base/bincodec/m_base64.c:149-207`, `M_base64_encode`: the bytes of the string written. -/
def b64Encode (cap : Nat) (inp : List UInt8) (wrap : Nat) : Option (List UInt8) :=
  if cap = 0 ∨ inp.length = 0 ∨ cap < b64EncodeSize inp.length wrap then some []
  else do
    let (out, _) ← b64EncLoop cap wrap inp ([], 0)
    let out := if out.getLast? = some 10 then out.dropLast else out
    let _ ← put cap out 0
    some out

/-- `base/bincodec/m_base64.c:63-103`, `M_base64_get_decchar`: `some none` is M_FALSE, otherwise the value and the new
index.  The padding test of line 86 is in 64-bit unsigned arithmetic. -/
def b64GetDecchar (inp : List UInt8) (inlen idx : Nat) : Option (Option (Nat × Nat)) :=
  if idx ≥ inlen then some none
  else do
    let idx ← skipWs inp inlen idx
    if idx ≥ inlen then some none
    else do
      let c ← inp[idx]?
      if ¬ b64Valid c then some none
      else if c = 61 then
        if idx < (inlen + 2 ^ 64 - 2) % 2 ^ 64 then some none else some (some (0, idx + 1))
      else if c < 43 ∨ c.toNat - 43 > 4 * decTable.length then some none
      else do
        let v ← decTable[c.toNat - 43]?
        if v = -1 then some none else some (some (v.toNat, idx + 1))

/-- The loop of `base/bincodec/m_base64.c:209-259`, `M_base64_decode` (lines 230-258); `none` also when the fuel runs out. -/
def b64DecLoop (cap : Nat) (inp : List UInt8) (inlen : Nat) : Nat → Nat → List UInt8 → Option (List UInt8)
  | 0, _, _ => none
  | fuel + 1, i, out =>
    if i < inlen then
      (b64GetDecchar inp inlen i).bind fun
      | none => some []
      | some (a, i) => (b64GetDecchar inp inlen i).bind fun
      | none => some []
      | some (b, i) => (b64GetDecchar inp inlen i).bind fun
      | none => some []
      | some (c, i) => (b64GetDecchar inp inlen i).bind fun
      | none => some []
      | some (d, i) =>
        let tmp := a <<< 18 ||| b <<< 12 ||| c <<< 6 ||| d
        -- M_base64_write_decchar (lines 105-112) tests the capacity
        if out.length ≥ cap then some []
        else
          let out := out ++ [UInt8.ofNat (tmp >>> 16 &&& 0xFF)]
          (if i ≠ inlen then some true else inp[inlen - 2]?.map fun x => x != 61).bind fun w2 =>
          if w2 ∧ out.length ≥ cap then some []
          else
            let out := if w2 then out ++ [UInt8.ofNat (tmp >>> 8 &&& 0xFF)] else out
            (if i ≠ inlen then some true else inp[inlen - 1]?.map fun x => x != 61).bind fun w3 =>
            if w3 ∧ out.length ≥ cap then some []
            else
              let out := if w3 then out ++ [UInt8.ofNat (tmp &&& 0xFF)] else out
              b64DecLoop cap inp inlen fuel i out
    else some out

/-- `while (M_chr_isspace(in[inlen-1])) inlen--;` (lines 224-225): reads `in[-1]` when everything is whitespace. -/
def b64Trim (inp : List UInt8) : Nat → Option Nat
  | 0 => none
  | n + 1 => match inp[n]? with
    | none => none
    | some c => if isSpace c then b64Trim inp n else some (n + 1)

/-- `base/bincodec/m_base64.c:209-259`, `M_base64_decode` of the first `inlen` bytes at `inp` into `cap` bytes. -/
def b64Decode (cap : Nat) (inp : List UInt8) (inlen : Nat) : Option (List UInt8) :=
  if cap = 0 ∨ inlen = 0 then some []
  else do
    let inlen ← b64Trim inp inlen
    b64DecLoop cap inp inlen (inlen + 1) 0 []

/-! ### base32 -/

/-- `base/bincodec/m_base32.c:60`. -/
def charset32 : List UInt8 := str "ABCDEFGHIJKLMNOPQRSTUVWXYZ234567"

/-- `base/bincodec/m_base32.c:62-79`, rows of 16. -/
def revCharset32 : List Int :=
  List.replicate 48 (-1) ++
  [-1, -1, 26, 27, 28, 29, 30, 31, -1, -1, -1, -1, -1,  0, -1, -1,
   -1,  0,  1,  2,  3,  4,  5,  6,  7,  8,  9, 10, 11, 12, 13, 14,
   15, 16, 17, 18, 19, 20, 21, 22, 23, 24, 25, -1, -1, -1, -1, -1,
   -1,  0,  1,  2,  3,  4,  5,  6,  7,  8,  9, 10, 11, 12, 13, 14,
   15, 16, 17, 18, 19, 20, 21, 22, 23, 24, 25, -1, -1, -1, -1, -1] ++ List.replicate 128 (-1)

/-- `base/bincodec/m_base32.c:29-52`, `M_base32_encode_size`. -/
def b32EncodeSize (len wrap : Nat) : Nat :=
  if len = 0 then 0
  else
    let ret := (8 * len + 4) / 5
    let ret := if ret % 8 ≠ 0 then ret + (8 - ret % 8) else ret
    let ret := if wrap > 0 then (if ret % wrap ≠ 0 then ret + ret / wrap else ret + (ret / wrap - 1)) else ret
    ret + 1

/-- `base/bincodec/m_base32.c:54-58`, `M_base32_decode_size`. -/
def b32DecodeSize (len : Nat) : Nat := len / 8 * 5

/-- Lines 103-111 for one character; state: bytes written and `datalen`. -/
def b32Adder (cap wrap : Nat) (st : List UInt8 × Nat) (c : UInt8) : Option (List UInt8 × Nat) := do
  let out ← if wrap ≠ 0 ∧ st.2 > 0 ∧ st.2 % wrap = 0 then put cap st.1 10 else some st.1
  let out ← put cap out c
  some (out, st.2 + 1)

/-- Lines 98-100: the 40-bit number of a group of at most five bytes. -/
def b32Number (g : List UInt8) : Nat := g.zipIdx.foldl (fun n p => n ||| p.1.toNat <<< (32 - p.2 * 8)) 0

/-- Lines 106-110: character `j` of a group of `bytes` bytes with number `n`. -/
def b32Char (n bytes j : Nat) : UInt8 := if j * 5 > bytes * 8 then 61 else charset32.getD (n >>> (35 - j * 5) &&& 0x1F) 0

/-- The loop of `base/bincodec/m_base32.c:81-117`, `M_base32_encode` (lines 90-113). -/
def b32EncLoop (cap wrap : Nat) (inp : List UInt8) (st : List UInt8 × Nat) : Option (List UInt8 × Nat) :=
  if inp = [] then some st
  else
    let g := inp.take 5
    ((List.range 8).foldlM (fun st j => b32Adder cap wrap st (b32Char (b32Number g) g.length j)) st).bind fun st =>
      b32EncLoop cap wrap (inp.drop 5) st
termination_by inp.length
decreasing_by
  cases inp with
  | nil => contradiction
  | cons a l => simp; omega

/-- `base/bincodec/m_base32.c:81-117`, `M_base32_encode`. -/
def b32Encode (cap : Nat) (inp : List UInt8) (wrap : Nat) : Option (List UInt8) :=
  if cap = 0 ∨ inp.length = 0 ∨ cap < b32EncodeSize inp.length wrap then some []
  else do
    let (out, _) ← b32EncLoop cap wrap inp ([], 0)
    let _ ← put cap out 0
    some out

/-- `while (M_chr_isspace(*in)) in++;` (lines 135-136). -/
def b32Skip (inp : List UInt8) (idx : Nat) : Option Nat :=
  if h : idx < inp.length then if isSpace inp[idx] then b32Skip inp (idx + 1) else some idx else none
termination_by inp.length - idx

/-- Lines 131-148: reads the rest of a group from character `j` on; `some none` is `return 0`. -/
def b32Group (inp : List UInt8) : Nat → Nat → Nat → Nat → Option (Option (Nat × Nat))
  | 0, _, idx, n => some (some (n, idx))
  | left + 1, j, idx, n => do
    let idx ← b32Skip inp idx
    let c ← inp[idx]?
    if c = 0 then some none
    else do
      let v ← revCharset32[c.toNat]?
      if v < 0 then some none else b32Group inp left (j + 1) (idx + 1) (n ||| v.toNat <<< (35 - j * 5))

/-- Lines 151-153. -/
def b32Write (cap : Nat) (out : List UInt8) (n : Nat) : Option (List UInt8) :=
  (List.range 5).foldlM (fun out i => put cap out (UInt8.ofNat (n >>> (32 - i * 8) &&& 0xFF))) out

/-- The loop of `base/bincodec/m_base32.c:119-156`, `M_base32_decode` (lines 126-154). -/
def b32DecLoop (cap : Nat) (inp : List UInt8) : Nat → Nat → List UInt8 → Option (List UInt8)
  | 0, _, _ => none
  | fuel + 1, idx, out => do
    let c ← inp[idx]?
    if c = 0 then some out
    else (b32Group inp 8 0 idx 0).bind fun
      | none => some []
      | some (n, idx) => (b32Write cap out n).bind fun out => b32DecLoop cap inp fuel idx out

/-- `base/bincodec/m_base32.c:119-156`, `M_base32_decode`: `inlen` is only used for the size test. -/
def b32Decode (cap : Nat) (inp : List UInt8) (inlen : Nat) : Option (List UInt8) :=
  if cap = 0 ∨ inlen = 0 ∨ cap < b32DecodeSize inlen then some []
  else b32DecLoop cap inp (inp.length + 1) 0 []

/-! ### hex -/

/-- `base/bincodec/m_hex.c:29`, hex2dec. -/
def hex2dec (c : UInt8) : Nat := if c ≥ 97 then c.toNat - 97 + 10 else if c ≥ 65 then c.toNat - 65 + 10 else c.toNat - 48

/-- `base/bincodec/m_hex.c:31-40`, `hex_isvalidchar`. -/
def hexValid (c : UInt8) : Bool := (48 ≤ c && c ≤ 57) || (65 ≤ c && c ≤ 70) || (97 ≤ c && c ≤ 102)

/-- `base/bincodec/m_hex.c:42-50`, `add_byte`; state: bytes written and `linelen`. -/
def hexAdd (cap wrap : Nat) (st : List UInt8 × Nat) (c : UInt8) : Option (List UInt8 × Nat) := do
  let out ← put cap st.1 c
  let linelen := st.2 + 1
  if wrap > 0 ∧ linelen ≥ wrap then
    let out ← put cap out 10
    some (out, 0)
  else some (out, linelen)

/-- `base/bincodec/m_hex.c:69-78`, `M_hex_target_size`. -/
def hexEncodeSize (n wrap : Nat) : Nat := if n = 0 then 0 else if wrap = 0 then n * 2 else n * 2 + (n * 2 / wrap + 1)

/-- The digits, `base/bincodec/m_hex.c:82`. -/
def hexDigits : List UInt8 := str "0123456789ABCDEF"

/-- The loop of `base/bincodec/m_hex.c:80-101`, `M_hex_encode` (lines 90-95). -/
def hexEncLoop (cap wrap : Nat) : List UInt8 → List UInt8 × Nat → Option (List UInt8 × Nat)
  | [], st => some st
  | b :: rest, st => do
    let st ← hexAdd cap wrap st (hexDigits.getD ((0xf0 &&& b.toNat) >>> 4) 0)
    let st ← hexAdd cap (if rest = [] then 0 else wrap) st (hexDigits.getD (0x0f &&& b.toNat) 0)
    hexEncLoop cap wrap rest st

/-- `base/bincodec/m_hex.c:80-101`, `M_hex_encode`. -/
def hexEncode (cap : Nat) (inp : List UInt8) (wrap : Nat) : Option (List UInt8) :=
  if inp.length = 0 ∨ cap < hexEncodeSize inp.length wrap then some []
  else do
    let (out, _) ← hexEncLoop cap wrap inp ([], 0)
    let _ ← if out.length < cap then put cap out 0 else some out
    some out

/-- `base/bincodec/m_hex.c:52-67`, `get_byte`: `(none, fail)` is M_FALSE. -/
def hexGet (inp : List UInt8) (inlen i : Nat) : Option (Option UInt8 × Bool × Nat) := do
  let i ← skipWs inp inlen i
  if i ≥ inlen then some (none, false, i)
  else do
    let c ← inp[i]?
    if ¬ hexValid c then some (none, true, i) else some (some c, false, i + 1)

/-- The loop of `base/bincodec/m_hex.c:103-121`, `M_hex_decode` (lines 114-120). -/
def hexDecLoop (cap : Nat) (inp : List UInt8) (inlen : Nat) : Nat → Nat → List UInt8 → Option (List UInt8)
  | 0, _, _ => none
  | fuel + 1, i, out => (hexGet inp inlen i).bind fun
    | (none, fail, _) => some (if fail then [] else out)
    | (some c1, _, i) => (hexGet inp inlen i).bind fun
      | (none, fail, _) => some (if fail then [] else out)
      | (some c2, _, i) => (put cap out (UInt8.ofNat (hex2dec c1 <<< 4 ||| hex2dec c2))).bind fun out =>
          hexDecLoop cap inp inlen fuel i out

/-- `base/bincodec/m_hex.c:103-121`, `M_hex_decode`. -/
def hexDecode (cap : Nat) (inp : List UInt8) (inlen : Nat) : Option (List UInt8) :=
  if inlen = 0 ∨ inlen % 2 ≠ 0 ∨ cap < inlen / 2 then some []
  else hexDecLoop cap inp inlen (inlen + 1) 0 []

/-! ### The allocating front ends -/

inductive Codec
  | base64
  | base32
  | hex
deriving DecidableEq

/-- `base/bincodec/m_bincodec.c:46-61`, `M_bincodec_encode_size`. -/
def encodeSize (c : Codec) (n wrap : Nat) : Nat := match c with
  | .base64 => b64EncodeSize n wrap
  | .base32 => b32EncodeSize n wrap
  | .hex => hexEncodeSize n wrap

/-- `base/bincodec/m_bincodec.c:32-44`, `M_bincodec_decode_size`. -/
def decodeSize (c : Codec) (n : Nat) : Nat := match c with
  | .base64 => b64DecodeSize n
  | .base32 => b32DecodeSize n
  | .hex => n / 2

/-- `base/bincodec/m_bincodec.c:92-106`, `M_bincodec_encode`. -/
def encode (c : Codec) (cap : Nat) (inp : List UInt8) (wrap : Nat) : Option (List UInt8) := match c with
  | .base64 => b64Encode cap inp wrap
  | .base32 => b32Encode cap inp wrap
  | .hex => hexEncode cap inp wrap

/-- `base/bincodec/m_bincodec.c:160-174`, `M_bincodec_decode`. -/
def decode (c : Codec) (cap : Nat) (inp : List UInt8) (inlen : Nat) : Option (List UInt8) := match c with
  | .base64 => b64Decode cap inp inlen
  | .base32 => b32Decode cap inp inlen
  | .hex => hexDecode cap inp inlen

/-- `base/bincodec/m_bincodec.c:63-90`, `M_bincodec_encode_alloc`: the string, `some none` is NULL. -/
def encodeAlloc (c : Codec) (inp : List UInt8) (wrap : Nat) : Option (Option (List UInt8)) :=
  if inp.length = 0 then some none
  else if encodeSize c inp.length wrap = 0 then some none
  else (encode c (encodeSize c inp.length wrap + 1) inp wrap).bind fun s =>
    if s.length > 0 then (put (encodeSize c inp.length wrap + 1) s 0).map fun _ => some s else some none

/-- `base/bincodec/m_bincodec.c:108-139`, `M_bincodec_decode_alloc`: the bytes, `some none` is NULL.  The decoder is
told the size without the extra byte, which receives the terminator. -/
def decodeAlloc (c : Codec) (inp : List UInt8) (inlen : Nat) : Option (Option (List UInt8)) :=
  if inlen = 0 then some none
  else if decodeSize c inlen = 0 then some none
  else (decode c (decodeSize c inlen) inp inlen).bind fun d =>
    if d.length > 0 then (put (decodeSize c inlen + 1) d 0).map fun _ => some d else some none

end Verif.Bincodec
