import Verif.Codepage.Tables
import Verif.Utf8.Model
/- Model of `text/textcodec/m_textcodec_cp_map.c`, `m_textcodec_utf8.c` and the entry points of `m_textcodec.c` for UTF-8
and the code pages.

A string is the list of bytes from the pointer to the end of its memory block, as in `Verif.Utf8`; `none` is undefined
behaviour (a read outside the block or through NULL).  The input is not NULL and the parameters are valid.  The codecs
UNKNOWN, percent, punycode and quoted-printable are left out. -/
namespace Verif.Codepage
open Verif.Utf8

/-- The code pages of `include/mstdlib/text/m_textcodec.h:106-133`. -/
inductive Page
  | ascii | cp037 | cp500 | cp874 | cp1250 | cp1251 | cp1252 | cp1253 | cp1254 | cp1255 | cp1256 | cp1257 | cp1258
  | iso8859_1 | iso8859_2 | iso8859_3 | iso8859_4 | iso8859_5 | iso8859_6 | iso8859_7 | iso8859_8 | iso8859_9 | iso8859_10 | iso8859_11 | iso8859_13 | iso8859_14 | iso8859_15 | iso8859_16
deriving DecidableEq, Repr

/-- The table each page's functions hand to the mapping functions, with the dispatch of `text/textcodec/m_textcodec.c:127-182`
and 212-267. -/
def table : Page → List (Nat × Nat)
  | .ascii => Verif.Codepage.ascii
  | .cp037 => Verif.Codepage.cp037
  | .cp500 => Verif.Codepage.cp500
  | .cp874 => Verif.Codepage.cp874
  | .cp1250 => Verif.Codepage.cp1250
  | .cp1251 => Verif.Codepage.cp1251
  | .cp1252 => Verif.Codepage.cp1252
  | .cp1253 => Verif.Codepage.cp1253
  | .cp1254 => Verif.Codepage.cp1254
  | .cp1255 => Verif.Codepage.cp1255
  | .cp1256 => Verif.Codepage.cp1256
  | .cp1257 => Verif.Codepage.cp1257
  | .cp1258 => Verif.Codepage.cp1258
  | .iso8859_1 => Verif.Codepage.iso8859_1
  | .iso8859_2 => Verif.Codepage.iso8859_2
  | .iso8859_3 => Verif.Codepage.iso8859_3
  | .iso8859_4 => Verif.Codepage.iso8859_4
  | .iso8859_5 => Verif.Codepage.iso8859_5
  | .iso8859_6 => Verif.Codepage.iso8859_6
  | .iso8859_7 => Verif.Codepage.iso8859_7
  | .iso8859_8 => Verif.Codepage.iso8859_8
  | .iso8859_9 => Verif.Codepage.iso8859_9
  | .iso8859_10 => Verif.Codepage.iso8859_10
  | .iso8859_11 => Verif.Codepage.iso8859_11
  | .iso8859_13 => Verif.Codepage.iso8859_13
  | .iso8859_14 => Verif.Codepage.iso8859_14
  | .iso8859_15 => Verif.Codepage.iso8859_15
  | .iso8859_16 => Verif.Codepage.iso8859_16

/-- `M_textcodec_ehandler_t`, `include/mstdlib/text/m_textcodec.h:95-99`. -/
inductive Handler | fail | replace | ignore
deriving DecidableEq, Repr

/-- `M_textcodec_error_t`, `include/mstdlib/text/m_textcodec.h:149-156`, without the value for invalid parameters. -/
inductive Res | success | handled | fail | badInput
deriving DecidableEq, Repr

/-- `text/textcodec/m_textcodec.c:372-382`, `M_textcodec_error_is_error`. -/
def Res.isError : Res → Bool
  | .success | .handled => false
  | _ => true

/-- `M_CP_REPLACE`, `text/textcodec/m_textcodec_int.h:53`. -/
def cpReplace : UInt8 := 63

/-- `M_UTF8_REPLACE`, `text/textcodec/m_textcodec_int.h:54`. -/
def utf8Replace : List UInt8 := [0xFF, 0xFD]

/-- `M_hash_u64u64_get` on the multi-value map from code points to bytes, `text/textcodec/m_textcodec_cp_map.c:50-53` and 71:
the value inserted first. -/
def findByte (t : List (Nat × Nat)) (u : Nat) : Option Nat := (t.find? fun p => p.2 == u).map (·.1)

/-- The same on the map from bytes to code points, `text/textcodec/m_textcodec_cp_map.c:103-106` and 117. -/
def findCode (t : List (Nat × Nat)) (b : Nat) : Option Nat := (t.find? fun p => p.1 == b).map (·.2)

/-- The loop of `text/textcodec/m_textcodec_cp_map.c:55-89`.  When `M_utf8_get_cp` fails it has set `next` to NULL
(`base/utf8/m_utf8.c:157-158`) and `M_utf8_next_chr` of NULL is NULL (252-253), so that whatever the handler does the test
of the loop reads through NULL.  `fuel` bounds the number of iterations. -/
def encodeLoop (t : List (Nat × Nat)) (eh : Handler) : Nat → List UInt8 → Res → List UInt8 → Option (Res × List UInt8)
  | 0, _, _, _ => none
  | fuel + 1, s, res, out =>
    s[0]?.bind fun c =>
    if c = 0 ∨ res.isError then some (res, out)
    else (getCp s).bind fun
      | .error _ => none
      | .ok (u, next) =>
        match findByte t u with
        | some b => encodeLoop t eh fuel next res (out ++ [UInt8.ofNat b])
        | none =>
          match eh with
          | .fail => encodeLoop t eh fuel next .fail out
          | .replace => encodeLoop t eh fuel next .handled (out ++ [cpReplace])
          | .ignore => encodeLoop t eh fuel next .handled out

/-- `text/textcodec/m_textcodec_cp_map.c:42-93`, `M_textcodec_encode_cp_map`: the result and the bytes added. -/
def encodeCpMap (t : List (Nat × Nat)) (eh : Handler) (s : List UInt8) : Option (Res × List UInt8) :=
  encodeLoop t eh (s.length + 1) s .success []

/-- `M_str_len`: the bytes before the terminator. -/
def chars : List UInt8 → Option (List UInt8)
  | [] => none
  | c :: s => if c = 0 then some [] else (chars s).map (c :: ·)

/-- The look up and the encoding of one byte, `text/textcodec/m_textcodec_cp_map.c:117-122`, with a buffer of 16 bytes. -/
def decodeByte (t : List (Nat × Nat)) (c : UInt8) : Option (List UInt8) :=
  match findCode t c.toNat with
  | none => none
  | some u =>
    match fromCp 16 u with
    | .ok bytes => some bytes
    | .error _ => none

/-- The loop of `text/textcodec/m_textcodec_cp_map.c:109-141`. -/
def decodeLoop (t : List (Nat × Nat)) (eh : Handler) : List UInt8 → Res → List UInt8 → Res × List UInt8
  | [], res, out => (res, out)
  | c :: s, res, out =>
    match decodeByte t c with
    | some bytes => decodeLoop t eh s res (out ++ bytes)
    | none =>
      match eh with
      | .fail => (.fail, out)
      | .replace => decodeLoop t eh s .handled (out ++ utf8Replace)
      | .ignore => decodeLoop t eh s .handled out

/-- `text/textcodec/m_textcodec_cp_map.c:95-145`, `M_textcodec_decode_cp_map`. -/
def decodeCpMap (t : List (Nat × Nat)) (eh : Handler) (s : List UInt8) : Option (Res × List UInt8) :=
  (chars s).map fun cs => decodeLoop t eh cs .success []

/-- The loop of `text/textcodec/m_textcodec_utf8.c:43-69`; `enc` is `is_encode`, `fl` tells that the handler is FAIL. -/
def utf8Loop (enc fl : Bool) : Nat → List UInt8 → Res → List UInt8 → Option (Res × List UInt8)
  | 0, _, _, _ => none
  | fuel + 1, s, res, out =>
    s[0]?.bind fun c =>
    if c = 0 then some (res, out)
    else (isValid s).bind fun
      | (true, e) => utf8Loop enc fl fuel e res (out ++ s.take (s.length - e.length))
      | (false, e) =>
        if fl then some (.fail, out)
        else (nextChr e).bind fun
          | none => none
          | some e' =>
            utf8Loop enc fl fuel e' .handled
              (out ++ s.take (s.length - e.length) ++ (if enc then [cpReplace] else utf8Replace))

/-- `text/textcodec/m_textcodec_utf8.c:29-72`, `M_textcodec_utf8_to_utf8`. -/
def utf8ToUtf8 (enc : Bool) (eh : Handler) (s : List UInt8) : Option (Res × List UInt8) :=
  match eh with
  | .ignore =>
    (chars s).bind fun cs =>
    (isValid s).map fun v => (if v.1 then .success else .handled, cs)
  | _ => utf8Loop enc (eh == .fail) (s.length + 1) s .success []

/-- The codecs modelled. -/
inductive Codec | utf8 | page (p : Page)

/-- `text/textcodec/m_textcodec.c:106-195` and 304-313, `M_textcodec_encode_buf`: the result and the bytes appended. -/
def encode (eh : Handler) (codec : Codec) (s : List UInt8) : Option (Res × List UInt8) :=
  s[0]?.bind fun c =>
  if c = 0 then some (.success, [])
  else
    match codec with
    | .utf8 => utf8ToUtf8 true eh s
    | .page p =>
      (isValid s).bind fun v =>
      if ¬ v.1 ∧ eh = .fail then some (.badInput, [])
      else encodeCpMap (table p) eh s

/-- `text/textcodec/m_textcodec.c:197-280` and 348-357, `M_textcodec_decode_buf`. -/
def decode (eh : Handler) (codec : Codec) (s : List UInt8) : Option (Res × List UInt8) :=
  s[0]?.bind fun c =>
  if c = 0 then some (.success, [])
  else
    match codec with
    | .utf8 => utf8ToUtf8 false eh s
    | .page p => decodeCpMap (table p) eh s

end Verif.Codepage
