import Verif.Http.WriterModel
import Verif.Http.HeaderSpec
import Verif.Textcodec.PercentProps
import Verif.Time.Props
/- What the writers put out, for C87: a specification that does not use the functions of the model. -/
namespace Verif.Http.Frame
open Verif.Chr (isSpace toLower)
open Verif.Str (NoOuter join)

/-- `Host`. -/
def cHost : List UInt8 := [72, 111, 115, 116]
/-- `User-Agent`. -/
def cAgent : List UInt8 := [85, 115, 101, 114, 45, 65, 103, 101, 110, 116]
/-- `Content-Length`. -/
def cLength : List UInt8 := [67, 111, 110, 116, 101, 110, 116, 45, 76, 101, 110, 103, 116, 104]
/-- `Content-Type`. -/
def cType : List UInt8 := [67, 111, 110, 116, 101, 110, 116, 45, 84, 121, 112, 101]
/-- `Date`. -/
def cDate : List UInt8 := [68, 97, 116, 101]
/-- `charset`. -/
def cCharset : List UInt8 := [99, 104, 97, 114, 115, 101, 116]
/-- `application/octet-stream`. -/
def tOctets : List UInt8 := [97, 112, 112, 108, 105, 99, 97, 116, 105, 111, 110, 47, 111, 99, 116, 101, 116, 45, 115, 116, 114, 101, 97, 109]
/-- `text/plain`. -/
def tText : List UInt8 := [116, 101, 120, 116, 47, 112, 108, 97, 105, 110]

/-- A header with one value. -/
def one (name text : List UInt8) : Hdr := ⟨name, [⟨text, []⟩]⟩

/-- A header is added unless there is one of its name. -/
def orElse (x : Hdr) (hs : List Hdr) : List Hdr := if (lookup hs x.name).isSome then hs else hs ++ [x]

/-- Modifiers with another character set: in place of the one that was there, or at the end. -/
def charsetMods (cs : List UInt8) (ms : List (List UInt8 × List UInt8)) : List (List UInt8 × List UInt8) :=
  if ∃ m ∈ ms, Alike m.1 cCharset then ms.map fun m => if Alike m.1 cCharset then (m.1, cs) else m else ms ++ [(cCharset, cs)]

/-- A type with a character set. -/
def Hdr.withCharset (cs : List UInt8) (h : Hdr) : Hdr := if cs = [] then h else ⟨h.name, h.parts.map fun p => ⟨p.value, charsetMods cs p.mods⟩⟩

/-- The type when none is given. -/
def defaultType (cs : List UInt8) : Hdr := one cType (if cs = [] then tOctets else tText)

/-- The type of the message before it gets a character set: that of the argument, that of the headers, or the default. -/
def baseType (us : List Hdr) (ct : Option Hdr) (cs : List UInt8) : Hdr := ct.getD ((lookup us cType).getD (defaultType cs))

/-- The headers of the message: those given, a length and a type, and a date; `d` are the digits of the length. -/
def expected (us : List Hdr) (d : List UInt8) (ct : Option Hdr) (cs date : List UInt8) : List Hdr :=
  let hs := orElse (one cLength d) us
  let hs := match ct with
    | some t => without cType hs ++ [t]
    | none => orElse (defaultType cs) hs
  let hs := hs.map fun h => if Alike h.name cType then h.withCharset cs else h
  orElse (one cDate date) hs

/-- Headers with a host in place of the one that was there. -/
def hosted (us : List Hdr) : Option Hdr → List Hdr
  | some h => without cHost us ++ [h]
  | none => us

/-- The headers of a request: a host, and the name of the program. -/
def requested (us : List Hdr) (host agent : Option Hdr) : List Hdr := hosted us host ++ agent.toList

/-- The bytes that are sent: the number given, or up to the zero if no number is given and the data is a text. -/
inductive Data (hasLength : Bool) (cs : List UInt8) : Option (List UInt8) → Nat → List UInt8 → Prop
  | null : Data hasLength cs none 0 []
  | bytes {body rest : List UInt8} : (hasLength = true ∨ cs = [] ∨ body ≠ [] ∨ rest.head? = some 0) → Data hasLength cs (some (body ++ rest)) body.length body
  | text {body rest : List UInt8} : hasLength = false → cs ≠ [] → body ≠ [] → 0 ∉ body → Data hasLength cs (some (body ++ 0 :: rest)) 0 body

/-- What is asked of the headers given, the type and the character set: the headers are valid and of different names, none is
a `Transfer-Encoding`, a `Content-Length` is right; the type that is sent is valid and not multipart; the name of the character
set is short. -/
structure Input (us : List Hdr) (ct : Option Hdr) (cs body : List UInt8) : Prop where
  good : ∀ h ∈ us, h.Good
  distinct : us.Pairwise fun a b => ¬ Alike a.name b.name
  coding : ∀ h ∈ us, ¬ Is h.name nEncoding
  length : ∀ h ∈ us, Is h.name nLength → h.field.Length body.length
  small : body.length < 2 ^ 63
  typeName : ∀ t, ct = some t → t.name = cType ∧ t.Good
  type : ((baseType us ct cs).withCharset cs).Good
  multi : ((baseType us ct cs).withCharset cs).field.Inert
  charset : cs.length ≤ 119

/-- The name of a day. -/
def dayName (n : Int) : List UInt8 :=
  if n = 0 then [83, 117, 110] else if n = 1 then [77, 111, 110] else if n = 2 then [84, 117, 101] else if n = 3 then [87, 101, 100] else if n = 4 then [84, 104, 117] else if n = 5 then [70, 114, 105] else [83, 97, 116]

/-- The name of a month. -/
def monthName (n : Int) : List UInt8 :=
  if n = 1 then [74, 97, 110] else if n = 2 then [70, 101, 98] else if n = 3 then [77, 97, 114] else if n = 4 then [65, 112, 114] else if n = 5 then [77, 97, 121] else if n = 6 then [74, 117, 110]
  else if n = 7 then [74, 117, 108] else if n = 8 then [65, 117, 103] else if n = 9 then [83, 101, 112] else if n = 10 then [79, 99, 116] else if n = 11 then [78, 111, 118] else [68, 101, 99]

/-- Two digits. -/
def d2 (n : Int) : List UInt8 := [UInt8.ofNat (48 + n.toNat / 10), UInt8.ofNat (48 + n.toNat % 10)]

/-- The text is the date and the time of day, such as `Sun, 06 Nov 1994 08:49:37 GMT`, of a number of seconds since 1970. -/
def DateOf (now : Int) (text : List UInt8) : Prop :=
  ∃ year month day hour min sec : Int, Time.Spec.ValidDate year month day ∧ (0 ≤ hour ∧ hour < 24) ∧ (0 ≤ min ∧ min < 60) ∧ (0 ≤ sec ∧ sec < 60) ∧
    Time.Spec.seconds year month day hour min sec = now ∧
    ∃ y : List UInt8, ((0 ≤ year ∧ Digits 10 y year.toNat) ∨ (year < 0 ∧ ∃ z, y = 45 :: z ∧ Digits 10 z year.natAbs)) ∧
      text = dayName ((now / 86400 + 4) % 7) ++ [44, 32] ++ d2 day ++ [32] ++ monthName month ++ [32] ++ y ++ [32] ++ d2 hour ++ [58] ++ d2 min ++ [58] ++ d2 sec ++ [32, 71, 77, 84]

/-- The target that is written for an address: `/` for none; itself if it is ASCII without spaces; else a percent encoding. -/
def Target (uri t : List UInt8) : Prop :=
  if uri = [] then t = [47]
  else if ∀ c ∈ uri, c ≠ 32 ∧ c < 128 then t = uri
  else Textcodec.Means false t uri ∧ ∀ c ∈ t, 0x21 ≤ c ∧ c ≤ 0x7E

end Verif.Http.Frame
