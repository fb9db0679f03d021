import Verif.Http.Model
import Verif.Str.SplitProps
import Verif.Num.Props
/- What a message is, for C85: a specification that does not use the functions of the reader. -/
namespace Verif.Http.Frame
open Verif.Chr (isSpace toLower)
open Verif.Str (NoOuter join)
open Verif.Num (value digitVal)

/-- The end of a line. -/
def eol : List UInt8 := [13, 10]

/-- A name is a given one, whatever the case of its letters. -/
def Is (name lit : List UInt8) : Prop := name.map toLower = lit

instance (a b : List UInt8) : Decidable (Is a b) := inferInstanceAs (Decidable (_ = _))

/-- `content-length`. -/
def nLength : List UInt8 := [99, 111, 110, 116, 101, 110, 116, 45, 108, 101, 110, 103, 116, 104]
/-- `transfer-encoding`. -/
def nEncoding : List UInt8 := [116, 114, 97, 110, 115, 102, 101, 114, 45, 101, 110, 99, 111, 100, 105, 110, 103]
/-- `content-type`. -/
def nType : List UInt8 := [99, 111, 110, 116, 101, 110, 116, 45, 116, 121, 112, 101]
/-- `www-authenticate`. -/
def nAuthenticate : List UInt8 := [119, 119, 119, 45, 97, 117, 116, 104, 101, 110, 116, 105, 99, 97, 116, 101]
/-- `proxy-authorization`. -/
def nAuthorization : List UInt8 := [112, 114, 111, 120, 121, 45, 97, 117, 116, 104, 111, 114, 105, 122, 97, 116, 105, 111, 110]
/-- `date`. -/
def nDate : List UInt8 := [100, 97, 116, 101]
/-- `chunked`. -/
def vChunked : List UInt8 := [99, 104, 117, 110, 107, 101, 100]
/-- `multipart/form-data`. -/
def vMultipart : List UInt8 := [109, 117, 108, 116, 105, 112, 97, 114, 116, 47, 102, 111, 114, 109, 45, 100, 97, 116, 97]
/-- `boundary`. -/
def vBoundary : List UInt8 := [98, 111, 117, 110, 100, 97, 114, 121]

/-- A header field: its name and the parts of its value, between which there is a comma and a space. -/
structure Field where
  name : List UInt8
  parts : List (List UInt8)

/-- The value of a field. -/
def Field.text (f : Field) : List UInt8 := join [44, 32] f.parts
/-- The line of a field, without its end. -/
def Field.line (f : Field) : List UInt8 := f.name ++ [58, 32] ++ f.text

/-- Fields whose value is one text, even with commas in it. -/
def Field.whole (f : Field) : Prop := Is f.name nAuthenticate ∨ Is f.name nAuthorization ∨ Is f.name nType ∨ Is f.name nDate

instance (f : Field) : Decidable f.whole := inferInstanceAs (Decidable (_ ∨ _))

/-- The values the user is told. -/
def Field.values (f : Field) : List (List UInt8) := if f.whole then [f.text] else f.parts

/-- A name without white space, colons and zero bytes; a value of parts that do not begin or end with white space and have no
carriage returns or zero bytes, nor commas if the value is not one text. -/
structure Field.Good (f : Field) : Prop where
  name : f.name ≠ []
  nameByte : ∀ c ∈ f.name, c ≠ 0 ∧ c ≠ 58 ∧ isSpace c = false
  parts : f.parts ≠ []
  part : ∀ p ∈ f.parts, p ≠ [] ∧ NoOuter p
  partByte : ∀ p ∈ f.parts, ∀ c ∈ p, c ≠ 0 ∧ c ≠ 13
  comma : ¬ f.whole → ∀ p ∈ f.parts, (44 : UInt8) ∉ p

/-- A field that says nothing about the extent of the message: neither its length nor an encoding, and no multipart type. -/
structure Field.Inert (f : Field) : Prop where
  length : ¬ Is f.name nLength
  encoding : ¬ Is f.name nEncoding
  multi : Is f.name nType → ¬ Is (f.text.take 19) vMultipart ∧ ∀ a b c, f.text = a ++ b ++ c → ¬ Is b vBoundary

/-- The lines of fields. -/
def lines (fs : List Field) : List UInt8 := fs.flatMap fun f => f.line ++ eol
/-- The number of bytes in them, without the line ends. -/
def size (fs : List Field) : Nat := (fs.map fun f => f.line.length).sum

/-- The callbacks for header fields. -/
def headerEvs (fs : List Field) : List Ev := fs.flatMap fun f => .headerFull f.name (some f.text) :: f.values.map fun v => .header f.name (some v)
/-- The callbacks for trailer fields. -/
def trailerEvs (fs : List Field) : List Ev := fs.flatMap fun f => .trailerFull f.name (some f.text) :: f.values.map fun v => .trailer f.name (some v)

/-- A digit string of a base, with the value given. -/
structure Digits (base : Nat) (ds : List UInt8) (n : Nat) : Prop where
  ne : ds ≠ []
  digit : ∀ c ∈ ds, digitVal c < base
  value : value base ds = n

/-- The names of the methods. -/
def methodName : Method → List UInt8
  | .options => [79, 80, 84, 73, 79, 78, 83]
  | .get => [71, 69, 84]
  | .head => [72, 69, 65, 68]
  | .post => [80, 79, 83, 84]
  | .put => [80, 85, 84]
  | .delete => [68, 69, 76, 69, 84, 69]
  | .trace => [84, 82, 65, 67, 69]
  | .connect => [67, 79, 78, 78, 69, 67, 84]
  | .patch => [80, 65, 84, 67, 72]

/-- `HTTP/1.0` and `HTTP/1.1`. -/
def versionText : Version → List UInt8
  | .v10 => [72, 84, 84, 80, 47, 49, 46, 48]
  | .v11 => [72, 84, 84, 80, 47, 49, 46, 49]

/-- The first line of a message: of a request, or of a response with the digits of its code. -/
inductive Start
  | request (m : Method) (target : List UInt8) (v : Version)
  | response (v : Version) (code : List UInt8) (reason : List UInt8)

/-- The line, without its end. -/
def Start.line : Start → List UInt8
  | .request m t v => methodName m ++ [32] ++ t ++ [32] ++ versionText v
  | .response v c r => versionText v ++ [32] ++ c ++ [32] ++ r

/-- The callback for it; `n` is the status code. -/
def Start.ev (n : Nat) : Start → Ev
  | .request m t v => .request v m t
  | .response v _ r => .response v n (if r = [] then none else some r)

/-- A valid first line. -/
def Start.Good (uriOk : List UInt8 → Bool) (n : Nat) : Start → Prop
  | .request _ t _ => t ≠ [] ∧ (∀ c ∈ t, c ≠ 0 ∧ c ≠ 13 ∧ c ≠ 32) ∧ uriOk t = true
  | .response _ c r => Digits 10 c n ∧ n < 2 ^ 32 ∧ ∀ c ∈ r, c ≠ 0 ∧ c ≠ 13

/-- A request whose method usually has no body. -/
def Start.bodiless : Start → Prop
  | .request m _ _ => m = .get ∨ m = .head ∨ m = .delete ∨ m = .trace
  | .response .. => False

/-- A request. -/
def Start.isRequest : Start → Prop
  | .request .. => True
  | .response .. => False

/-- The first part of a message: white space, the first line, the header fields and an empty line. -/
def head (ws : List UInt8) (s : Start) (fs : List Field) : List UInt8 := ws ++ s.line ++ eol ++ lines fs ++ eol

/-- It is valid, and within the limits of the reader. -/
structure Head (uriOk : List UInt8 → Bool) (ws : List UInt8) (s : Start) (code : Nat) (fs : List Field) : Prop where
  space : ∀ c ∈ ws, isSpace c = true
  start : s.Good uriOk code
  startLen : s.line.length ≤ 6144
  fields : ∀ f ∈ fs, f.Good
  fieldsLen : size fs ≤ 8192

/-- The field gives the length of the body. -/
def Field.Length (n : Nat) (f : Field) : Prop := Is f.name nLength ∧ (∃ d, f.parts = [d] ∧ Digits 10 d n) ∧ n < 2 ^ 63

/-- The field says that the body is in chunks. -/
def Field.Coding (f : Field) : Prop := Is f.name nEncoding ∧ ∃ v, f.parts = [v] ∧ Is v vChunked

/-- No field says anything about the extent. -/
def Plain (fs : List Field) : Prop := ∀ f ∈ fs, f.Inert

/-- One field does, and it gives the length. -/
def Sized (n : Nat) (fs : List Field) : Prop := ∃ a f b, fs = a ++ f :: b ∧ f.Length n ∧ Plain a ∧ Plain b

/-- One field says that the body is in chunks; there may be one that gives a length. -/
def Coded (fs : List Field) : Prop := ∃ a f b, fs = a ++ f :: b ∧ f.Coding ∧ ((Plain a ∧ Plain b) ∨ ((∃ n, Sized n a) ∧ Plain b) ∨ (Plain a ∧ ∃ n, Sized n b))

/-- An extension of a chunk. -/
structure Ext where
  key : List UInt8
  val : Option (List UInt8)

/-- Its text. -/
def Ext.text (x : Ext) : List UInt8 :=
  match x.val with
  | none => x.key
  | some v => x.key ++ [61] ++ v

/-- A valid extension. -/
structure Ext.Good (x : Ext) : Prop where
  key : x.key ≠ []
  keyByte : ∀ c ∈ x.key, c ≠ 0 ∧ c ≠ 13 ∧ c ≠ 59 ∧ c ≠ 61
  valByte : ∀ v, x.val = some v → ∀ c ∈ v, c ≠ 0 ∧ c ≠ 13 ∧ c ≠ 59 ∧ c ≠ 61

/-- The first line of a chunk: its size in hexadecimal digits and its extensions. -/
structure Size where
  digits : List UInt8
  exts : List Ext

/-- The line, without its end. -/
def Size.line (s : Size) : List UInt8 := s.digits ++ if s.exts = [] then [] else [59] ++ join [59] (s.exts.map Ext.text)

/-- A valid one. -/
structure Size.Good (s : Size) (n : Nat) : Prop where
  digits : Digits 16 s.digits n
  exts : ∀ x ∈ s.exts, x.Good
  fits : n < 2 ^ 63
  short : s.line.length ≤ 6144

/-- The callbacks for the extensions of chunk `i`. -/
def Size.evs (i : Nat) (s : Size) : List Ev := if s.exts = [] then [] else (s.exts.map fun x => .chunkExt x.key x.val i) ++ [.chunkExtDone i]

/-- A chunk. -/
structure Chunk where
  size : Size
  data : List UInt8

/-- A valid chunk. -/
structure Chunk.Good (c : Chunk) : Prop where
  data : c.data ≠ []
  size : c.size.Good c.data.length

/-- Chunks as they are sent. -/
def chunks (cs : List Chunk) : List UInt8 := cs.flatMap fun c => c.size.line ++ eol ++ c.data ++ eol

/-- The callbacks for chunks, the first of which has number `i`. -/
def chunkEvs : Nat → List Chunk → List Ev
  | _, [] => []
  | i, c :: cs => c.size.evs i ++ [.chunkData c.data i, .chunkDataDone (i + 1)] ++ chunkEvs (i + 1) cs

end Verif.Http.Frame
