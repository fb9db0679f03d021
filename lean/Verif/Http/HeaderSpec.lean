import Verif.Http.HeaderModel
import Verif.Http.FrameSpec
/- What the headers of a message are, for C86: a specification that does not use the functions of the model.  From the model
it takes only the record `HVal` of a value and its modifiers. -/
namespace Verif.Http.Frame
open Verif.Chr (isSpace toLower)
open Verif.Str (NoOuter join)

/-- Two names, whatever the case of their letters. -/
def Alike (a b : List UInt8) : Prop := a.map toLower = b.map toLower

instance (a b : List UInt8) : Decidable (Alike a b) := inferInstanceAs (Decidable (_ = _))

/-- A value with its modifiers: `value; name=text; flag`. -/
def partText (p : HVal) : List UInt8 := join [59, 32] (p.value :: p.mods.map fun m => if m.2 = [] then m.1 else m.1 ++ [61] ++ m.2)

/-- The value and the names of the modifiers are not empty; nothing begins or ends with white space or has a semicolon in it,
and modifiers have no equals signs in them; no two modifiers have the same name. -/
structure PartGood (p : HVal) : Prop where
  value : p.value ≠ []
  valueOuter : NoOuter p.value
  valueByte : (59 : UInt8) ∉ p.value
  name : ∀ m ∈ p.mods, m.1 ≠ []
  modOuter : ∀ m ∈ p.mods, NoOuter m.1 ∧ NoOuter m.2
  modByte : ∀ m ∈ p.mods, ∀ c ∈ m.1 ++ m.2, c ≠ 59 ∧ c ≠ 61
  distinct : p.mods.Pairwise fun a b => ¬ Alike a.1 b.1

/-- A header: its name and its values with their modifiers. -/
structure Hdr where
  name : List UInt8
  parts : List HVal

/-- Its field. -/
def Hdr.field (h : Hdr) : Field := ⟨h.name, h.parts.map partText⟩
/-- The text of its value. -/
def Hdr.text (h : Hdr) : List UInt8 := h.field.text

/-- The field is valid, and so are the values; if it is a field of one text there is one value; no two values are the same. -/
structure Hdr.Good (h : Hdr) : Prop where
  field : h.field.Good
  short : h.name.length < 2 ^ 64
  whole : h.field.whole → h.parts.length = 1
  part : ∀ p ∈ h.parts, PartGood p
  distinct : h.parts.Pairwise fun a b => ¬ Alike a.value b.value

/-- What can be done to the headers of a message: set a header, add values to a header, remove one. -/
inductive Op
  | set (h : Hdr)
  | add (h : Hdr)
  | remove (name : List UInt8)

/-- The header under a name. -/
def lookup (hs : List Hdr) (name : List UInt8) : Option Hdr := hs.find? fun h => decide (Alike h.name name)

/-- The headers but that under a name. -/
def without (name : List UInt8) (hs : List Hdr) : List Hdr := hs.filter fun h => !decide (Alike h.name name)

/-- Values added at the end of a header. -/
def Hdr.more (h x : Hdr) : Hdr := ⟨h.name, h.parts ++ x.parts⟩

/-- What an operation does: the headers stay in the order in which they were first set. -/
def Op.run (hs : List Hdr) : Op → List Hdr
  | .set x => without x.name hs ++ [x]
  | .add x => if (lookup hs x.name).isSome then hs.map fun h => if Alike h.name x.name then h.more x else h else hs ++ [x]
  | .remove n => without n hs

/-- The operations covered: the header is valid; added values are new, and not added to a field of one text. -/
def Op.Good (hs : List Hdr) : Op → Prop
  | .set x => x.Good
  | .add x => x.Good ∧ ∀ h ∈ hs, Alike h.name x.name → ¬ x.field.whole ∧ ∀ p ∈ h.parts, ∀ q ∈ x.parts, ¬ Alike p.value q.value
  | .remove n => n ≠ []

/-- The headers after some operations. -/
inductive Reach : List Op → List Hdr → Prop
  | nil : Reach [] []
  | snoc {ops hs op} : Reach ops hs → op.Good hs → Reach (ops ++ [op]) (op.run hs)

end Verif.Http.Frame
