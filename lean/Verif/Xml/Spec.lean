import Verif.Xml.Model
import Verif.Str.Props
/-! The trees that can be written as XML and read back (C73). -/
namespace Verif.Xml
open Verif.Str (Alike)

/-- A byte of a name: letters, digits, `_`, `-`, `.`, `:` and all bytes of characters above ASCII. -/
def NameByte (c : UInt8) : Prop :=
  (48 ≤ c ∧ c ≤ 57) ∨ (65 ≤ c ∧ c ≤ 90) ∨ (97 ≤ c ∧ c ≤ 122) ∨ c = 95 ∨ c = 45 ∨ c = 46 ∨ c = 58 ∨ 128 ≤ c

/-- A name (of a length that fits in memory). -/
def IsName (n : List UInt8) : Prop := n ≠ [] ∧ (∀ c ∈ n, NameByte c) ∧ n.length < 2 ^ 64

/-- White space of the library: space, and tab to carriage return. -/
def Space (c : UInt8) : Prop := c = 32 ∨ (9 ≤ c ∧ c ≤ 13)

/-- No white space at the ends. -/
def Trimmed (s : List UInt8) : Prop := (∀ c t, s = c :: t → ¬ Space c) ∧ (∀ c t, s = t ++ [c] → ¬ Space c)

/-- Attributes: names, no two alike apart from case, with any values. -/
def GoodAttrs (as : Attrs) : Prop := (∀ a ∈ as, IsName a.1 ∧ (0 : UInt8) ∉ a.2) ∧ as.Pairwise fun a b => ¬ Alike true a.1 b.1

/-- The attributes of `<?xml ?>` are in the order that is required: `version`, `encoding` and `standalone` as far as given come
first, in this order and spelled like this. -/
def DeclOrder (as : Attrs) : Prop :=
  ∃ v e s o : Attrs, as = v ++ e ++ s ++ o ∧
    (v = [] ∨ ∃ x, v = [([118, 101, 114, 115, 105, 111, 110], x)]) ∧
    (e = [] ∨ ∃ x, e = [([101, 110, 99, 111, 100, 105, 110, 103], x)]) ∧
    (s = [] ∨ ∃ x, s = [([115, 116, 97, 110, 100, 97, 108, 111, 110, 101], x)]) ∧
    ∀ a ∈ o, ¬ Alike true a.1 [118, 101, 114, 115, 105, 111, 110] ∧ ¬ Alike true a.1 [101, 110, 99, 111, 100, 105, 110, 103] ∧
      ¬ Alike true a.1 [115, 116, 97, 110, 100, 97, 108, 111, 110, 101]

/-- Whether a node is a text. -/
def IsText : Node → Prop
  | .text _ => True
  | _ => False

mutual
/-- The nodes that can be read back: no declarations and no processing instructions with tag data; texts are not empty and are
trimmed, comments are trimmed and do not contain `-->`, and no two texts are neighbours. -/
def Good : Node → Prop
  | .elem name as kids => IsName name ∧ GoodAttrs as ∧ GoodKids kids
  | .pi name as d => IsName name ∧ GoodAttrs as ∧ d = [] ∧ (name = [120, 109, 108] → DeclOrder as)
  | .decl _ _ => False
  | .text s => (0 : UInt8) ∉ s ∧ s ≠ [] ∧ Trimmed s
  | .comment s => (0 : UInt8) ∉ s ∧ Trimmed s ∧ ∀ p q, s ≠ p ++ [45, 45, 62] ++ q

/-- The children of a node. -/
def GoodKids : List Node → Prop
  | [] => True
  | n :: l => Good n ∧ (IsText n → ∀ m k, l = m :: k → ¬ IsText m) ∧ GoodKids l
end

/-- A document: anything that is no element, and an element at the end. -/
def GoodDoc (kids : List Node) : Prop := ∃ pre name as ks, kids = pre ++ [.elem name as ks] ∧ GoodKids kids ∧ ∀ n ∈ pre, ∀ a b c, n ≠ .elem a b c

end Verif.Xml
