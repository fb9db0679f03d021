import Verif.Json.Model
import Verif.Num.Props
import Verif.Str.SplitProps

/-!
# What a search expression selects

Search expressions as documented for `M_json_jsonpath` (include/mstdlib/formats/m_json.h:285-311):
steps that select members by name, elements by index or slice, all of either, and that look at the
children of a node or anywhere below it.  Nothing here uses the functions of the model.
-/

namespace Verif.JsonPath

open Verif.Json (Json)

/-- What stands between commas in `[…]`: an index, or `start:end:step` with parts left out. -/
inductive Item
  | idx (v : Int)
  | slice (a b c : Option Int)
deriving DecidableEq, Repr

/-- What a step selects: a member by name, all members `*`, all elements `[*]`, some elements. -/
inductive Sel
  | name (k : List UInt8)
  | any
  | all
  | items (l : List Item)
deriving DecidableEq, Repr

/-- A step; `deep` is `..`. -/
structure Step where
  deep : Bool
  sel : Sel
deriving DecidableEq, Repr

/-! ## What is selected -/

/-- Nodes in a row with their positions. -/
def number : Nat → List Json → List (Nat × Json)
  | _, [] => []
  | i, j :: l => (i, j) :: number (i + 1) l

/-- The children of a node. -/
def children : Json → List (Nat × Json)
  | .arr l => number 0 l
  | .obj l => number 0 (l.map (·.2))
  | _ => []

/-- The place meant by an index used as a bound in an array of `n` elements; negative ones count
from the end and stop at the beginning. -/
def bound (n : Nat) (v : Int) : Nat := if v < 0 then ((n : Int) + v).toNat else v.toNat

/-- The offsets an item stands for in an array of `n` elements.  Counting up, start is inclusive
and end exclusive; counting down, start is exclusive and end inclusive. -/
def indices (n : Nat) : Item → List Nat
  | .idx v =>
    if v < 0 then (if 0 ≤ (n : Int) + v then [((n : Int) + v).toNat] else [])
    else if v.toNat < n then [v.toNat] else []
  | .slice a b c =>
    let s := (a.map (bound n)).getD 0
    let e := (b.map (bound n)).getD n
    let k := c.getD 1
    if 0 < k then (List.range n).filter fun i => s ≤ i ∧ i < e ∧ (i - s) % k.toNat = 0
    else ((List.range n).filter fun i => e ≤ i ∧ i < s ∧ (s - 1 - i) % (-k).toNat = 0).reverse

/-- The same name, without regard to the case of letters A to Z. -/
def sameName (a b : List UInt8) : Bool := a.map Chr.toLower == b.map Chr.toLower

/-- The members with a name, numbered. -/
def byName (k : List UInt8) : Nat → List (List UInt8 × Json) → List (Nat × Json)
  | _, [] => []
  | i, (k', j) :: l => (if sameName k k' then [(i, j)] else []) ++ byName k (i + 1) l

/-- The children of a node a step selects, in order. -/
def kids : Sel → Json → List (Nat × Json)
  | .name k, .obj l => byName k 0 l
  | .any, .obj l => number 0 (l.map (·.2))
  | .all, .arr l => number 0 l
  | .items its, .arr l => (its.flatMap (indices l.length)).filterMap fun i => l[i]?.map fun j => (i, j)
  | _, _ => []

mutual

/-- A node and everything below it, each with the way to it. -/
def sub : Json → List (List Nat × Json)
  | .arr l => ([], .arr l) :: subElems 0 l
  | .obj l => ([], .obj l) :: subMembers 0 l
  | j => [([], j)]

/-- Everything in the elements of an array. -/
def subElems : Nat → List Json → List (List Nat × Json)
  | _, [] => []
  | i, j :: l => (sub j).map (fun x => (i :: x.1, x.2)) ++ subElems (i + 1) l

/-- Everything in the members of an object. -/
def subMembers : Nat → List (List UInt8 × Json) → List (List Nat × Json)
  | _, [] => []
  | i, (_, j) :: l => (sub j).map (fun x => (i :: x.1, x.2)) ++ subMembers (i + 1) l

end

/-- The nodes an expression selects, each as the way to it from the node searched. -/
def eval : List Step → Json → List (List Nat)
  | [], _ => [[]]
  | ⟨deep, sel⟩ :: r, j =>
    (if deep then sub j else [([], j)]).flatMap fun x =>
      (kids sel x.2).flatMap fun y => (eval r y.2).map fun p => x.1 ++ y.1 :: p

/-! ## How expressions are written -/

/-- The digits of a decimal number. -/
def Digits (ds : List UInt8) : Prop := ds ≠ [] ∧ ∀ c ∈ ds, 48 ≤ c ∧ c ≤ 57

/-- `t` is the 32 bit number `v` in decimal. -/
def NumText (t : List UInt8) (v : Int) : Prop :=
  (-2147483648 ≤ v ∧ v ≤ 2147483647) ∧
    ((Digits t ∧ v = (Num.value 10 t : Int)) ∨
      ∃ ds, t = 45 :: ds ∧ Digits ds ∧ v = -(Num.value 10 ds : Int))

/-- A number or nothing. -/
def OptText (t : List UInt8) : Option Int → Prop
  | none => t = []
  | some v => NumText t v

/-- An item in its text form. -/
inductive ItemText : Item → List UInt8 → Prop
  | idx {t v} : NumText t v → ItemText (.idx v) t
  | slice2 {ta tb a b} : OptText ta a → OptText tb b → ItemText (.slice a b none) (ta ++ 58 :: tb)
  | slice3 {ta tb tc a b c} : OptText ta a → OptText tb b → OptText tc c → c ≠ some 0 →
      ItemText (.slice a b c) (ta ++ 58 :: (tb ++ 58 :: tc))

/-- Items and their text forms. -/
inductive ItemTexts : List Item → List (List UInt8) → Prop
  | nil : ItemTexts [] []
  | cons {i t is ts} : ItemText i t → ItemTexts is ts → ItemTexts (i :: is) (t :: ts)

/-- What a step selects in its text form. -/
inductive SelText : Sel → List UInt8 → Prop
  | name {k} : k ≠ [] → k ≠ [42] → (0 : UInt8) ∉ k → (46 : UInt8) ∉ k → (91 : UInt8) ∉ k →
      SelText (.name k) k
  | any : SelText .any [42]
  | all : SelText .all [91, 42, 93]
  | items {l ts} : l ≠ [] → ItemTexts l ts → SelText (.items l) (91 :: (Str.join [44] ts ++ [93]))

/-- Is a step written in brackets? -/
def Sel.bracket : Sel → Bool
  | .name _ => false
  | .any => false
  | .all => true
  | .items _ => true

/-- Steps, each with the text of what it selects. -/
def Texts (r : List (Step × List UInt8)) : Prop := ∀ x ∈ r, SelText x.1.sel x.2

/-- Steps in their text form: `..` before what is looked for anywhere below, a dot before a name,
and nothing before a bracket. -/
def text : List (Step × List UInt8) → List UInt8
  | [] => []
  | (⟨deep, sel⟩, t) :: r =>
    (if deep then [46, 46] else if sel.bracket then [] else [46]) ++ t ++ text r

/-- The items can be used in an array of `n` elements: bounds of slices do not lie before its
beginning, and neither does an index that is not the only item. -/
def Fits (n : Nat) (l : List Item) : Prop :=
  (∀ v, Item.idx v ∈ l → l.length = 1 ∨ -(n : Int) ≤ v) ∧
    ∀ a b c, Item.slice a b c ∈ l →
      (∀ v, a = some v → -(n : Int) ≤ v) ∧ ∀ v, b = some v → -(n : Int) ≤ v

/-- The items of all steps can be used in all arrays of a document. -/
def FitsIn (r : List (Step × List UInt8)) (j : Json) : Prop :=
  ∀ x ∈ r, ∀ l, x.1.sel = .items l → ∀ p es, (p, Json.arr es) ∈ sub j → Fits es.length l

end Verif.JsonPath
