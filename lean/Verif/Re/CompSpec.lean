import Verif.Re.Spec
import Verif.Re.CompModel
/-! What a pattern means: which pieces of a text a syntax tree matches.  Positions and tags play no part, and nothing here uses the
construction of the automaton. -/
namespace Verif.Re

/-- The tree matches the text from the `i`th to the `j`th character. -/
inductive Mat (alnum : Nat → Bool) (ml : Bool) (w : List Nat) : Ast → Nat → Nat → Prop
  | chars {rs : List (Int × Int)} {p i c : Nat} {r : Int × Int} (hr : r ∈ rs) (hc : w[i]? = some c) (hlo : r.1 ≤ c)
      (hhi : (c : Int) ≤ r.2) : Mat alnum ml w (.chars rs p) i (i + 1)
  | empty {i : Nat} (hi : i ≤ w.length) : Mat alnum ml w .empty i i
  | tag {k i : Nat} (hi : i ≤ w.length) : Mat alnum ml w (.tag k) i i
  | asr {a i : Nat} (hi : i ≤ w.length) (ha : Asserted alnum ml w i a) : Mat alnum ml w (.asr a) i i
  | cat {l r : Ast} {i k j : Nat} (hl : Mat alnum ml w l i k) (hr : Mat alnum ml w r k j) : Mat alnum ml w (.cat l r) i j
  | altL {l r : Ast} {i j : Nat} (hl : Mat alnum ml w l i j) : Mat alnum ml w (.alt l r) i j
  | altR {l r : Ast} {i j : Nat} (hr : Mat alnum ml w r i j) : Mat alnum ml w (.alt l r) i j
  | none {x : Ast} {hi : Option Nat} {i : Nat} (hw : i ≤ w.length) : Mat alnum ml w (.iter x 0 hi) i i
  | more {x : Ast} {lo : Nat} {hi : Option Nat} {i k j : Nat} (h0 : hi ≠ some 0) (hx : Mat alnum ml w x i k)
      (hr : Mat alnum ml w (.iter x (lo - 1) (hi.map (· - 1))) k j) : Mat alnum ml w (.iter x lo hi) i j

/-- The positions that occur in a tree. -/
def places : Ast → List Nat
  | .chars _ p => [p]
  | .empty => []
  | .tag _ => []
  | .asr _ => []
  | .cat l r => places l ++ places r
  | .alt l r => places l ++ places r
  | .iter x _ _ => places x

/-- Only the repetitions that have a construction of their own: `?`, `*`, `+` and `{1}`. -/
def Simple : Ast → Prop
  | .chars _ _ => True
  | .empty => True
  | .tag _ => True
  | .asr _ => True
  | .cat l r => Simple l ∧ Simple r
  | .alt l r => Simple l ∧ Simple r
  | .iter x lo hi => Simple x ∧ lo ≤ 1 ∧ (hi = none ∨ hi = some 1)

/-- Every repetition has bounds that make sense. -/
def Bounds : Ast → Prop
  | .chars _ _ => True
  | .empty => True
  | .tag _ => True
  | .asr _ => True
  | .cat l r => Bounds l ∧ Bounds r
  | .alt l r => Bounds l ∧ Bounds r
  | .iter x lo hi => Bounds x ∧ ∀ m, hi = some m → lo ≤ m ∧ 0 < m

/-- The tree has no assertion. -/
def Bare : Ast → Prop
  | .chars _ _ => True
  | .empty => True
  | .tag _ => True
  | .asr a => a = 0
  | .cat l r => Bare l ∧ Bare r
  | .alt l r => Bare l ∧ Bare r
  | .iter x _ _ => Bare x

/-- The tree can match without reading a character, were the assertions true. -/
def Null : Ast → Prop
  | .chars _ _ => False
  | .empty => True
  | .tag _ => True
  | .asr _ => True
  | .cat l r => Null l ∧ Null r
  | .alt l r => Null l ∨ Null r
  | .iter x lo _ => lo = 0 ∨ Null x

/-- Where there are two ways to match nothing, the one that is taken asks for nothing. -/
def Calm : Ast → Prop
  | .chars _ _ => True
  | .empty => True
  | .tag _ => True
  | .asr _ => True
  | .cat l r => Calm l ∧ Calm r
  | .alt l r => Calm l ∧ Calm r ∧ (Null l → Null r → Bare l)
  | .iter x lo hi => Calm x ∧ (lo = 0 ∨ (1 < lo ∧ hi = none) → Null x → Bare x)

/-- The positions were given out from `a` to `b`, one after the other from left to right, each to at least one range. -/
def Numbered : Ast → Nat → Nat → Prop
  | .chars rs p, a, b => rs ≠ [] ∧ p = a ∧ b = a + 1
  | .empty, a, b => a = b
  | .tag _, a, b => a = b
  | .asr _, a, b => a = b
  | .cat l r, a, b => ∃ m, Numbered l a m ∧ Numbered r m b
  | .alt l r, a, b => ∃ m, Numbered l a m ∧ Numbered r m b
  | .iter x _ _, a, b => Numbered x a b

/-- Inside a repetition: no repetition has a counted one inside. -/
def Shallow1 : Ast → Prop
  | .chars _ _ => True
  | .empty => True
  | .tag _ => True
  | .asr _ => True
  | .cat l r => Shallow1 l ∧ Shallow1 r
  | .alt l r => Shallow1 l ∧ Shallow1 r
  | .iter x _ _ => Simple x

/-- Every counted repetition is inside of at most one other repetition. -/
def Shallow : Ast → Prop
  | .chars _ _ => True
  | .empty => True
  | .tag _ => True
  | .asr _ => True
  | .cat l r => Shallow l ∧ Shallow r
  | .alt l r => Shallow l ∧ Shallow r
  | .iter x _ _ => Shallow1 x

end Verif.Re
