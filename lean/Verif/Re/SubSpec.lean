import Verif.Re.Spec
/-! What a replacement template means, and replacing pieces of a text. -/
namespace Verif.Re

def IsDig (c : UInt8) : Prop := 48 ≤ c.toNat ∧ c.toNat ≤ 57

def dig (c : UInt8) : Nat := c.toNat - 48

/-- What begins with a backslash and is a reference: `\N`, `\NN`, `\g<N>`, `\g<NN>`: the number and what follows. -/
inductive IsRef : List UInt8 → Nat → List UInt8 → Prop
  | one {a : UInt8} {r : List UInt8} (ha : IsDig a) (hr : ∀ b, r.head? = some b → ¬ IsDig b) : IsRef (92 :: a :: r) (dig a) r
  | two {a b : UInt8} {r : List UInt8} (ha : IsDig a) (hb : IsDig b) : IsRef (92 :: a :: b :: r) (10 * dig a + dig b) r
  | name1 {a : UInt8} {r : List UInt8} (ha : IsDig a) : IsRef (92 :: 103 :: 60 :: a :: 62 :: r) (dig a) r
  | name2 {a b : UInt8} {r : List UInt8} (ha : IsDig a) (hb : IsDig b) :
      IsRef (92 :: 103 :: 60 :: a :: b :: 62 :: r) (10 * dig a + dig b) r

/-- A template stands for its text with the references replaced by what they stand for. -/
inductive Expands (cap : Nat → List UInt8) : List UInt8 → List UInt8 → Prop
  | nil : Expands cap [] []
  | ref {t r o : List UInt8} {v : Nat} (h : IsRef t v r) (ho : Expands cap r o) : Expands cap t (cap v ++ o)
  | char {c : UInt8} {r o : List UInt8} (h : ∀ v r', ¬ IsRef (c :: r) v r') (ho : Expands cap r o) : Expands cap (c :: r) (c :: o)

/-- After `\g<` there is no white space and no sign. -/
def Neat (t : List UInt8) : Prop :=
  ∀ p c q, t = p ++ 92 :: 103 :: 60 :: c :: q → c ∉ [32, 9, 10, 11, 12, 13, 43, 45]

/-- The piece of a text of the given length from the given offset. -/
def Piece (s : List UInt8) (o l : Int) (x : List UInt8) : Prop := ∃ p q, s = p ++ x ++ q ∧ o = p.length ∧ l = x.length

/-- What a reference stands for in a match: the captured piece, or nothing. -/
def CapOf (s : List UInt8) (m : List Cap) (v : Nat) (x : List UInt8) : Prop :=
  (∃ o l, capIdx m v = some (o, l) ∧ Piece s o l x) ∨ (capIdx m v = none ∧ x = [])

/-- A text from some place on with each match replaced by its template. -/
inductive Spliced (s templ : List UInt8) : Int → List (List Cap) → List UInt8 → Prop
  | done {pos : Int} {x : List UInt8} (h : Piece s pos (s.length - pos) x) : Spliced s templ pos [] x
  | more {pos o l : Int} {m : List Cap} {ms : List (List Cap)} {x y z : List UInt8} {cap : Nat → List UInt8}
      (hm : capIdx m 0 = some (o, l)) (hx : Piece s pos (o - pos) x) (hc : ∀ v, CapOf s m v (cap v)) (hy : Expands cap templ y)
      (hz : Spliced s templ (o + l) ms z) : Spliced s templ pos (m :: ms) (x ++ y ++ z)

end Verif.Re
