import Verif.Json.Model
import Verif.Utf8.Props
import Verif.Num.Props
/-! The grammar of JSON texts (RFC 8259), as a relation between texts and values.

The grammar is stated for a choice of white space, separators, string escapes, numbers and objects, so that `rfc` is the grammar
of the standard and others are the parts of it, or the extensions of it, that the library handles. -/
namespace Verif.Json
open Verif.Num (digitVal value)
open Verif.Utf8 (utf8 Scalar Allowed)

/-- White space of the standard. -/
inductive Blank : List UInt8 → Prop
  | nil : Blank []
  | cons {c : UInt8} {w : List UInt8} (h : c = 32 ∨ c = 9 ∨ c = 10 ∨ c = 13) (hw : Blank w) : Blank (c :: w)

/-- White space and comments in the style of C and C++. -/
inductive Comments : List UInt8 → Prop
  | nil : Comments []
  | blank {c : UInt8} {w : List UInt8} (h : c = 32 ∨ c = 9 ∨ c = 10 ∨ c = 13) (hw : Comments w) : Comments (c :: w)
  | block {b w : List UInt8} (h : ∀ x y, b ++ [42] ≠ x ++ 42 :: 47 :: y) (hw : Comments w) : Comments (47 :: 42 :: (b ++ 42 :: 47 :: w))
  | line {b w : List UInt8} (h : (10 : UInt8) ∉ b) (hw : Comments w) : Comments (47 :: 47 :: (b ++ 10 :: w))

/-- The two-character escapes: the character after the backslash and the one it stands for. -/
def escapes : List (UInt8 × UInt8) := [(34, 34), (92, 92), (47, 47), (98, 8), (102, 12), (110, 10), (114, 13), (116, 9)]

/-- Four hexadecimal digits and their value. -/
def Hex4 (h : List UInt8) (n : Nat) : Prop := h.length = 4 ∧ (∀ c ∈ h, digitVal c < 16) ∧ n = value 16 h

/-- The text between the quotes and the string it stands for.  `esc` says which code points may be written as `\uXXXX`, `pairs`
whether code points above 0xFFFF may be written as two such escapes. -/
inductive StrBody (esc : Nat → Prop) (pairs : Prop) : List UInt8 → List UInt8 → Prop
  | nil : StrBody esc pairs [] []
  | plain {cp : Nat} {t s : List UInt8} (hs : Scalar cp) (h1 : 32 ≤ cp) (h2 : cp ≠ 34) (h3 : cp ≠ 92) (h : StrBody esc pairs t s) :
      StrBody esc pairs (utf8 cp ++ t) (utf8 cp ++ s)
  | two {e b : UInt8} {t s : List UInt8} (he : (e, b) ∈ escapes) (h : StrBody esc pairs t s) : StrBody esc pairs (92 :: e :: t) (b :: s)
  | uni {x t s : List UInt8} {cp : Nat} (hx : Hex4 x cp) (hs : Scalar cp) (he : esc cp) (h : StrBody esc pairs t s) :
      StrBody esc pairs (92 :: 117 :: (x ++ t)) (utf8 cp ++ s)
  | pair {x y t s : List UInt8} {hi lo : Nat} (hp : pairs) (hx : Hex4 x (0xD800 + hi)) (hy : Hex4 y (0xDC00 + lo)) (h1 : hi < 0x400) (h2 : lo < 0x400)
      (h : StrBody esc pairs t s) : StrBody esc pairs (92 :: 117 :: (x ++ 92 :: 117 :: (y ++ t))) (utf8 (0x10000 + hi * 0x400 + lo) ++ s)

/-- The parts of a number: sign, digits, decimals, and the exponent with its letter. -/
structure NumParts where
  neg : Bool
  ds : List UInt8
  fs : List UInt8
  exp : Option (UInt8 × List UInt8 × List UInt8)

/-- A decimal digit. -/
def Digit (c : UInt8) : Prop := 48 ≤ c ∧ c ≤ 57

instance (c : UInt8) : Decidable (Digit c) := inferInstanceAs (Decidable (_ ∧ _))

/-- The numbers of the standard: no superfluous zeros in front, and digits after a point or an exponent. -/
def NumParts.Ok (p : NumParts) : Prop :=
  p.ds ≠ [] ∧ (∀ c ∈ p.ds, Digit c) ∧ (p.ds.head? = some 48 → p.ds = [48]) ∧ (∀ c ∈ p.fs, Digit c) ∧
  ∀ e sg xs, p.exp = some (e, sg, xs) → (e = 101 ∨ e = 69) ∧ (sg = [] ∨ sg = [43] ∨ sg = [45]) ∧ xs ≠ [] ∧ ∀ c ∈ xs, Digit c

/-- The text of a number. -/
def NumParts.text (p : NumParts) : List UInt8 :=
  (if p.neg then [45] else []) ++ p.ds ++ (if p.fs = [] then [] else 46 :: p.fs) ++
    match p.exp with
    | none => []
    | some (e, sg, xs) => e :: (sg ++ xs)

/-- The value of a number. -/
def NumParts.val (p : NumParts) : Rat :=
  let m : Rat := mkRat (Num.signed p.neg (value 10 (p.ds ++ p.fs))) (10 ^ p.fs.length)
  match p.exp with
  | none => m
  | some (_, sg, xs) => if sg = [45] then m / 10 ^ value 10 xs else m * 10 ^ value 10 xs

/-- A node that stands for a number: an integer node for integers, else a decimal node in lowest terms. -/
def IsNum (q : Rat) : Json → Prop
  | .int n => q = n
  | .dec d => q = mkRat d.num (10 ^ d.nd) ∧ d.nd ≠ 0 ∧ ¬ (10 : Int) ∣ d.num
  | _ => False

/-- The choices of a grammar. -/
structure Grammar where
  skip : List UInt8 → Prop
  sep : List UInt8 → Prop
  str : List UInt8 → List UInt8 → Prop
  num : List UInt8 → Json → Prop
  build : List (List UInt8 × Json) → List (List UInt8 × Json) → Prop

mutual

/-- Values. -/
inductive Val (G : Grammar) : List UInt8 → Json → Prop
  | null : Val G [110, 117, 108, 108] .null
  | tru : Val G [116, 114, 117, 101] (.bool true)
  | fls : Val G [102, 97, 108, 115, 101] (.bool false)
  | num {t : List UInt8} {v : Json} (h : G.num t v) : Val G t v
  | str {t s : List UInt8} (h : G.str t s) : Val G (34 :: (t ++ [34])) (.str s)
  | arr0 {w : List UInt8} (h : G.skip w) : Val G (91 :: (w ++ [93])) (.arr [])
  | arr {t : List UInt8} {l : List Json} (h : Elems G t l) : Val G (91 :: (t ++ [93])) (.arr l)
  | obj0 {w : List UInt8} (h : G.skip w) : Val G (123 :: (w ++ [125])) (.obj [])
  | obj {t : List UInt8} {ms l : List (List UInt8 × Json)} (h : Members G t ms) (hb : G.build ms l) : Val G (123 :: (t ++ [125])) (.obj l)

/-- The elements of an array. -/
inductive Elems (G : Grammar) : List UInt8 → List Json → Prop
  | one {a t b : List UInt8} {v : Json} (ha : G.skip a) (h : Val G t v) (hb : G.skip b) : Elems G (a ++ (t ++ b)) [v]
  | cons {a t b s u : List UInt8} {v : Json} {l : List Json} (ha : G.skip a) (h : Val G t v) (hb : G.skip b) (hs : G.sep s) (hu : Elems G u l) :
      Elems G (a ++ (t ++ (b ++ (s ++ u)))) (v :: l)

/-- The members of an object. -/
inductive Members (G : Grammar) : List UInt8 → List (List UInt8 × Json) → Prop
  | one {a k b c t d : List UInt8} {key : List UInt8} {v : Json} (ha : G.skip a) (hk : G.str k key) (hb : G.skip b) (hc : G.skip c) (h : Val G t v)
      (hd : G.skip d) : Members G (a ++ 34 :: (k ++ 34 :: (b ++ 58 :: (c ++ (t ++ d))))) [(key, v)]
  | cons {a k b c t d s u : List UInt8} {key : List UInt8} {v : Json} {l : List (List UInt8 × Json)} (ha : G.skip a) (hk : G.str k key) (hb : G.skip b)
      (hc : G.skip c) (h : Val G t v) (hd : G.skip d) (hs : G.sep s) (hu : Members G u l) :
      Members G (a ++ 34 :: (k ++ 34 :: (b ++ 58 :: (c ++ (t ++ (d ++ (s ++ u))))))) ((key, v) :: l)

end

/-- The grammar of RFC 8259.  What an object with repeated names stands for is left open there. -/
def rfc : Grammar where
  skip := Blank
  sep s := s = [44]
  str := StrBody (fun _ => True) True
  num t v := ∃ p : NumParts, p.Ok ∧ t = p.text ∧ IsNum p.val v
  build ms l := (ms.map (·.1)).Nodup → l = ms

/-- The root of a document. -/
def Root : Json → Prop
  | .arr _ => True
  | .obj _ => True
  | _ => False

/-- A document: an array or object with white space around it. -/
def Doc (G : Grammar) (t : List UInt8) (v : Json) : Prop := ∃ a u b, t = a ++ (u ++ b) ∧ G.skip a ∧ G.skip b ∧ Val G u v ∧ Root v

end Verif.Json
