import Verif.StrFmt.Lemmas
/-! Specification of formats and what they show. -/
namespace Verif.StrFmt

inductive Flag | minus | plus | space | hash | zero
deriving DecidableEq

inductive Num
  | lit (ds : List (Fin 10))
  | star

inductive Size | none | hh | h | l | ll | z | I32 | I64
deriving DecidableEq

inductive Conv | d | i | u | o | O | x | X | p | P | e | E | f | F | g | G | c | s
deriving DecidableEq

/-- A directive: flags, width, precision, size and conversion. -/
structure Dir where
  flags : List Flag := []
  width : Option Num := .none
  prec : Option Num := .none
  size : Size := .none
  conv : Conv

/-- A part of a format. -/
inductive Item
  | lit (b : UInt8)
  | percent
  | dir (d : Dir)

/-! #### How it is written -/

def Flag.chr : Flag → UInt8
  | .minus => 45 | .plus => 43 | .space => 32 | .hash => 35 | .zero => 48

def Num.text : Num → List UInt8
  | .lit ds => ds.map fun d => (48 + d.val).toUInt8
  | .star => [42]

def Size.text : Size → List UInt8
  | .none => [] | .hh => [104, 104] | .h => [104] | .l => [108] | .ll => [108, 108] | .z => [122] | .I32 => [73, 51, 50] | .I64 => [73, 54, 52]

def Conv.chr : Conv → UInt8
  | .d => 100 | .i => 105 | .u => 117 | .o => 111 | .O => 79 | .x => 120 | .X => 88 | .p => 112 | .P => 80
  | .e => 101 | .E => 69 | .f => 102 | .F => 70 | .g => 103 | .G => 71 | .c => 99 | .s => 115

def widthText : Option Num → List UInt8
  | .none => []
  | some n => n.text

def precText : Option Num → List UInt8
  | .none => []
  | some n => 46 :: n.text

def Dir.text (d : Dir) : List UInt8 := d.flags.map Flag.chr ++ (widthText d.width ++ (precText d.prec ++ (d.size.text ++ [d.conv.chr])))

def Item.text : Item → List UInt8
  | .lit b => [b]
  | .percent => [37, 37]
  | .dir d => 37 :: d.text

def Num.val (ds : List (Fin 10)) : Nat := ds.foldl (fun n d => n * 10 + d.val) 0

/-- A width does not begin with `0` (that is a flag), and numbers fit in a `size_t`. -/
def Dir.wf (d : Dir) : Prop :=
  (∀ ds, d.width = some (.lit ds) → ds.head? ≠ .none ∧ ds.head? ≠ some 0 ∧ Num.val ds < 2 ^ 64) ∧
  (∀ ds, d.prec = some (.lit ds) → Num.val ds < 2 ^ 64 - 1)

def Item.wf : Item → Prop
  | .lit b => b ≠ 37
  | .percent => True
  | .dir d => d.wf

/-! #### What it shows -/

/-- A number in the format, or an argument. -/
def Num.get (ap : List Arg) : Num → Option (Nat × List Arg)
  | .lit ds => some (Num.val ds, ap)
  | .star => match ap with
    | .i v :: ap => some (v.toInt.toNat, ap)
    | _ => .none

/-- An integer argument of a size, as signed. -/
def signedArg (s : Size) : Arg → Option Int
  | .i v => match s with
    | .none | .I32 => some v.toInt
    | .h => some (Int.bmod v.toNat (2 ^ 16))
    | .hh => some (Int.bmod v.toNat (2 ^ 8))
    | _ => .none
  | .l v => match s with
    | .l | .ll | .z | .I64 => some v.toInt
    | _ => .none
  | _ => .none

/-- An integer argument of a size, as unsigned. -/
def unsignedArg (s : Size) : Arg → Option Nat
  | .i v => match s with
    | .none | .I32 => some v.toNat
    | .h => some (v.toNat % 2 ^ 16)
    | .hh => some (v.toNat % 2 ^ 8)
    | _ => .none
  | .l v => match s with
    | .l | .ll | .z | .I64 => some v.toNat
    | _ => .none
  | _ => .none

/-- The sign of a number. -/
def sign (fl : List Flag) (neg : Bool) : List UInt8 :=
  if neg then [45] else if .plus ∈ fl then [43] else if .space ∈ fl then [32] else []

/-- Zeros are used for padding. -/
def zeros (fl : List Flag) : Bool := decide (.zero ∈ fl ∧ .minus ∉ fl)

/-- The text of a string argument: up to its end, and not more than the precision says. -/
def strText (prec : Option Nat) : Option (List UInt8) → Option (List UInt8)
  | .none => some [60, 78, 85, 76, 76, 62]
  | some m => match prec with
    | .none => if 0 ∈ m then some (m.takeWhile (· ≠ 0)) else .none
    | some k => if 0 ∈ m ∨ k ≤ m.length then some ((m.take k).takeWhile (· ≠ 0)) else .none

/-- What a conversion shows for an argument. -/
def Conv.render (c : Conv) (fl : List Flag) (w : Nat) (prec : Option Nat) (size : Size) (a : Arg) : Option (List UInt8) :=
  let num := numField (decide (.minus ∈ fl)) (zeros fl) w
  let hash := decide (.hash ∈ fl)
  match c with
  | .d | .i => (signedArg size a).map fun v => num (sign fl (decide (v < 0))) (numeral 10 false v.natAbs)
  | .u => (unsignedArg size a).map fun n => num [] (numeral 10 false n)
  | .o | .O => (unsignedArg size a).map fun n => num (if hash = true ∧ n ≠ 0 then [48] else []) (numeral 8 false n)
  | .x => (unsignedArg size a).map fun n => num (if hash then [48, 120] else []) (numeral 16 false n)
  | .X => (unsignedArg size a).map fun n => num (if hash then [48, 88] else []) (numeral 16 true n)
  | .p => (unsignedArg .l a).map fun n => num [48, 120] (numeral 16 false n)
  | .P => (unsignedArg .l a).map fun n => num [48, 88] (numeral 16 true n)
  | .e | .E | .f | .F | .g | .G => match a with
    | .d y => some (num (sign fl (!y.pos)) (y.text (min (prec.getD 6) 100)))
    | _ => .none
  | .c => match a with
    | .i v => some (field (decide (.minus ∈ fl)) (if zeros fl then 48 else 32) w [(v.toNat % 256).toUInt8])
    | _ => .none
  | .s => match a with
    | .s m => (strText prec m).map fun t => field (decide (.minus ∈ fl)) 32 w t
    | _ => .none

/-- The width. -/
def getWidth (w : Option Num) (ap : List Arg) : Option (Nat × List Arg) := match w with | .none => some (0, ap) | some n => n.get ap

/-- The precision. -/
def getPrec (w : Option Num) (ap : List Arg) : Option (Option Nat × List Arg) := match w with | .none => some (.none, ap) | some n => (n.get ap).map fun r => (some r.1, r.2)

/-- What a directive shows, and the arguments that are left. -/
def Dir.render (d : Dir) (ap : List Arg) : Option (List UInt8 × List Arg) :=
  (getWidth d.width ap).bind fun w =>
  (getPrec d.prec w.2).bind fun prec =>
  match prec.2 with
  | [] => .none
  | a :: ap => (d.conv.render d.flags w.1 prec.1 d.size a).map fun t => (t, ap)

/-- What a format shows. -/
def render : List Item → List Arg → Option (List UInt8)
  | [], _ => some []
  | .lit b :: is, ap => (render is ap).map ([b] ++ ·)
  | .percent :: is, ap => (render is ap).map ([37] ++ ·)
  | .dir d :: is, ap => (d.render ap).bind fun r => (render is r.2).map (r.1 ++ ·)

/-- The digits of a double fit: 309 before the point, 100 after it. -/
def ArgsOk (ap : List Arg) : Prop := ∀ x, Arg.d x ∈ ap → ∀ k, k ≤ 100 → (x.text k).length ≤ 510

end Verif.StrFmt
