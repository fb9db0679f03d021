import Verif.Hexdump.Model
/- A reader of hex dumps that checks every column. -/
namespace Verif.Hexdump

/-- What follows an expected text. -/
def skip : List UInt8 → List UInt8 → Option (List UInt8)
  | [], t => some t
  | p :: ps, c :: t => if p = c then skip ps t else none
  | _ :: _, [] => none

/-- A digit, in the case asked for. -/
def digitVal (upper : Bool) (c : UInt8) : Option Nat :=
  if 48 ≤ c.toNat ∧ c.toNat ≤ 57 then some (c.toNat - 48)
  else if upper = true ∧ 65 ≤ c.toNat ∧ c.toNat ≤ 70 then some (c.toNat - 55)
  else if upper = false ∧ 97 ≤ c.toNat ∧ c.toNat ≤ 102 then some (c.toNat - 87)
  else none

/-- A number of exactly so many digits. -/
def readNum (b : Nat) (upper : Bool) : Nat → Nat → List UInt8 → Option (Nat × List UInt8)
  | 0, acc, t => some (acc, t)
  | _ + 1, _, [] => none
  | w + 1, acc, c :: t =>
    match digitVal upper c with
    | some v => if v < b then readNum b upper w (acc * b + v) t else none
    | none => none

/-- The columns of the bytes: a blank between two of them, two after every eighth unless that is turned off; two digits or two blanks. -/
def readCells (sep : Nat) (upper : Bool) : Nat → Nat → List UInt8 → Option (List (Option UInt8) × List UInt8)
  | 0, _, t => some ([], t)
  | n + 1, j, t =>
    match skip (if j = 0 then [] else if 8 ∣ j then List.replicate sep 32 else [32]) t with
    | none => none
    | some t =>
      match skip [32, 32] t with
      | some t' => (readCells sep upper n (j + 1) t').map fun r => (none :: r.1, r.2)
      | none =>
        match readNum 16 upper 2 0 t with
        | none => none
        | some (v, t') => (readCells sep upper n (j + 1) t').map fun r => (some (UInt8.ofNat v) :: r.1, r.2)

/-- What a byte looks like in the last column. -/
def look : Option UInt8 → UInt8
  | none => 32
  | some b => if 32 ≤ b.toNat ∧ b.toNat ≤ 126 then b else 46

/-- How wide the columns of the bytes are together. -/
def hexWidth (o : Opt) (bpl : Nat) : Nat := max 3 (3 * bpl - 1) + (if o.nosects then 0 else (bpl - 1) / 8)

/-- The end of a line. -/
def newline (o : Opt) : List UInt8 := if o.crlf then [13, 10] else [10]

/-- One line behind its number: the bytes, which fill the line from the left; the columns are as wide as they should be. -/
def readRow (o : Opt) (bpl : Nat) (t : List UInt8) : Option (List UInt8 × List UInt8) :=
  match readCells (if o.nosects then 1 else 2) o.upper bpl 0 t with
  | none => none
  | some (cells, t1) =>
    let bs := cells.filterMap id
    if cells = bs.map some ++ List.replicate (bpl - bs.length) none ∧ bs ≠ [] ∧ (bpl ≠ 1 → t.length = t1.length + hexWidth o bpl) then
      match (if o.noascii then some t1 else skip (List.replicate (if o.nosects then 1 else 2) 32 ++ 124 :: cells.map look ++ [124]) t1) with
      | none => none
      | some t2 => (skip (newline o) t2).map fun t3 => (bs, t3)
    else none

/-- The lines of the data, after so many bytes: only the last one is not full, and each begins with the number of the bytes before it;
the very last number is the number of all bytes. -/
def readRows (o : Opt) (bpl : Nat) (pre : List UInt8) (w : Nat) : Nat → Nat → List UInt8 → Option (List UInt8)
  | 0, _, _ => none
  | f + 1, n, t =>
    if o.nolen then
      if t = [] then some []
      else
        match skip pre t with
        | none => none
        | some t1 =>
          match readRow o bpl t1 with
          | none => none
          | some (bs, t2) => if bpl ∣ n then (readRows o bpl pre w f (n + bs.length) t2).map (bs ++ ·) else none
    else
      match skip pre t with
      | none => none
      | some t1 =>
        match readNum (if o.declen then 10 else 16) o.upper w 0 t1 with
        | none => none
        | some (m, t2) =>
          if m ≠ n then none
          else if t2 = [] then some []
          else
            match skip (List.replicate (if o.nosects then 1 else 2) 32) t2 with
            | none => none
            | some t3 =>
              match readRow o bpl t3 with
              | none => none
              | some (bs, t4) => if bpl ∣ n then (readRows o bpl pre w f (n + bs.length) t4).map (bs ++ ·) else none

/-- A title in the middle of its column, or a bit to the left. -/
def Middle (title : List UInt8) (w : Nat) (s : List UInt8) : Prop :=
  ∃ l r, s = List.replicate l 32 ++ title ++ List.replicate r 32 ∧ l + title.length + r = w ∧ l ≤ r ∧ r ≤ l + 1

/-- The header: titles in the middle of their columns and a line below, columns as wide as those of the data. -/
def Header (o : Opt) (bpl : Nat) (pre : List UInt8) (w : Nat) (h : List UInt8) : Prop :=
  ∃ a b c, Middle (if o.declen then [76, 69, 78] else [65, 68, 68, 82]) w a ∧ Middle [72, 69, 88] (hexWidth o bpl) b ∧ (o.noascii = false → Middle [65, 83, 67, 73, 73] (bpl + 2) c) ∧
    h = pre ++ (if o.nolen then [] else a ++ List.replicate (if o.nosects then 1 else 2) 32) ++ b ++ (if o.noascii then [] else List.replicate (if o.nosects then 1 else 2) 32 ++ c) ++ newline o ++
        (pre ++ (if o.nolen then [] else List.replicate w 61 ++ List.replicate (if o.nosects then 1 else 2) 32) ++ List.replicate (hexWidth o bpl) 61 ++
         (if o.noascii then [] else List.replicate (if o.nosects then 1 else 2) 32 ++ List.replicate (bpl + 2) 61) ++ newline o)

/-- How many digits the numbers have: those of the number of the bytes, but at least four. -/
def Width (o : Opt) (n w : Nat) : Prop :=
  4 ≤ w ∧ n < (if o.declen then 10 else 16) ^ w ∧ (w = 4 ∨ (if o.declen then 10 else 16) ^ (w - 1) ≤ n)

end Verif.Hexdump
