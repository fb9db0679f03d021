import Verif.Decimal.Model
import Verif.Num.Model
/- Model of the text form of decimals, `base/math/m_decimal.c:566-805`.

A string pointer is the list of bytes from the pointer to the end of its memory block, as in `Verif.Num`; a read past the block
is `none`.  `printf` is part of the C library and taken to write numbers in base ten. -/
namespace Verif.Decimal

/-- `%llu`. -/
def decStr (n : Nat) : List UInt8 := if n < 10 then [UInt8.ofNat (48 + n)] else decStr (n / 10) ++ [UInt8.ofNat (48 + n % 10)]

/-- `%0*llu`. -/
def decPad (w n : Nat) : List UInt8 := List.replicate (w - (decStr n).length) 48 ++ decStr n

/-- `base/math/m_prop.c:32-39`, `M_uint64_count_digits`. -/
def countDigits (n : Nat) : Nat := if n / 10 = 0 then 1 else countDigits (n / 10) + 1
termination_by n
decreasing_by omega

/-- `base/math/m_operator.c:28-37`, `M_uint64_exp`. -/
def uexp (num : Nat) : Nat → Nat
  | 0 => 1
  | e + 1 => uexp num e * num % Num.w64

/-- The size computed in `base/math/m_decimal.c:592-601`. -/
def requiredSize (d : Dec) : Nat :=
  let nDigits := countDigits d.num.natAbs
  nDigits + 1 + (if d.nd ≠ 0 then 1 else 0) + (if d.num < 0 then 1 else 0) + (if d.nd ≥ nDigits then 1 else 0) +
    (if d.nd > nDigits then d.nd - nDigits else 0)

/-- `base/math/m_decimal.c:577-634`, `M_decimal_to_str`: the text, without its terminator.  The inner `none` is
`M_DECIMAL_INVALID`; division by zero is undefined. -/
def toStr (d : Dec) (bufLen : Nat) : Option (Option (List UInt8)) :=
  if bufLen < 2 then some none
  else if requiredSize d > bufLen then some none
  else
    let num := d.num.natAbs
    let sg : List UInt8 := if d.num < 0 then [45] else []
    let e := uexp 10 d.nd
    let int : Option (List UInt8) := if d.nd ≥ countDigits num then some [48] else if e = 0 then none else some (decStr (num / e))
    int.bind fun int =>
      if d.nd = 0 then some (some (sg ++ int))
      else if e = 0 then none
      else some (some (sg ++ int ++ [46] ++ decPad d.nd (num % e)))

/-- `base/math/m_decimal.c:692-705`: reading the digits after the decimal point, with ever fewer of them until the number fits.
The result is `afterdec`, `temp`, `end` and whether the value was truncated; the inner `none` is `M_DECIMAL_INVALID`. -/
def fracLoop (p : List UInt8) : Nat → Option (List UInt8) → Bool → Int → Option (List UInt8) →
    Option (Option (Int × Option (List UInt8) × Option (List UInt8) × Bool))
  | 0, e, tr, ad, temp => some (some (ad, temp, e, tr))
  | n + 1, e, tr, _, _ => (Num.toInt64Ex p (n + 1) 10).bind fun r =>
    match r with
    | (_, none) => none
    | (rv, some (v, t)) =>
      let e := match e with
        | none => some t
        | some e => some e
      if rv = .invalid then some none
      else if rv = .overflow then fracLoop p n e true v (some t)
      else some (some (v, some t, e, tr))

/-- `base/math/m_decimal.c:726-758`: `val->num`, the number of decimals and whether decimals were dropped. -/
def fitDigits (num : Int) : Nat → Int → Bool → Int × Nat × Bool
  | 0, _, tr => (num, 0, tr)
  | nd + 1, ad, tr =>
    let m := multInt64 num (expInt64 10 ((nd + 1) % 256)).2
    if m.1 ≠ .overflow then
      match addInt64 m.2 ad with
      | (.success, some v) => (v, nd + 1, tr)
      | _ => fitDigits num nd (ad.tdiv 10) true
    else fitDigits num nd (ad.tdiv 10) true

/-- `base/math/m_decimal.c:785-806`: the multiplication by the power of ten.  A result of
`M_DECIMAL_INVALID`, which leaves the number as it was, is ignored. -/
def scale (v : Dec) (tr : Bool) (x : Int) (e : List UInt8) : Option (Rv × Dec × Option (List UInt8)) :=
  let mult : Option (Option Dec) :=
    if x ≥ 0 then
      if x > 255 ∨ (expInt64 10 x.toNat).1 = .overflow then some none else some (some (reduce ⟨(expInt64 10 x.toNat).2, 0⟩))
    else (chk (-x)).map fun x => if x > 255 then none else some (reduce ⟨1, x.toNat⟩)
  mult.bind fun mult =>
    match mult with
    | none => some (.overflow, v, none)
    | some m => (multiply v m).bind fun r =>
      let r := if r.1 = .invalid then (Rv.invalid, v) else r
      if r.1 = .overflow then some (.overflow, r.2, none)
      else some (if r.1 = .truncation ∨ tr = true then .truncation else .success, reduce r.2, some e)

/-- `base/math/m_decimal.c:763-811`: the exponent.  `s` is the whole text. -/
def expPart (s : List UInt8) (len : Nat) (v : Dec) (tr : Bool) (e : Option (List UInt8)) : Option (Rv × Dec × Option (List UInt8)) :=
  let done := some (if tr then Rv.truncation else .success, v, e)
  match e with
  | none => done
  | some e =>
    if s.length - e.length < len + 1 then
      e[0]?.bind fun c =>
        if Chr.toLower c = 101 then
          (Num.toInt64Ex (e.drop 1) ((len + Num.w64 - (s.length - e.length + 1)) % Num.w64) 10).bind fun r =>
            match r with
            | (.overflow, _) => some (.overflow, v, none)
            | (.invalid, _) => some (.invalid, v, none)
            | (.success, none) => none
            | (.success, some (x, e)) => scale v tr x e
        else done
    else done

/-- `base/math/m_decimal.c:681-811`: from the text after the digits before the decimal point. -/
def afterInt (s : List UInt8) (len : Nat) (num : Int) (p : List UInt8) : Option (Rv × Dec × Option (List UInt8)) :=
  let isNeg : Bool := s[0]? == some 45
  let numRead := s.length - p.length
  let point : Option Bool := if numRead < len then p[0]?.map fun c => c == 46 else some false
  point.bind fun point =>
    if point then
      (fracLoop (p.drop 1) (len - (numRead + 1)) none false 0 none).bind fun r =>
        match r with
        | none => some (.invalid, ⟨0, 0⟩, none)
        | some (ad, temp, e, tr) =>
          if ad < 0 then some (.invalid, ⟨0, 0⟩, none)
          else
            let ad := if isNeg ∨ num < 0 then -ad else ad
            let digits : Option Nat := if ad = 0 then some 0 else temp.map fun t => (p.drop 1).length - t.length
            digits.bind fun n =>
              let (v, nd, tr) := fitDigits num n ad tr
              expPart s len (reduce ⟨v, nd % 256⟩) tr e
    else expPart s len (reduce ⟨num, 0⟩) false (some p)

/-- `base/math/m_decimal.c:637-812`, `M_decimal_from_str`: the result code, the number and the end (`none` is NULL). -/
def fromStr (s : List UInt8) (len : Nat) : Option (Rv × Dec × Option (List UInt8)) :=
  if len = 0 then some (.invalid, ⟨0, 0⟩, none)
  else s[0]?.bind fun c =>
    if c = 46 then afterInt s len 0 s
    else (Num.toInt64Ex s len 10).bind fun r =>
      match r with
      | (.overflow, _) => some (.overflow, ⟨0, 0⟩, none)
      | (.invalid, _) => some (.invalid, ⟨0, 0⟩, none)
      | (.success, none) => none
      | (.success, some (num, p)) => afterInt s len num p

end Verif.Decimal
