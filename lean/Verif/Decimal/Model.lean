/- Model of `base/math/m_decimal.c`.

`M_int64` values are integers; the places where the code relies on wrapping multiplication or subtraction wrap explicitly
(`wrap`; the functions carry the attribute that silences the overflow sanitizer).  Other signed overflow is undefined
behaviour: the outcome `none`.  Pointers are not NULL. -/
namespace Verif.Decimal

/-- `M_INT64_MIN`, `M_INT64_MAX`. -/
def i64min : Int := -9223372036854775808
def i64max : Int := 9223372036854775807

/-- The 64 bit two's complement value of an integer. -/
def wrap (x : Int) : Int := (x + 9223372036854775808) % 18446744073709551616 - 9223372036854775808

/-- A signed 64 bit result that must not overflow. -/
def chk (x : Int) : Option Int := if i64min ≤ x ∧ x ≤ i64max then some x else none

/-- `M_decimal_t`; `nd` is `num_dec`. -/
structure Dec where
  num : Int
  nd : Nat
deriving DecidableEq, Repr

/-- `enum M_DECIMAL_RETVAL`. -/
inductive Rv
  | success
  | overflow
  | truncation
  | invalid
deriving DecidableEq, Repr

/-- `M_decimal_round_t`. -/
inductive Round
  | none
  | traditional
  | bankers
deriving DecidableEq, Repr

/-- `base/math/m_decimal.c:86-119`, `M_decimal_mult_int64`: the result code and `*out`. -/
def multInt64 (in1 in2 : Int) : Rv × Int :=
  let out := wrap (in1 * in2)
  let ov : Bool :=
    if in1 > 0 then
      if in2 > 0 then decide (in1 > i64max.tdiv in2)
      else decide (in2 < i64min.tdiv in1)
    else
      if in2 > 0 then decide (in1 < i64min.tdiv in2)
      else decide (in1 ≠ 0 ∧ in2 < i64max.tdiv in1)
  (if ov then .overflow else .success, out)

/-- `M_ABS` of a signed 64 bit value. -/
def abs64 (x : Int) : Option Int := if x = i64min then none else some (if x < 0 then -x else x)

/-- The rounding of `M_decimal_div_int64`, `base/math/m_decimal.c:139-169`: the adjusted `*out`. -/
def roundOut (out num denom : Int) (round : Round) : Option Int :=
  if round = .none then some out
  else
    let moddenom := denom.tdiv 10
    if moddenom = 0 then some out
    else do
      let a ← abs64 (num.tdiv moddenom)
      let digit := a % 10
      if num > 0 ∧ digit > 5 then chk (out + 1)
      else if num < 0 ∧ digit > 5 then chk (out - 1)
      else if digit = 5 then
        if round = .traditional then if num > 0 then chk (out + 1) else chk (out - 1)
        else do
          let b ← abs64 out
          if (b % 10) % 2 ≠ 0 then if num > 0 then chk (out + 1) else chk (out - 1)
          else some out
      else some out

/-- `base/math/m_decimal.c:122-179`, `M_decimal_div_int64`, where `*out` is `out0` before. -/
def divInt64 (out0 num denom : Int) (round : Round) : Option (Rv × Int) :=
  if denom = 0 then some (.invalid, out0)
  else if num = i64min ∧ denom = -1 then some (.overflow, i64max)
  else do
    let out ← roundOut (num.tdiv denom) num denom round
    some (if num.tmod denom ≠ 0 then .truncation else .success, out)

/-- `base/math/m_decimal.c:182-192`, `M_decimal_add_int64`: `none` inside is an unwritten `*out`. -/
def addInt64 (num1 num2 : Int) : Rv × Option Int :=
  if (num2 > 0 ∧ num1 > i64max - num2) ∨ (num2 < 0 ∧ num1 < i64min - num2) then (.overflow, none)
  else (.success, some (num1 + num2))

/-- The loop of `base/math/m_decimal.c:195-206`, `M_decimal_exp_int64`. -/
def expLoop (num : Int) : Nat → Int → Rv × Int
  | 0, out => (.success, out)
  | n + 1, out =>
    let r := multInt64 out num
    if r.1 ≠ .success then (.overflow, r.2) else expLoop num n r.2

/-- `base/math/m_decimal.c:195-206`, `M_decimal_exp_int64`. -/
def expInt64 (num : Int) (e : Nat) : Rv × Int := expLoop num e 1

/-- `base/math/m_decimal.c:209-243`, `M_decimal_transform`: the result code and the updated decimal. -/
def transform (d : Dec) (nd : Nat) (round : Round) : Option (Rv × Dec) :=
  if nd = d.nd then some (.success, d)
  else if nd > d.nd then
    if d.num ≠ 0 then
      let e := expInt64 10 (nd - d.nd)
      if e.1 = .overflow then some (e.1, d)
      else
        let m := multInt64 d.num e.2
        some (m.1, ⟨m.2, nd⟩)
    else some (.success, ⟨d.num, nd⟩)
  else
    if d.num ≠ 0 then
      let e := expInt64 10 (d.nd - nd)
      if e.1 = .overflow then some (e.1, d)
      else (divInt64 d.num d.num e.2 round).map fun r => (r.1, ⟨r.2, nd⟩)
    else some (.success, ⟨d.num, nd⟩)

/-- The loop of `base/math/m_decimal.c:246-256`, `M_decimal_reduce`. -/
def reduceLoop (num : Int) : Nat → Dec
  | 0 => ⟨num, 0⟩
  | nd + 1 => if num.tmod 10 ≠ 0 then ⟨num, nd + 1⟩ else reduceLoop (num.tdiv 10) nd

/-- `base/math/m_decimal.c:246-256`, `M_decimal_reduce`. -/
def reduce (d : Dec) : Dec := reduceLoop d.num d.nd

/-- The body of the loop of `M_decimal_prepmath`: both transformations, the second only when the first did not overflow.
The flag tells whether the loop ends. -/
def prepStep (t1 t2 : Dec) (nd : Nat) : Option (Bool × Dec × Dec) := do
  let (r1, t1) ← transform t1 nd .traditional
  if r1 = .overflow then some (false, t1, t2)
  else do
    let (r2, t2) ← transform t2 nd .traditional
    some (r2 != .overflow, t1, t2)

/-- The iterations of the loop of `base/math/m_decimal.c:286-324`, `M_decimal_prepmath`, after the first, for `num_dec = nd`. -/
def prepLoop (d1 d2 : Dec) : Nat → Option (Rv × Dec × Dec)
  | 0 => do
    let (fin, t1, t2) ← prepStep d1 d2 0
    if fin then some (.truncation, t1, t2) else some (.invalid, t1, t2)
  | nd + 1 => do
    let (fin, t1, t2) ← prepStep d1 d2 (nd + 1)
    if fin then some (.truncation, t1, t2) else prepLoop d1 d2 nd

/-- `base/math/m_decimal.c:286-324`, `M_decimal_prepmath`.  The iterations after the first start from the unreduced
arguments and end in TRUNCATION. -/
def prepmath (d1 d2 : Dec) (red : Bool) : Option (Rv × Dec × Dec) := do
  let t1 := if red then reduce d1 else d1
  let t2 := if red then reduce d2 else d2
  let wanted := max t1.nd t2.nd
  let (fin, u1, u2) ← prepStep t1 t2 wanted
  if fin then some (.success, u1, u2)
  else if wanted = 0 then some (.invalid, u1, u2)
  else prepLoop d1 d2 (wanted - 1)

/-- The loop of `base/math/m_decimal.c:327-369`, `M_decimal_multiply`: the code, the product and the final `tdec1.num_dec`
with the number of iterations `i`.  The number of decimals decreases in every iteration. -/
def multLoop : Nat → Dec → Dec → Nat → Option (Rv × Int × Nat × Nat)
  | 0, _, _, _ => none
  | fuel + 1, t1, t2, i =>
    let m := multInt64 t1.num t2.num
    if m.1 ≠ .overflow then some (m.1, m.2, t1.nd, i)
    else if t1.nd = 0 then some (m.1, m.2, t1.nd, i)
    else do
      let (_, t1') ← transform t1 (t1.nd - 1) .traditional
      let (_, t2') ← transform t2 (t2.nd - 1) .traditional
      multLoop fuel t1' t2' (i + 1)

/-- `base/math/m_decimal.c:327-369`, `M_decimal_multiply`: the code and `*dest`, which is
not written when the code is INVALID. -/
def multiply (d1 d2 : Dec) : Option (Rv × Dec) := do
  let (prv, t1, t2) ← prepmath d1 d2 true
  if prv = .invalid then some (.invalid, ⟨0, 0⟩)
  else do
    let (rv, num, nd, i) ← multLoop (t1.nd + 1) t1 t2 0
    if rv ≠ .success then some (rv, ⟨0, 0⟩)
    else some (if i ≠ 0 ∨ prv = .truncation then .truncation else rv, reduce ⟨num, (nd * 2) % 256⟩)

/-- `base/math/m_decimal.c:471-495`, `M_decimal_subtract`. -/
def subtract (d1 d2 : Dec) : Option (Rv × Dec) := do
  let (prv, t1, t2) ← prepmath d1 d2 true
  if prv = .invalid then some (.invalid, ⟨0, 0⟩)
  else
    let dest : Dec := ⟨wrap (t1.num - t2.num), t1.nd⟩
    if (t2.num > 0 ∧ t1.num < i64min + t2.num) ∨ (t2.num < 0 ∧ t1.num > i64max + t2.num) then some (.overflow, dest)
    else some (prv, reduce dest)

/-- `base/math/m_decimal.c:498-518`, `M_decimal_add`. -/
def add (d1 d2 : Dec) : Option (Rv × Dec) := do
  let (prv, t1, t2) ← prepmath d1 d2 true
  if prv = .invalid then some (.invalid, ⟨0, 0⟩)
  else
    match addInt64 t1.num t2.num with
    | (.success, some n) => some (prv, reduce ⟨n, t1.nd⟩)
    | _ => some (.overflow, ⟨0, 0⟩)

/-- One attempt of the loop of `M_decimal_cmp`: the transformed numbers and whether the loop ends. -/
def cmpStep (d1 d2 : Dec) (nd : Nat) : Option (Bool × Dec × Dec) := do
  let (r1, t1) ← transform d1 nd .traditional
  if r1 ≠ .success then some (false, t1, d2)
  else do
    let (r2, t2) ← transform d2 nd .traditional
    some (r2 == .success, t1, t2)

/-- The loop of `base/math/m_decimal.c:521-563`, `M_decimal_cmp`, for `num_dec`; `t1 t2` are the current values. -/
def cmpLoop (d1 d2 : Dec) : Nat → Dec → Dec → Option (Dec × Dec)
  | 0, t1, t2 => some (t1, t2)
  | nd + 1, _, _ => do
    let (fin, t1, t2) ← cmpStep d1 d2 (nd + 1)
    if fin then some (t1, t2) else cmpLoop d1 d2 nd t1 t2

/-- `base/math/m_decimal.c:521-563`, `M_decimal_cmp`. -/
def cmp (d1 d2 : Dec) : Option Int := do
  let t1 := reduce d1
  let t2 := reduce d2
  let (t1, t2) ← cmpLoop d1 d2 (max t1.nd t2.nd) t1 t2
  if t1.num > t2.num then some 1
  else if t1.num < t2.num then some (-1)
  else some 0

/-- The first loop of `base/math/m_decimal.c:372-468`, `M_decimal_divide`: `wanted_dec`, `remexp` and the last code.  It
ends with `wanted_dec = 0` when nothing fits. -/
def remLoop (rem : Int) : Nat → Rv → Int → Rv × Int × Nat
  | 0, rv, remexp => (rv, remexp, 0)
  | w + 1, _, _ =>
    let m := multInt64 rem (expInt64 10 (w + 1)).2
    if m.1 = .success then (m.1, m.2, w + 1) else remLoop rem w m.1 m.2

/-- The second loop of `M_decimal_divide`: `dest->num`, `afterdec`, `afterdecrv` and `wanted_dec`. -/
def fitLoop (num : Int) (round : Round) : Nat → Int → Int → Rv → Option (Int × Int × Rv × Nat)
  | 0, dnum, afterdec, arv => some (dnum, afterdec, arv, 0)
  | w + 1, _, afterdec, arv =>
    let m := multInt64 num (expInt64 10 (w + 1)).2
    if m.1 = .success then some (m.2, afterdec, arv, w + 1)
    else do
      let (r, a) ← divInt64 afterdec afterdec 10 round
      fitLoop num round w m.2 a (if r = .truncation then .truncation else arv)

/-- `base/math/m_decimal.c:372-468`, `M_decimal_divide`.  `10^18` fits, so the exponentiations do not fail. -/
def divide (d1 d2 : Dec) (round : Round) : Option (Rv × Dec) := do
  let (prv, t1, t2) ← prepmath d1 d2 false
  if prv = .invalid then some (.invalid, ⟨0, 0⟩)
  else if t2.num = 0 then some (.invalid, ⟨0, 0⟩)
  else if t1.num = i64min ∧ t2.num = -1 then some (.overflow, ⟨0, 0⟩)
  else
    let num := t1.num.tdiv t2.num
    let (rv, remexp, w) := remLoop (t1.num.tmod t2.num) 18 .success 0
    if rv ≠ .success then some (rv, ⟨0, 0⟩)
    else do
      let (rv, afterdec) ← divInt64 0 remexp t2.num round
      if rv ≠ .success ∧ rv ≠ .truncation then some (rv, ⟨0, 0⟩)
      else do
        let (dnum, afterdec, arv, w) ← fitLoop num round w 0 afterdec (if rv = .truncation then .truncation else .success)
        let dnum ← if w ≠ 0 then chk (dnum + afterdec) else some dnum
        some (if arv = .truncation ∨ prv = .truncation then .truncation else .success, reduce ⟨dnum, w⟩)

end Verif.Decimal
