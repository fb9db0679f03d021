import Verif.Num.Lemmas
/-! C22, C23: integer parsing.

A call reads the first `len` characters of a terminated string `t`.  `Parsed` is the grammar: white space, an optional sign,
then the longest run of digits of the base. -/
namespace Verif.Num
open Verif.Chr

/-- `u` is white space, an optional sign, the digits `ds`, and a rest that does not continue the number. -/
structure Parsed (base : Nat) (u : List UInt8) (neg : Bool) (ds rest : List UInt8) : Prop where
  split : ∃ ws sg, u = ws ++ sg ++ ds ++ rest ∧ (∀ c ∈ ws, isSpace c = true) ∧
    (sg = [45] ∧ neg = true ∨ sg = [43] ∧ neg = false ∨
      sg = [] ∧ neg = false ∧ ∀ c, (ds ++ rest).head? = some c → isSpace c = false ∧ c ≠ 45 ∧ c ≠ 43)
  digits : ∀ c ∈ ds, digitVal c < base
  stop : ∀ c, rest.head? = some c → base ≤ digitVal c

/-- The number denoted by a digit string, most significant digit first. -/
def value (base : Nat) : List UInt8 → Nat
  | [] => 0
  | c :: ds => digitVal c * base ^ ds.length + value base ds

theorem valueFrom_eq (base : Nat) (ds : List UInt8) : ∀ a, valueFrom base a ds = a * base ^ ds.length + value base ds := by
  induction ds with
  | nil => intro a; simp [valueFrom, value]
  | cons c ds ih =>
    intro a
    have := ih (a * base + digitVal c)
    simp only [valueFrom, List.foldl_cons] at this ⊢
    rw [this, value, List.length_cons, Nat.pow_succ, Nat.add_mul, Nat.mul_assoc, Nat.mul_comm base, Nat.add_assoc]

/-- The call `(t, len)`: `t` terminated, `u` the part inside the length. -/
structure Call (s : List UInt8) (len : Nat) (u tail : List UInt8) : Prop where
  mem : s = u ++ tail
  nz : (0 : UInt8) ∉ u
  text : ∃ t junk, s = t ++ 0 :: junk ∧ (0 : UInt8) ∉ t ∧ u = t.take len
  pos : len ≠ 0

theorem Call.inv {s : List UInt8} {len : Nat} {u tail : List UInt8} (h : Call s len u tail) : Inv u tail len := by
  obtain ⟨h1, h2, ⟨t, junk, h3, h4, h5⟩, _⟩ := h
  have ht : tail = t.drop len ++ 0 :: junk := by
    have e : u ++ tail = u ++ (t.drop len ++ 0 :: junk) := by
      rw [← h1, h3, h5, ← List.append_assoc, List.take_append_drop]
    exact List.append_cancel_left e
  refine ⟨h2, by rw [ht]; simp, ?_⟩
  rw [h5, List.length_take]
  by_cases hl : len ≤ t.length
  · left; omega
  · right
    refine ⟨by omega, ?_⟩
    rw [ht, List.drop_eq_nil_of_le (by omega)]; rfl

theorem parsed_eq {base : Nat} {u ds rest : List UInt8} {neg : Bool} (hp : Parsed base u neg ds rest) (hb : base ≤ 36) :
    (signOf (u.dropWhile isSpace)) = (neg, ds ++ rest) ∧ digitsOf base (ds ++ rest) = ds ∧ afterDigits base (ds ++ rest) = rest := by
  obtain ⟨⟨ws, sg, h1, h2, h3⟩, h4, h5⟩ := hp
  have hds : digitsOf base (ds ++ rest) = ds ∧ afterDigits base (ds ++ rest) = rest := by
    unfold digitsOf afterDigits
    rw [List.takeWhile_append_of_pos (by simpa using h4), List.dropWhile_append_of_pos (by simpa using h4)]
    cases rest with
    | nil => simp
    | cons c rest =>
      have := h5 c rfl
      rw [List.takeWhile_cons_of_neg (by simpa using this), List.dropWhile_cons_of_neg (by simpa using this)]
      simp
  refine ⟨?_, hds⟩
  have hw : u.dropWhile isSpace = (sg ++ (ds ++ rest)).dropWhile isSpace := by
    rw [h1, List.append_assoc, List.append_assoc, List.dropWhile_append_of_pos h2]
  rw [hw]
  rcases h3 with ⟨rfl, rfl⟩ | ⟨rfl, rfl⟩ | ⟨rfl, rfl, h3⟩
  · rw [List.cons_append, List.dropWhile_cons_of_neg (by decide)]; rfl
  · rw [List.cons_append, List.dropWhile_cons_of_neg (by decide)]; rfl
  · rw [List.nil_append]
    cases h : ds ++ rest with
    | nil => rfl
    | cons c r =>
      have := h3 c (by rw [h]; rfl)
      rw [List.dropWhile_cons_of_neg (by simp [this.1])]
      simp [signOf, this.2.1, this.2.2]

/-- C22.  For every terminated string, length and base: the end pointer is after the longest digit run; a number below
`2^64` is returned exactly (two's complement after a minus sign); no digits is INVALID; OVERFLOW is only reported for numbers
of at least `2^64` and then saturates.  Missing: OVERFLOW for *every* number of at least `2^64`
(`uint64_overflow_missed_fails`) and the `0x` prefix (`uint64_hex_prefix_fails`; the text consisting of just `0x` is excluded here). -/
theorem uint64_exact_partial {s u tail ds rest : List UInt8} {len base : Nat} {neg : Bool} (hc : Call s len u tail)
    (hb : 2 ≤ base ∧ base ≤ 36) (hp : Parsed base u neg ds rest) (hx : (ds ++ rest).map toLower ≠ [48, 120]) :
    ∃ rv v, toUint64Ex s len base = some (rv, some (v, rest ++ tail)) ∧
      (value base ds < 2 ^ 64 → rv = (if ds = [] then .invalid else .success) ∧
        v = if neg then (2 ^ 64 - value base ds) % 2 ^ 64 else value base ds) ∧
      (rv = .overflow → 2 ^ 64 ≤ value base ds ∧ v = 2 ^ 64 - 1) := by
  have e64 : (2 : Nat) ^ 64 = w64 := by decide
  rw [e64]
  obtain ⟨p1, p2, p3⟩ := parsed_eq hp hb.2
  have hi := hc.inv
  obtain ⟨n', q2, q1⟩ := prep_spec hi (by rw [p1]; exact hx)
  have q1 := q1 base
  simp only [p1] at q1 q2
  have hbase : baseOf base (ds ++ rest) = base := by unfold baseOf; rw [if_neg (by omega)]
  obtain ⟨rv, r1, r2, r3⟩ := toUint64Int_spec hb q2
  rw [p2, valueFrom_eq, Nat.zero_mul, Nat.zero_add] at r1 r2
  rw [p2] at r3
  rw [p3] at r1
  unfold toUint64Ex
  rw [if_neg hc.pos, hc.mem, q1, hbase]
  simp only [bind, Option.bind_some]
  rw [r1]
  simp only [Option.bind_some]
  by_cases ho : rv = .overflow
  · rw [if_pos ho]
    refine ⟨rv, w64 - 1, rfl, ?_, fun h => ⟨r2 h, rfl⟩⟩
    intro hlt
    have := r2 ho
    omega
  · rw [if_neg ho]
    cases neg with
    | true =>
      refine ⟨rv, _, rfl, ?_, fun h => absurd h ho⟩
      intro hlt
      rw [Nat.mod_eq_of_lt hlt]
      exact ⟨r3 ho, rfl⟩
    | false =>
      refine ⟨rv, _, rfl, ?_, fun h => absurd h ho⟩
      intro hlt
      rw [Nat.mod_eq_of_lt hlt]
      exact ⟨r3 ho, rfl⟩

example : Call [32, 45, 49, 50, 120, 0] 9 [32, 45, 49, 50, 120] [0] ∧ Parsed 10 [32, 45, 49, 50, 120] true [49, 50] [120] :=
  ⟨⟨rfl, by decide, ⟨[32, 45, 49, 50, 120], [], rfl, by decide, by decide⟩, by decide⟩,
   ⟨[32], [45], rfl, by decide, Or.inl ⟨rfl, rfl⟩⟩, by decide +kernel, by intro c h; simp at h; subst h; decide +kernel⟩

/-- Twenty digits denoting a number above `2^64` are accepted with a wrong value. -/
theorem uint64_overflow_missed_fails :
    toUint64Ex [50, 54, 48, 48, 48, 48, 48, 48, 48, 48, 48, 48, 48, 48, 48, 48, 48, 48, 48, 48, 0] 20 10 =
      some (.success, some (7553255926290448384, [0])) ∧
    2 ^ 64 ≤ value 10 [50, 54, 48, 48, 48, 48, 48, 48, 48, 48, 48, 48, 48, 48, 48, 48, 48, 48, 48, 48] := by decide +kernel

/-- `0x1F` in base 16, or with automatic base, is read as 0 with the rest unread. -/
theorem uint64_hex_prefix_fails :
    toUint64Ex [48, 120, 49, 70, 0] 4 16 = some (.success, some (0, [120, 49, 70, 0])) ∧
    toUint64Ex [48, 120, 49, 70, 0] 4 0 = some (.success, some (0, [120, 49, 70, 0])) := by decide +kernel

/-- Automatic base: 8 after a leading `0`, else 10.  Missing: hexadecimal (`uint64_hex_prefix_fails`). -/
theorem uint64_auto_base_partial {s u tail : List UInt8} {len : Nat} (hc : Call s len u tail)
    (hx : (signOf (u.dropWhile isSpace)).2.map toLower ≠ [48, 120]) :
    toUint64Ex s len 0 = toUint64Ex s len (if (signOf (u.dropWhile isSpace)).2.head? = some 48 then 8 else 10) := by
  obtain ⟨n', _, q⟩ := prep_spec hc.inv hx
  unfold toUint64Ex
  rw [if_neg hc.pos, if_neg hc.pos, hc.mem, q, q]
  have : baseOf 0 (signOf (u.dropWhile isSpace)).2 =
      baseOf (if (signOf (u.dropWhile isSpace)).2.head? = some 48 then 8 else 10) (signOf (u.dropWhile isSpace)).2 := by
    unfold baseOf
    by_cases hh : (signOf (u.dropWhile isSpace)).2.head? = some 48 <;> simp [hh]
  rw [this]

example : toUint64Ex [48, 49, 55, 0] 3 0 = some (.success, some (15, [0])) := by decide +kernel

/-! ### C23 -/

/-- The signed number of the text. -/
def signed (neg : Bool) (v : Nat) : Int := if neg then -(v : Int) else v

/-- Signed parsing: for magnitudes below `2^64` the exact value when it is in the range, else OVERFLOW and the nearest
bound.  Missing: magnitudes of at least `2^64` (`int64_overflow_missed_fails`). -/
theorem int64_exact_partial {s u tail ds rest : List UInt8} {len base : Nat} {neg : Bool} (hc : Call s len u tail)
    (hb : 2 ≤ base ∧ base ≤ 36) (hp : Parsed base u neg ds rest) (hx : (ds ++ rest).map toLower ≠ [48, 120])
    (hv : value base ds < 2 ^ 64) :
    ∃ rv v, toInt64Ex s len base = some (rv, some (v, rest ++ tail)) ∧
      (-2 ^ 63 ≤ signed neg (value base ds) ∧ signed neg (value base ds) < 2 ^ 63 →
        v = signed neg (value base ds) ∧ rv = if ds = [] then .invalid else .success) ∧
      (2 ^ 63 ≤ signed neg (value base ds) → rv = .overflow ∧ v = 2 ^ 63 - 1) ∧
      (signed neg (value base ds) < -2 ^ 63 → rv = .overflow ∧ v = -2 ^ 63) := by
  have e64 : (2 : Nat) ^ 64 = w64 := by decide
  have e63 : (2 : Int) ^ 63 = 9223372036854775808 := by decide
  rw [e63]
  rw [e64] at hv
  obtain ⟨p1, p2, p3⟩ := parsed_eq hp hb.2
  have hi := hc.inv
  obtain ⟨n', q2, q1⟩ := prep_spec hi (by rw [p1]; exact hx)
  have q1 := q1 base
  simp only [p1] at q1 q2
  have hbase : baseOf base (ds ++ rest) = base := by unfold baseOf; rw [if_neg (by omega)]
  obtain ⟨rv, r1, r2, r3⟩ := toUint64Int_spec hb q2
  rw [p2, valueFrom_eq, Nat.zero_mul, Nat.zero_add] at r1 r2
  rw [p2] at r3
  rw [p3, Nat.mod_eq_of_lt hv] at r1
  have ho : rv ≠ .overflow := fun h => by have := r2 h; omega
  have hrv := r3 ho
  unfold toInt64Ex
  rw [if_neg hc.pos, hc.mem, q1, hbase]
  simp only [bind, Option.bind_some]
  rw [r1]
  simp only [Option.bind_some]
  unfold signed
  generalize value base ds = V at *
  cases neg with
  | true =>
    simp only [if_true, true_and, not_true, false_and, if_false]
    by_cases h : V > 9223372036854775807 + 1
    · rw [if_pos h, if_pos rfl]
      exact ⟨_, _, rfl, by omega, by omega, fun _ => ⟨rfl, rfl⟩⟩
    · rw [if_neg h, if_neg ho]
      exact ⟨_, _, rfl, fun _ => ⟨rfl, hrv⟩, by omega, by omega⟩
  | false =>
    simp only [Bool.false_eq_true, false_and, if_false, not_false_eq_true, true_and]
    by_cases h : V > 9223372036854775807
    · rw [if_pos h, if_pos rfl]
      exact ⟨_, _, rfl, by omega, fun _ => ⟨rfl, rfl⟩, by omega⟩
    · rw [if_neg h, if_neg ho]
      exact ⟨_, _, rfl, fun _ => ⟨rfl, hrv⟩, by omega, by omega⟩

example : toInt64Ex [45, 57, 50, 50, 51, 51, 55, 50, 48, 51, 54, 56, 53, 52, 55, 55, 53, 56, 48, 56, 0] 20 10 =
    some (.success, some (-9223372036854775808, [0])) := by decide +kernel

/-- A number above `2^64` is accepted by the signed parser with a wrong value. -/
theorem int64_overflow_missed_fails :
    toInt64Ex [50, 54, 48, 48, 48, 48, 48, 48, 48, 48, 48, 48, 48, 48, 48, 48, 48, 48, 48, 48, 0] 20 10 =
      some (.success, some (7553255926290448384, [0])) ∧
    2 ^ 64 ≤ value 10 [50, 54, 48, 48, 48, 48, 48, 48, 48, 48, 48, 48, 48, 48, 48, 48, 48, 48, 48, 48] := by decide +kernel

/-- 32 bit unsigned parsing of an unsigned number below `2^64`. -/
theorem uint32_exact_partial {s u tail ds rest : List UInt8} {len base : Nat} (hc : Call s len u tail)
    (hb : 2 ≤ base ∧ base ≤ 36) (hp : Parsed base u false ds rest) (hx : (ds ++ rest).map toLower ≠ [48, 120])
    (hv : value base ds < 2 ^ 64) :
    toUint32Ex s len base =
      if value base ds < 2 ^ 32 then some (if ds = [] then .invalid else .success, some (value base ds, rest ++ tail))
      else some (.overflow, some (2 ^ 32 - 1, rest ++ tail)) := by
  obtain ⟨rv, v, h1, h2, _⟩ := uint64_exact_partial hc hb hp hx
  obtain ⟨h2, h3⟩ := h2 hv
  simp only [Bool.false_eq_true, if_false] at h3
  have e : (2 : Nat) ^ 32 = 4294967296 := by decide
  unfold toUint32Ex
  rw [h1, h2, h3, e]
  simp only [bind, Option.bind_some]
  by_cases h : value base ds < 4294967296
  · rw [if_pos h, if_neg (by omega)]
  · rw [if_neg h, if_pos (by omega)]

example : toUint32Ex [52, 50, 57, 52, 57, 54, 55, 50, 57, 54, 0] 10 10 = some (.overflow, some (4294967295, [0])) := by
  decide +kernel

/-- 32 bit signed parsing of a number of magnitude below `2^64`. -/
theorem int32_exact_partial {s u tail ds rest : List UInt8} {len base : Nat} {neg : Bool} (hc : Call s len u tail)
    (hb : 2 ≤ base ∧ base ≤ 36) (hp : Parsed base u neg ds rest) (hx : (ds ++ rest).map toLower ≠ [48, 120])
    (hv : value base ds < 2 ^ 64) :
    ∃ rv v, toInt32Ex s len base = some (rv, some (v, rest ++ tail)) ∧
      (-2 ^ 31 ≤ signed neg (value base ds) ∧ signed neg (value base ds) < 2 ^ 31 →
        v = signed neg (value base ds) ∧ rv = if ds = [] then .invalid else .success) ∧
      (2 ^ 31 ≤ signed neg (value base ds) → rv = .overflow ∧ v = 2 ^ 31 - 1) ∧
      (signed neg (value base ds) < -2 ^ 31 → rv = .overflow ∧ v = -2 ^ 31) := by
  obtain ⟨rv, v, h1, h2, h3, h4⟩ := int64_exact_partial hc hb hp hx hv
  have e63 : (2 : Int) ^ 63 = 9223372036854775808 := by decide
  have e31 : (2 : Int) ^ 31 = 2147483648 := by decide
  rw [e63] at h2 h3 h4
  rw [e31]
  unfold toInt32Ex
  rw [h1]
  simp only [bind, Option.bind_some]
  generalize signed neg (value base ds) = z at *
  by_cases a : z < -9223372036854775808
  · obtain ⟨_, rfl⟩ := h4 a
    rw [if_neg (by omega), if_pos (by omega)]
    exact ⟨_, _, rfl, by omega, by omega, fun _ => ⟨rfl, rfl⟩⟩
  · by_cases b : 9223372036854775808 ≤ z
    · obtain ⟨_, rfl⟩ := h3 b
      rw [if_pos (by omega)]
      exact ⟨_, _, rfl, by omega, fun _ => ⟨rfl, rfl⟩, by omega⟩
    · obtain ⟨rfl, hr⟩ := h2 ⟨by omega, by omega⟩
      by_cases c : v > 2147483647
      · rw [if_pos c]
        exact ⟨_, _, rfl, by omega, fun _ => ⟨rfl, rfl⟩, by omega⟩
      · rw [if_neg c]
        by_cases d : v < -2147483648
        · rw [if_pos d]
          exact ⟨_, _, rfl, by omega, by omega, fun _ => ⟨rfl, rfl⟩⟩
        · rw [if_neg d]
          exact ⟨_, _, rfl, fun _ => ⟨rfl, hr⟩, by omega, by omega⟩

example : toInt32Ex [45, 50, 49, 52, 55, 52, 56, 51, 54, 52, 57, 0] 11 10 = some (.overflow, some (-2147483648, [0])) := by
  decide +kernel

end Verif.Num
