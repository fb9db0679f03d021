import Verif.Utf8.Model
namespace Verif.Utf8

/-- The UTF-8 form of a code point (RFC 3629, section 3). -/
def utf8 (cp : Nat) : List UInt8 :=
  if cp < 0x80 then [UInt8.ofNat cp]
  else if cp < 0x800 then [UInt8.ofNat (0xC0 + cp / 64), UInt8.ofNat (0x80 + cp % 64)]
  else if cp < 0x10000 then
    [UInt8.ofNat (0xE0 + cp / 4096), UInt8.ofNat (0x80 + cp / 64 % 64), UInt8.ofNat (0x80 + cp % 64)]
  else
    [UInt8.ofNat (0xF0 + cp / 262144), UInt8.ofNat (0x80 + cp / 4096 % 64), UInt8.ofNat (0x80 + cp / 64 % 64),
      UInt8.ofNat (0x80 + cp % 64)]

/-- Unicode scalar values. -/
def Scalar (cp : Nat) : Prop := cp ≤ 0x10FFFF ∧ ¬ (0xD800 ≤ cp ∧ cp ≤ 0xDFFF)

/-- Unicode noncharacters. -/
def NonChar (cp : Nat) : Prop := (0xFDD0 ≤ cp ∧ cp ≤ 0xFDEF) ∨ cp % 0x10000 ≥ 0xFFFE

/-- What the library accepts: scalar values that are not noncharacters, except that the noncharacters of planes 10 to 15
are accepted. -/
def Allowed (cp : Nat) : Prop := Scalar cp ∧ ¬ (NonChar cp ∧ ¬ (0xA0000 ≤ cp ∧ cp < 0x100000))

instance (cp : Nat) : Decidable (Scalar cp) := by unfold Scalar; infer_instance
instance (cp : Nat) : Decidable (NonChar cp) := by unfold NonChar; infer_instance
instance (cp : Nat) : Decidable (Allowed cp) := by unfold Allowed; infer_instance

theorem isValidCp_iff (cp : Nat) : isValidCp cp = true ↔ Allowed cp := by
  unfold isValidCp Allowed Scalar NonChar
  split
  · simp; omega
  · split
    · simp; omega
    · split
      · simp; omega
      · simp; omega

theorem cpWidth_eq {cp : Nat} : cpWidth cp = (utf8 cp).length := by
  unfold cpWidth utf8
  repeat' split
  all_goals first | rfl | omega

theorem or_hi {k m y : Nat} (h : y < 2 ^ k) : 2 ^ k * m ||| y = 2 ^ k * m + y := (Nat.two_pow_add_eq_or_of_lt h m).symm

theorem m63 (n : Nat) : n &&& 0x3F = n % 64 := by
  rw [show 0x3F = 2 ^ 6 - 1 by rfl, Nat.and_two_pow_sub_one_eq_mod]

theorem fromCp_eq (size cp : Nat) : fromCp size cp =
    if Allowed cp then (if (utf8 cp).length ≤ size then .ok (utf8 cp) else .error .truncated) else .error .badCodePoint := by
  unfold fromCp
  by_cases ha : Allowed cp
  · have hv := (isValidCp_iff cp).2 ha
    have hle := ha.1.1
    rw [if_pos ha, if_neg (by simp [hv])]
    simp only [cpWidth_eq]
    by_cases hs : (utf8 cp).length ≤ size
    · rw [if_neg (by omega), if_pos hs]
      have e3 : ∀ y, y < 64 → 0x80 ||| y = 0x80 + y := fun y hy => or_hi (k := 6) (m := 2) (by omega)
      simp only [m63, Nat.shiftRight_eq_div_pow]
      rw [e3 (cp % 64) (by omega), e3 (cp / 2 ^ 6 % 64) (by omega), e3 (cp / 2 ^ 12 % 64) (by omega)]
      unfold utf8
      split
      · simp
      · split
        · simp only [List.length_cons, List.length_nil, Nat.zero_add, Nat.reduceAdd, Nat.reduceEqDiff, if_false, if_true]
          rw [show 0xC0 ||| cp / 2 ^ 6 % 64 = 0xC0 + cp / 2 ^ 6 % 64 from or_hi (k := 6) (m := 3) (by omega),
            show cp / 2 ^ 6 % 64 = cp / 64 by omega]
        · split
          · simp only [List.length_cons, List.length_nil, Nat.zero_add, Nat.reduceAdd, Nat.reduceEqDiff, if_false, if_true]
            rw [show 0xE0 ||| cp / 2 ^ 12 % 64 = 0xE0 + cp / 2 ^ 12 % 64 from or_hi (k := 5) (m := 7) (by omega),
              show cp / 2 ^ 12 % 64 = cp / 4096 by omega]
          · simp only [List.length_cons, List.length_nil, Nat.zero_add, Nat.reduceAdd, Nat.reduceEqDiff, if_false]
            rw [show 0xF0 ||| cp / 2 ^ 18 % 64 = 0xF0 + cp / 2 ^ 18 % 64 from or_hi (k := 4) (m := 15) (by omega),
              show cp / 2 ^ 18 % 64 = cp / 262144 by omega]
    · rw [if_pos (by omega), if_neg hs]
  · have hv : isValidCp cp ≠ true := fun h => ha ((isValidCp_iff cp).1 h)
    rw [if_neg ha, if_pos hv]

theorem isContinue_iff (b : UInt8) : isContinue b = true ↔ 0x80 ≤ b.toNat ∧ b.toNat ≤ 0xBF := by
  simp [isContinue, UInt8.le_iff_toNat_le]

theorem byteWidth_eq (b : UInt8) : byteWidth b =
    if b.toNat ≤ 0x7F then 1
    else if 0x80 ≤ b.toNat ∧ b.toNat ≤ 0xBF then 0
    else if 0xC2 ≤ b.toNat ∧ b.toNat ≤ 0xDF then 2
    else if 0xE0 ≤ b.toNat ∧ b.toNat ≤ 0xEF then 3
    else if 0xF0 ≤ b.toNat ∧ b.toNat ≤ 0xF4 then 4
    else 0 := by
  simp only [byteWidth, UInt8.le_iff_toNat_le]
  rfl

theorem checkCont_ok (s : List UInt8) : ∀ n i, checkCont s n i = some none →
    ∀ k, i ≤ k → k < i + n → ∃ c, s[k]? = some c ∧ 0x80 ≤ c.toNat ∧ c.toNat ≤ 0xBF := by
  intro n
  induction n with
  | zero => intro i _ k h1 h2; omega
  | succ n ih =>
    intro i h k h1 h2
    unfold checkCont at h
    cases hc : s[i]? with
    | none => rw [hc] at h; cases h
    | some c =>
      rw [hc] at h
      simp only [bind, Option.bind_some] at h
      split at h
      · cases h
      · split at h
        · cases h
        next h3 =>
          by_cases hk : k = i
          · subst hk
            exact ⟨c, hc, (isContinue_iff c).1 (by simpa using h3)⟩
          · exact ih (i + 1) h k (by omega) (by omega)

theorem checkCont_of (s : List UInt8) : ∀ n i,
    (∀ k, i ≤ k → k < i + n → ∃ c, s[k]? = some c ∧ 0x80 ≤ c.toNat ∧ c.toNat ≤ 0xBF) → checkCont s n i = some none := by
  intro n
  induction n with
  | zero => intro i _; rfl
  | succ n ih =>
    intro i h
    obtain ⟨c, h1, h2⟩ := h i (by omega) (by omega)
    have h0 : c ≠ 0 := by intro h0; subst h0; simp at h2
    have h3 := (isContinue_iff c).2 h2
    unfold checkCont
    rw [h1]
    simp only [bind, Option.bind_some]
    rw [if_neg h0, if_neg (by simp [h3])]
    exact ih (i + 1) (fun k h4 h5 => h k (by omega) (by omega))

theorem or_add' {x a v n : Nat} (k m : Nat) (hv : v < 2 ^ m) (hx : x = a * 2 ^ (k + m)) (hn : n = x + v * 2 ^ k) :
    x ||| v <<< k = n := by
  have hlt : v * 2 ^ k < 2 ^ (k + m) := by
    rw [Nat.pow_add, Nat.mul_comm]
    exact Nat.mul_lt_mul_of_pos_left hv (Nat.two_pow_pos k)
  rw [hn, hx, Nat.shiftLeft_eq, Nat.mul_comm a, Nat.two_pow_add_eq_or_of_lt hlt]

theorem asm2 (a b : Nat) : (a &&& 0x1F) <<< 6 ||| (b &&& 0x3F) = a % 32 * 64 + b % 64 := by
  rw [m63, show 0x1F = 2 ^ 5 - 1 by rfl, Nat.and_two_pow_sub_one_eq_mod]
  have := or_add' (x := (a % 2 ^ 5) <<< 6) (a := a % 32) (v := b % 64) 0 6 (Nat.mod_lt _ (by omega)) (by rw [Nat.shiftLeft_eq]) rfl
  rw [Nat.shiftLeft_zero] at this
  rw [this, Nat.shiftLeft_eq]
  omega

theorem asm3 (a b c : Nat) : (a &&& 0x0F) <<< 12 ||| (b &&& 0x3F) <<< 6 ||| (c &&& 0x3F) = a % 16 * 4096 + b % 64 * 64 + c % 64 := by
  rw [m63, m63, show 0x0F = 2 ^ 4 - 1 by rfl, Nat.and_two_pow_sub_one_eq_mod]
  rw [or_add' (x := (a % 2 ^ 4) <<< 12) (n := a % 16 * 4096 + b % 64 * 64) (a := a % 16) 6 6 (Nat.mod_lt _ (by omega))
    (by rw [Nat.shiftLeft_eq]) (by rw [Nat.shiftLeft_eq])]
  have := or_add' (x := a % 16 * 4096 + b % 64 * 64) (a := a % 16 * 64 + b % 64) (v := c % 64) 0 6 (Nat.mod_lt _ (by omega)) (by omega) rfl
  rw [Nat.shiftLeft_zero] at this
  rw [this]
  omega

theorem asm4 (a b c d : Nat) : (a &&& 0x07) <<< 18 ||| (b &&& 0x3F) <<< 12 ||| (c &&& 0x3F) <<< 6 ||| (d &&& 0x3F) =
    a % 8 * 262144 + b % 64 * 4096 + c % 64 * 64 + d % 64 := by
  rw [m63, m63, m63, show 0x07 = 2 ^ 3 - 1 by rfl, Nat.and_two_pow_sub_one_eq_mod]
  rw [or_add' (x := (a % 2 ^ 3) <<< 18) (n := a % 8 * 262144 + b % 64 * 4096) (a := a % 8) 12 6 (Nat.mod_lt _ (by omega))
    (by rw [Nat.shiftLeft_eq]) (by rw [Nat.shiftLeft_eq]),
    or_add' (n := a % 8 * 262144 + b % 64 * 4096 + c % 64 * 64) (a := a % 8 * 64 + b % 64) 6 6 (Nat.mod_lt _ (by omega))
    (by omega) (by omega)]
  have := or_add' (x := a % 8 * 262144 + b % 64 * 4096 + c % 64 * 64) (a := a % 8 * 4096 + b % 64 * 64 + c % 64) (v := d % 64) 0 6
    (Nat.mod_lt _ (by omega)) (by omega) rfl
  rw [Nat.shiftLeft_zero] at this
  rw [this]
  omega

theorem toNat_ofNat {n : Nat} (h : n < 256) : (UInt8.ofNat n).toNat = n := by
  simp [UInt8.toNat_ofNat']; omega

theorem ofNat_of {n : Nat} {a : UInt8} (h : n = a.toNat) : UInt8.ofNat n = a := by rw [h, UInt8.ofNat_toNat]

/-- Decoding the form of an allowed code point. -/
theorem getCp_utf8 {cp : Nat} (ha : Allowed cp) (h0 : cp ≠ 0) (rest : List UInt8) :
    getCp (utf8 cp ++ rest) = some (.ok (cp, rest)) := by
  have hv := (isValidCp_iff cp).2 ha
  have hle := ha.1.1
  have hw := cpWidth_eq (cp := cp)
  by_cases h1 : cp < 0x80
  · have e : utf8 cp = [UInt8.ofNat cp] := by rw [utf8, if_pos h1]
    have t := toNat_ofNat (n := cp) (by omega)
    rw [e]
    have hbw : byteWidth (UInt8.ofNat cp) = 1 := by rw [byteWidth_eq, t, if_pos (by omega)]
    have hb0 : UInt8.ofNat cp ≠ 0 := by intro h; rw [h] at t; simp at t; omega
    unfold getCp
    simp only [List.cons_append, List.nil_append, List.getElem?_cons_zero, bind, Option.bind_some, hbw]
    rw [if_neg hb0]
    simp [t]
  · by_cases h2 : cp < 0x800
    · have e : utf8 cp = [UInt8.ofNat (0xC0 + cp / 64), UInt8.ofNat (0x80 + cp % 64)] := by rw [utf8, if_neg h1, if_pos h2]
      have t0 := toNat_ofNat (n := 0xC0 + cp / 64) (by omega)
      have t1 := toNat_ofNat (n := 0x80 + cp % 64) (by omega)
      rw [e] at hw ⊢
      generalize UInt8.ofNat (0xC0 + cp / 64) = b0 at *
      generalize UInt8.ofNat (0x80 + cp % 64) = b1 at *
      have hcc : checkCont (b0 :: b1 :: rest) 1 1 = some none := by
        apply checkCont_of
        intro k k1 k2
        have : k = 1 := by omega
        subst this
        exact ⟨b1, rfl, by omega⟩
      have hbw : byteWidth b0 = 2 := by
        rw [byteWidth_eq, t0, if_neg (by omega), if_neg (by omega), if_pos (by omega)]
      have hb0 : b0 ≠ 0 := by intro h; rw [h] at t0; simp at t0; omega
      unfold getCp
      simp only [List.cons_append, List.nil_append, List.getElem?_cons_zero, List.getElem?_cons_succ, bind, Option.bind_some]
      rw [if_neg hb0]
      simp only [hbw, Nat.reduceSub, hcc, Option.bind_some, asm2, t0, t1]
      rw [show (0xC0 + cp / 64) % 32 * 64 + (0x80 + cp % 64) % 64 = cp by omega, hv, hw]
      simp
    · by_cases h3 : cp < 0x10000
      · have e : utf8 cp = [UInt8.ofNat (0xE0 + cp / 4096), UInt8.ofNat (0x80 + cp / 64 % 64), UInt8.ofNat (0x80 + cp % 64)] := by
          rw [utf8, if_neg h1, if_neg h2, if_pos h3]
        have t0 := toNat_ofNat (n := 0xE0 + cp / 4096) (by omega)
        have t1 := toNat_ofNat (n := 0x80 + cp / 64 % 64) (by omega)
        have t2 := toNat_ofNat (n := 0x80 + cp % 64) (by omega)
        rw [e] at hw ⊢
        generalize UInt8.ofNat (0xE0 + cp / 4096) = b0 at *
        generalize UInt8.ofNat (0x80 + cp / 64 % 64) = b1 at *
        generalize UInt8.ofNat (0x80 + cp % 64) = b2 at *
        have hcc : checkCont (b0 :: b1 :: b2 :: rest) 2 1 = some none := by
          apply checkCont_of
          intro k k1 k2
          have : k = 1 ∨ k = 2 := by omega
          rcases this with rfl | rfl
          · exact ⟨b1, rfl, by omega⟩
          · exact ⟨b2, rfl, by omega⟩
        have hbw : byteWidth b0 = 3 := by
          rw [byteWidth_eq, t0, if_neg (by omega), if_neg (by omega), if_neg (by omega), if_pos (by omega)]
        have hb0 : b0 ≠ 0 := by intro h; rw [h] at t0; simp at t0; omega
        unfold getCp
        simp only [List.cons_append, List.nil_append, List.getElem?_cons_zero, List.getElem?_cons_succ, bind, Option.bind_some]
        rw [if_neg hb0]
        simp only [hbw, Nat.reduceSub, hcc, Option.bind_some, asm3, t0, t1, t2]
        rw [show (0xE0 + cp / 4096) % 16 * 4096 + (0x80 + cp / 64 % 64) % 64 * 64 + (0x80 + cp % 64) % 64 = cp by omega]
        simp [hv, hw]
      · have e : utf8 cp = [UInt8.ofNat (0xF0 + cp / 262144), UInt8.ofNat (0x80 + cp / 4096 % 64), UInt8.ofNat (0x80 + cp / 64 % 64),
            UInt8.ofNat (0x80 + cp % 64)] := by
          rw [utf8, if_neg h1, if_neg h2, if_neg h3]
        have t0 := toNat_ofNat (n := 0xF0 + cp / 262144) (by omega)
        have t1 := toNat_ofNat (n := 0x80 + cp / 4096 % 64) (by omega)
        have t2 := toNat_ofNat (n := 0x80 + cp / 64 % 64) (by omega)
        have t3 := toNat_ofNat (n := 0x80 + cp % 64) (by omega)
        rw [e] at hw ⊢
        generalize UInt8.ofNat (0xF0 + cp / 262144) = b0 at *
        generalize UInt8.ofNat (0x80 + cp / 4096 % 64) = b1 at *
        generalize UInt8.ofNat (0x80 + cp / 64 % 64) = b2 at *
        generalize UInt8.ofNat (0x80 + cp % 64) = b3 at *
        have hcc : checkCont (b0 :: b1 :: b2 :: b3 :: rest) 3 1 = some none := by
          apply checkCont_of
          intro k k1 k2
          have : k = 1 ∨ k = 2 ∨ k = 3 := by omega
          rcases this with rfl | rfl | rfl
          · exact ⟨b1, rfl, by omega⟩
          · exact ⟨b2, rfl, by omega⟩
          · exact ⟨b3, rfl, by omega⟩
        have hbw : byteWidth b0 = 4 := by
          rw [byteWidth_eq, t0, if_neg (by omega), if_neg (by omega), if_neg (by omega), if_neg (by omega), if_pos (by omega)]
        have hb0 : b0 ≠ 0 := by intro h; rw [h] at t0; simp at t0; omega
        unfold getCp
        simp only [List.cons_append, List.nil_append, List.getElem?_cons_zero, List.getElem?_cons_succ, bind, Option.bind_some]
        rw [if_neg hb0]
        simp only [hbw, Nat.reduceSub, hcc, Option.bind_some, asm4, t0, t1, t2, t3]
        rw [show (0xF0 + cp / 262144) % 8 * 262144 + (0x80 + cp / 4096 % 64) % 64 * 4096 + (0x80 + cp / 64 % 64) % 64 * 64 + (0x80 + cp % 64) % 64 = cp by omega]
        simp [hv, hw]

/-- A successful decoding read the form of an allowed code point. -/
theorem getCp_ok {s rest : List UInt8} {cp : Nat} (h : getCp s = some (.ok (cp, rest))) (hs : s[0]? ≠ some 0) :
    Allowed cp ∧ cp ≠ 0 ∧ s = utf8 cp ++ rest := by
  unfold getCp at h
  cases s with
  | nil => simp at h
  | cons b0 s =>
    have hb0 : b0 ≠ 0 := by simpa using hs
    have hb0' : b0.toNat ≠ 0 := fun h => hb0 (UInt8.toNat_inj.1 (by simpa using h))
    have hlt := b0.toNat_lt
    simp only [List.getElem?_cons_zero, bind, Option.bind_some] at h
    rw [if_neg hb0] at h
    have hbw := byteWidth_eq b0
    by_cases w0 : byteWidth b0 = 0
    · rw [if_pos w0] at h; cases h
    rw [if_neg w0] at h
    by_cases w1 : byteWidth b0 = 1
    · rw [if_pos w1] at h
      simp only [List.drop_succ_cons, List.drop_zero, Option.some.injEq, Except.ok.injEq, Prod.mk.injEq] at h
      have hle : b0.toNat ≤ 0x7F := by
        rw [hbw] at w1
        apply Classical.byContradiction
        intro hn
        rw [if_neg hn] at w1
        split at w1
        · cases w1
        · split at w1
          · cases w1
          · split at w1
            · cases w1
            · split at w1 <;> cases w1
      obtain ⟨rfl, rfl⟩ := h
      refine ⟨⟨⟨by omega, by omega⟩, by simp [NonChar]; omega⟩, hb0', ?_⟩
      rw [utf8, if_pos (by omega), UInt8.ofNat_toNat]; rfl
    rw [if_neg w1] at h
    cases hcc : checkCont (b0 :: s) (byteWidth b0 - 1) 1 with
    | none => rw [hcc] at h; cases h
    | some r =>
    rw [hcc] at h
    simp only [Option.bind_some] at h
    cases r with
    | some e => cases h
    | none =>
    have hk := checkCont_ok _ _ _ hcc
    simp only at h
    by_cases w2 : byteWidth b0 = 2
    · have hr : 0xC2 ≤ b0.toNat ∧ b0.toNat ≤ 0xDF := by
        rw [hbw] at w2
        repeat' split at w2
        all_goals first | assumption | cases w2
      obtain ⟨b1, g1, r1, r1'⟩ := hk 1 (by omega) (by omega)
      cases s with
      | nil => simp at g1
      | cons c1 s =>
      simp only [List.getElem?_cons_succ, List.getElem?_cons_zero, Option.some.injEq] at g1
      subst g1
      rw [if_pos w2] at h
      simp only [List.getElem?_cons_succ, List.getElem?_cons_zero, Option.bind_some, asm2] at h
      split at h
      · cases h
      next hv =>
      have hv : Allowed _ := (isValidCp_iff _).1 (by simpa using hv)
      split at h
      · cases h
      next hw =>
      rw [w2] at h hw
      simp only [List.drop_succ_cons, List.drop_zero, Option.some.injEq, Except.ok.injEq, Prod.mk.injEq] at h
      obtain ⟨rfl, rfl⟩ := h
      refine ⟨hv, by omega, ?_⟩
      rw [utf8, if_neg (by omega), if_pos (by omega)]
      simp only [List.cons_append, List.nil_append, List.cons.injEq, and_true]
      exact ⟨(ofNat_of (by omega)).symm, (ofNat_of (by omega)).symm⟩
    rw [if_neg w2] at h
    by_cases w3 : byteWidth b0 = 3
    · have hr : 0xE0 ≤ b0.toNat ∧ b0.toNat ≤ 0xEF := by
        rw [hbw] at w3
        repeat' split at w3
        all_goals first | assumption | cases w3
      obtain ⟨b1, g1, r1, r1'⟩ := hk 1 (by omega) (by omega)
      obtain ⟨b2, g2, r2, r2'⟩ := hk 2 (by omega) (by omega)
      match s, g1, g2, h with
      | c1 :: c2 :: s, g1, g2, h =>
      simp only [List.getElem?_cons_succ, List.getElem?_cons_zero, Option.some.injEq] at g1 g2
      subst g1 g2
      rw [if_pos w3] at h
      simp only [List.getElem?_cons_succ, List.getElem?_cons_zero, Option.bind_some, asm3] at h
      split at h
      · cases h
      next hv =>
      have hv : Allowed _ := (isValidCp_iff _).1 (by simpa using hv)
      split at h
      · cases h
      next hw =>
      rw [w3] at h hw
      simp only [List.drop_succ_cons, List.drop_zero, Option.some.injEq, Except.ok.injEq, Prod.mk.injEq] at h
      obtain ⟨rfl, rfl⟩ := h
      have hge : 0x800 ≤ b0.toNat % 16 * 4096 + c1.toNat % 64 * 64 + c2.toNat % 64 := by
        apply Classical.byContradiction
        intro hn
        have : cpWidth (b0.toNat % 16 * 4096 + c1.toNat % 64 * 64 + c2.toNat % 64) ≠ 3 := by
          unfold cpWidth
          split
          · omega
          · rw [if_pos (by omega)]; omega
        exact hw (fun h => this h.symm)
      refine ⟨hv, by omega, ?_⟩
      rw [utf8, if_neg (by omega), if_neg (by omega), if_pos (by omega)]
      simp only [List.cons_append, List.nil_append, List.cons.injEq, and_true]
      exact ⟨(ofNat_of (by omega)).symm, (ofNat_of (by omega)).symm, (ofNat_of (by omega)).symm⟩
    rw [if_neg w3] at h
    have w4 : byteWidth b0 = 4 ∧ 0xF0 ≤ b0.toNat ∧ b0.toNat ≤ 0xF4 := by
      rw [hbw] at w0 w1 w2 w3 ⊢
      by_cases a1 : b0.toNat ≤ 0x7F
      · rw [if_pos a1] at w1; exact absurd rfl w1
      rw [if_neg a1] at w0 w2 w3 ⊢
      by_cases a2 : 0x80 ≤ b0.toNat ∧ b0.toNat ≤ 0xBF
      · rw [if_pos a2] at w0; exact absurd rfl w0
      rw [if_neg a2] at w0 w2 w3 ⊢
      by_cases a3 : 0xC2 ≤ b0.toNat ∧ b0.toNat ≤ 0xDF
      · rw [if_pos a3] at w2; exact absurd rfl w2
      rw [if_neg a3] at w0 w3 ⊢
      by_cases a4 : 0xE0 ≤ b0.toNat ∧ b0.toNat ≤ 0xEF
      · rw [if_pos a4] at w3; exact absurd rfl w3
      rw [if_neg a4] at w0 ⊢
      by_cases a5 : 0xF0 ≤ b0.toNat ∧ b0.toNat ≤ 0xF4
      · rw [if_pos a5]; exact ⟨rfl, a5⟩
      · rw [if_neg a5] at w0; exact absurd rfl w0
    obtain ⟨w4, hr⟩ := w4
    obtain ⟨b1, g1, r1, r1'⟩ := hk 1 (by omega) (by omega)
    obtain ⟨b2, g2, r2, r2'⟩ := hk 2 (by omega) (by omega)
    obtain ⟨b3, g3, r3, r3'⟩ := hk 3 (by omega) (by omega)
    match s, g1, g2, g3, h with
    | c1 :: c2 :: c3 :: s, g1, g2, g3, h =>
    simp only [List.getElem?_cons_succ, List.getElem?_cons_zero, Option.some.injEq] at g1 g2 g3
    subst g1 g2 g3
    simp only [List.getElem?_cons_succ, List.getElem?_cons_zero, Option.bind_some, asm4] at h
    split at h
    · cases h
    next hv =>
    have hv : Allowed _ := (isValidCp_iff _).1 (by simpa using hv)
    split at h
    · cases h
    next hw =>
    rw [w4] at h hw
    simp only [List.drop_succ_cons, List.drop_zero, Option.some.injEq, Except.ok.injEq, Prod.mk.injEq] at h
    obtain ⟨rfl, rfl⟩ := h
    have hge : 0x10000 ≤ b0.toNat % 8 * 262144 + c1.toNat % 64 * 4096 + c2.toNat % 64 * 64 + c3.toNat % 64 := by
      apply Classical.byContradiction
      intro hn
      have : cpWidth (b0.toNat % 8 * 262144 + c1.toNat % 64 * 4096 + c2.toNat % 64 * 64 + c3.toNat % 64) ≠ 4 := by
        unfold cpWidth
        split
        · omega
        · split
          · omega
          · rw [if_pos (by omega)]; omega
      exact hw (fun h => this h.symm)
    refine ⟨hv, by omega, ?_⟩
    rw [utf8, if_neg (by omega), if_neg (by omega), if_neg (by omega)]
    simp only [List.cons_append, List.nil_append, List.cons.injEq, and_true]
    exact ⟨(ofNat_of (by omega)).symm, (ofNat_of (by omega)).symm, (ofNat_of (by omega)).symm, (ofNat_of (by omega)).symm⟩

end Verif.Utf8
