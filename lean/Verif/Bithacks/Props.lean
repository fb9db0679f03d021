import Verif.Bithacks.Lemmas
import Verif.Bits.Model
/-! C34: bit tricks equal their arithmetic meaning. -/
namespace Verif.Bithacks

/-- `M_uint32_is_power_of_two` and its 64-bit versions. -/
theorem isPow_iff (n : Nat) : (isPow32 n = true ↔ ∃ k, n = 2 ^ k) ∧ (isPow64 n = true ↔ ∃ k, n = 2 ^ k) := by
  have h : (isPow64 n = true ↔ ∃ k, n = 2 ^ k) := by
    unfold isPow64
    by_cases h0 : n = 0
    · subst h0
      rw [if_pos rfl]
      refine ⟨fun h => by simp at h, ?_⟩
      rintro ⟨k, e⟩
      have : 0 < 2 ^ k := Nat.pow_pos (by omega)
      omega
    · rw [if_neg h0, ← and_pred_zero n h0]
      by_cases hz : n &&& (n - 1) = 0 <;> simp [hz]
  exact ⟨h, h⟩

/-- Rounding down: the result is a power of two, at most `n`, and its double is above `n`. -/
theorem roundDown32_correct (n : Nat) (h0 : n ≠ 0) (hn : n < 2 ^ 32) : ∃ k, roundDown32 n = 2 ^ k ∧ 2 ^ k ≤ n ∧ n < 2 ^ (k + 1) :=
  ⟨n.log2, down 32 n _ h0 hn (smear32_eq n h0 hn), Nat.log2_self_le h0, Nat.lt_log2_self⟩

theorem roundDown64_correct (n : Nat) (h0 : n ≠ 0) (hn : n < 2 ^ 64) : ∃ k, roundDown64 n = 2 ^ k ∧ 2 ^ k ≤ n ∧ n < 2 ^ (k + 1) :=
  ⟨n.log2, down 64 n _ h0 hn (smear64_eq n h0 hn), Nat.log2_self_le h0, Nat.lt_log2_self⟩

example : roundDown32 0 = 0 ∧ roundDown64 0 = 0 ∧ roundDown32 1000 = 512 ∧ roundDown64 (2 ^ 64 - 1) = 2 ^ 63 := by decide +kernel

/-- Rounding up, from 0 to `2^(w-1)`: the least power of two that is at least `n`, except that 0 gives 0. -/
theorem up (w n x : Nat) (h1 : 1 < n) (hx : x = 2 ^ ((n - 1).log2 + 1) - 1) (hn : n ≤ 2 ^ (w + 1)) :
    ∃ k, x + 1 = 2 ^ k ∧ n ≤ 2 ^ k ∧ 2 ^ k < 2 * n ∧ k ≤ w + 1 := by
  refine ⟨(n - 1).log2 + 1, ?_, ?_, ?_, ?_⟩
  · have : 0 < 2 ^ ((n - 1).log2 + 1) := Nat.pow_pos (by omega)
    omega
  · have := Nat.lt_log2_self (n := n - 1)
    omega
  · have := Nat.log2_self_le (n := n - 1) (by omega)
    rw [Nat.pow_succ]
    omega
  · have h2 := (Nat.log2_lt (n := n - 1) (k := w + 1) (by omega)).2 (by omega)
    omega

theorem roundUp32_correct (n : Nat) (h0 : n ≠ 0) (hn : n ≤ 2 ^ 31) : ∃ k, roundUp32 n = 2 ^ k ∧ n ≤ 2 ^ k ∧ 2 ^ k < 2 * n := by
  unfold roundUp32
  simp only
  rw [show (n + 2 ^ 32 - 1) % 2 ^ 32 = n - 1 by omega]
  by_cases h1 : n = 1
  · subst h1; exact ⟨0, by decide, by decide, by decide⟩
  · obtain ⟨k, e, h2, h3, hk⟩ := up 30 n _ (by omega) (smear32_eq (n - 1) (by omega) (by omega)) hn
    refine ⟨k, ?_, h2, h3⟩
    have : 2 ^ k ≤ 2 ^ 31 := Nat.pow_le_pow_right (by omega) hk
    rw [e, Nat.mod_eq_of_lt (by omega)]

theorem roundUp64_correct (n : Nat) (h0 : n ≠ 0) (hn : n ≤ 2 ^ 63) : ∃ k, roundUp64 n = 2 ^ k ∧ n ≤ 2 ^ k ∧ 2 ^ k < 2 * n := by
  unfold roundUp64
  simp only
  rw [show (n + 2 ^ 64 - 1) % 2 ^ 64 = n - 1 by omega]
  by_cases h1 : n = 1
  · subst h1; exact ⟨0, by decide, by decide, by decide⟩
  · obtain ⟨k, e, h2, h3, hk⟩ := up 62 n _ (by omega) (smear64_eq (n - 1) (by omega) (by omega)) hn
    refine ⟨k, ?_, h2, h3⟩
    have : 2 ^ k ≤ 2 ^ 63 := Nat.pow_le_pow_right (by omega) hk
    rw [e, Nat.mod_eq_of_lt (by omega)]

example : roundUp32 1000 = 1024 ∧ roundUp64 (2 ^ 62 + 1) = 2 ^ 63 ∧ roundUp32 1024 = 1024 := by decide +kernel

/-- When no power of two that fits is large enough, and for 0, the result is 0. -/
theorem roundUp_overflow (n : Nat) : (2 ^ 31 < n → n < 2 ^ 32 → roundUp32 n = 0) ∧ (2 ^ 63 < n → n < 2 ^ 64 → roundUp64 n = 0) ∧
    roundUp32 0 = 0 ∧ roundUp64 0 = 0 := by
  refine ⟨fun h1 h2 => ?_, fun h1 h2 => ?_, by decide +kernel, by decide +kernel⟩
  · unfold roundUp32
    simp only
    rw [show (n + 2 ^ 32 - 1) % 2 ^ 32 = n - 1 by omega, smear32_eq _ (by omega) (by omega)]
    have a := (Nat.le_log2 (n := n - 1) (k := 31) (by omega)).2 (by omega)
    have b := (Nat.log2_lt (n := n - 1) (k := 32) (by omega)).2 (by omega)
    rw [show (n - 1).log2 = 31 by omega]
  · unfold roundUp64
    simp only
    rw [show (n + 2 ^ 64 - 1) % 2 ^ 64 = n - 1 by omega, smear64_eq _ (by omega) (by omega)]
    have a := (Nat.le_log2 (n := n - 1) (k := 63) (by omega)).2 (by omega)
    have b := (Nat.log2_lt (n := n - 1) (k := 64) (by omega)).2 (by omega)
    rw [show (n - 1).log2 = 63 by omega]

theorem tab32_correct : ∀ k : Fin 32, tab32[(2 ^ k.val * 0x077CB531 % 2 ^ 32) >>> 27]? = some k.val := by decide +kernel

theorem tab64_correct : ∀ k : Fin 64, tab64[(2 ^ k.val * 0x07EDD5E59A4E28C2 % 2 ^ 64) >>> 58]? = some k.val := by decide +kernel

/-- The logarithm rounded down. -/
theorem log32_correct (n : Nat) (h0 : n ≠ 0) (hn : n < 2 ^ 32) : ∃ k, log32 n = some k ∧ 2 ^ k ≤ n ∧ n < 2 ^ (k + 1) := by
  obtain ⟨k, e, h1, h2⟩ := roundDown32_correct n h0 hn
  have hk : k < 32 := (Nat.pow_lt_pow_iff_right (by omega : 1 < 2)).1 (by omega)
  refine ⟨k, ?_, h1, h2⟩
  have key : (if isPow32 n then n else roundDown32 n) = 2 ^ k := by
    by_cases hp : isPow32 n = true
    · rw [if_pos hp]
      obtain ⟨j, rfl⟩ := (isPow_iff n).1.1 hp
      have a : k ≤ j := (Nat.pow_le_pow_iff_right (by omega : 1 < 2)).1 h1
      have b : j < k + 1 := (Nat.pow_lt_pow_iff_right (by omega : 1 < 2)).1 h2
      rw [show j = k by omega]
    · rw [if_neg hp, e]
  unfold log32
  simp only [key]
  exact tab32_correct ⟨k, hk⟩

theorem log64_correct (n : Nat) (h0 : n ≠ 0) (hn : n < 2 ^ 64) : ∃ k, log64 n = some k ∧ 2 ^ k ≤ n ∧ n < 2 ^ (k + 1) := by
  obtain ⟨k, e, h1, h2⟩ := roundDown64_correct n h0 hn
  have hk : k < 64 := (Nat.pow_lt_pow_iff_right (by omega : 1 < 2)).1 (by omega)
  refine ⟨k, ?_, h1, h2⟩
  have key : (if isPow64 n then n else roundDown64 n) = 2 ^ k := by
    by_cases hp : isPow64 n = true
    · rw [if_pos hp]
      obtain ⟨j, rfl⟩ := (isPow_iff n).2.1 hp
      have a : k ≤ j := (Nat.pow_le_pow_iff_right (by omega : 1 < 2)).1 h1
      have b : j < k + 1 := (Nat.pow_lt_pow_iff_right (by omega : 1 < 2)).1 h2
      rw [show j = k by omega]
    · rw [if_neg hp, e]
  unfold log64
  simp only [key]
  exact tab64_correct ⟨k, hk⟩

/-- The logarithm of 0, for which there is no right answer, is 0 in 32 bits and 63 in 64 bits. -/
example : log32 0 = some 0 ∧ log64 0 = some 63 ∧ log32 1000 = some 9 ∧ log64 (2 ^ 40 + 5) = some 40 := by decide +kernel

/-- Sign extension of a value of `num` bits: the value in two's complement. -/
theorem signExtend_correct (num x : Nat) (h1 : 1 ≤ num) (h64 : num ≤ 64) (hx : x < 2 ^ num) :
    signExtend x num = some (if x < 2 ^ (num - 1) then (x : Int) else (x : Int) - 2 ^ num) := by
  obtain ⟨k, rfl⟩ : ∃ k, num = k + 1 := ⟨num - 1, by omega⟩
  have hxor : ∀ low, low < 2 ^ k → (2 ^ k + low) ^^^ 2 ^ k = low ∧ low ^^^ 2 ^ k = 2 ^ k + low := by
    intro low h
    have e : 2 ^ k + low = low ^^^ 2 ^ k := by
      apply Nat.eq_of_testBit_eq
      intro i
      rw [Nat.testBit_xor, Nat.testBit_two_pow]
      by_cases hi : i = k
      · subst hi
        rw [Nat.testBit_two_pow_add_eq, Nat.testBit_lt_two_pow h]; simp
      · rcases Nat.lt_or_gt_of_ne hi with hl | hg
        · rw [Nat.testBit_two_pow_add_gt hl]
          have : ¬ k = i := by omega
          simp [this]
        · have h1 : 2 ^ k + low < 2 ^ i := by
            have : 2 ^ (k + 1) ≤ 2 ^ i := Nat.pow_le_pow_right (by omega) (by omega)
            rw [Nat.pow_succ] at this; omega
          have h2 : low < 2 ^ i := by omega
          rw [Nat.testBit_lt_two_pow h1, Nat.testBit_lt_two_pow h2]
          have : ¬ k = i := by omega
          simp [this]
    refine ⟨?_, e.symm⟩
    rw [e, Nat.xor_assoc, Nat.xor_self, Nat.xor_zero]
  have hk : 2 ^ k ≤ 2 ^ 63 := Nat.pow_le_pow_right (by omega) (by omega)
  unfold signExtend
  rw [if_neg (by omega)]
  simp only [Nat.add_sub_cancel, Nat.shiftLeft_eq, Nat.one_mul]
  rw [Nat.pow_succ] at hx
  have hc : (2 : Int) ^ (k + 1) = ((2 ^ k : Nat) : Int) * 2 := by rw [Int.pow_succ]; simp
  rw [hc]
  generalize hP : 2 ^ k = P at *
  by_cases h : x < P
  · rw [if_pos h, (hxor x h).2, show P + x + 2 ^ 64 - P = x + 2 ^ 64 by omega, Nat.add_mod_right, Nat.mod_eq_of_lt (by omega), if_pos (by omega)]
  · obtain ⟨y, rfl⟩ : ∃ y, x = P + y := ⟨x - P, by omega⟩
    rw [if_neg h, (hxor y (by omega)).1, Nat.mod_eq_of_lt (by omega), if_neg (by omega)]
    congr 1
    omega

example : signExtend 0b10110 5 = some (-10) ∧ signExtend 0b00110 5 = some 6 ∧ signExtend 0xFFFFFFFFFFFFFFFF 64 = some (-1) := by decide +kernel

/-- A width of 0 is a shift by `2^64 - 1`. -/
theorem signExtend_zero_fails : signExtend 1 0 = none := by decide

/-- The number of ones in binary. -/
def ones (n : Nat) : Nat := if h : n = 0 then 0 else n % 2 + ones (n / 2)
termination_by n
decreasing_by omega

theorem ones_pos (n : Nat) (h : n ≠ 0) : ones n = n % 2 + ones (n / 2) := by conv => lhs; rw [ones, dif_neg h]

theorem ones_step (n : Nat) (h : n ≠ 0) : ones n = ones (n &&& (n - 1)) + 1 := by
  induction n using Nat.strongRecOn with
  | ind n ih =>
    by_cases ho : n % 2 = 1
    · obtain ⟨m, rfl⟩ : ∃ m, n = 2 * m + 1 := ⟨n / 2, by omega⟩
      rw [Nat.add_sub_cancel, and_pred_odd, ones_pos _ h, show (2 * m + 1) / 2 = m by omega]
      by_cases hm : m = 0
      · subst hm; simp [Nat.add_comm]
      · rw [ones_pos (2 * m) (by omega), show 2 * m / 2 = m by omega]; omega
    · obtain ⟨m, rfl⟩ : ∃ m, n = 2 * m := ⟨n / 2, by omega⟩
      rw [and_pred_even m (by omega), ones_pos _ h, show 2 * m / 2 = m by omega, ih m (by omega) (by omega)]
      by_cases hz : m &&& (m - 1) = 0
      · rw [hz, Nat.mul_zero]; omega
      · rw [ones_pos (2 * (m &&& (m - 1))) (by omega), show 2 * (m &&& (m - 1)) / 2 = m &&& (m - 1) by omega]; omega

theorem ones_le (w n : Nat) (h : n < 2 ^ w) : ones n ≤ w := by
  induction w generalizing n with
  | zero => have : n = 0 := by omega
            subst this; rw [ones, dif_pos rfl]; omega
  | succ w ih =>
    by_cases h0 : n = 0
    · subst h0; rw [ones, dif_pos rfl]; omega
    · rw [ones_pos n h0]
      have := ih (n / 2) (by rw [Nat.pow_succ] at h; omega)
      omega

/-- `M_uint64_popcount`. -/
theorem popcount64_correct (n : Nat) (h : n < 2 ^ 64) : popcount64 n 0 = ones n := by
  have key : ∀ n c, ones n + c < 256 → popcount64 n c = ones n + c := by
    intro n c
    fun_induction popcount64 n c with
    | case1 c => intro _; rw [ones, dif_pos rfl, Nat.zero_add]
    | case2 n c h hlt ih =>
      intro hc
      rw [ones_step n h] at hc ⊢
      rw [Nat.mod_eq_of_lt (a := c + 1) (by omega)] at ih ⊢
      rw [ih (by omega)]
      omega
  have := ones_le 64 n h
  exact key n 0 (by omega)

/-- `M_uint8_popcount`. -/
theorem popcount8_correct (x : Nat) (h : x < 256) : popcount8 x = some (ones x) := by
  have h1 : ∀ x : Fin 256, popcount8 x.val =
      some (x.val % 2 + (x.val / 2 % 2 + (x.val / 4 % 2 + (x.val / 8 % 2 + (x.val / 16 % 2 + (x.val / 32 % 2 + (x.val / 64 % 2 + x.val / 128 % 2))))))) := by
    decide +kernel
  have step : ∀ n, ones n = n % 2 + ones (n / 2) := by
    intro n
    by_cases h : n = 0
    · subst h; rw [ones, dif_pos rfl]
    · exact ones_pos n h
  rw [h1 ⟨x, h⟩]
  simp only
  rw [step x, step (x / 2), step (x / 2 / 2), step (x / 2 / 2 / 2), step (x / 2 / 2 / 2 / 2), step (x / 2 / 2 / 2 / 2 / 2),
    step (x / 2 / 2 / 2 / 2 / 2 / 2), step (x / 2 / 2 / 2 / 2 / 2 / 2 / 2), show x / 2 / 2 / 2 / 2 / 2 / 2 / 2 / 2 = 0 by omega,
    show ones 0 = 0 by rw [ones, dif_pos rfl]]
  congr 1
  omega

example : popcount8 0b10110111 = some 6 := by decide +kernel

/-- The count used in the model of the bit parser is the table of `M_uint8_popcount`. -/
theorem popcount8_parser (b : UInt8) : popcount8 b.toNat = some (Bits.popcount b) := by
  have h : ∀ x : Fin 256, popcount8 x.val = some (Bits.popcount (UInt8.ofNat x.val)) := by decide +kernel
  have := h ⟨b.toNat, b.toNat_lt⟩
  rwa [UInt8.ofNat_toNat] at this

end Verif.Bithacks
