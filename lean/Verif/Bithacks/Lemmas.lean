import Verif.Bithacks.Model
namespace Verif.Bithacks

/-- Clearing the lowest bit. -/
theorem and_pred_odd (m : Nat) : (2 * m + 1) &&& (2 * m) = 2 * m := by
  apply Nat.eq_of_testBit_eq
  intro i
  rw [Nat.testBit_and]
  cases i with
  | zero => simp [Nat.testBit_zero]
  | succ i => rw [Nat.testBit_succ, Nat.testBit_succ]; rw [show (2 * m + 1) / 2 = m by omega, show 2 * m / 2 = m by omega, Bool.and_self]

theorem and_pred_even (m : Nat) (h : m ≠ 0) : (2 * m) &&& (2 * m - 1) = 2 * (m &&& (m - 1)) := by
  apply Nat.eq_of_testBit_eq
  intro i
  rw [Nat.testBit_and]
  cases i with
  | zero => simp [Nat.testBit_zero]
  | succ i =>
    rw [Nat.testBit_succ, Nat.testBit_succ, Nat.testBit_succ, show 2 * m / 2 = m by omega, show (2 * m - 1) / 2 = m - 1 by omega,
      show 2 * (m &&& (m - 1)) / 2 = m &&& (m - 1) by omega, Nat.testBit_and]

/-- `n & (n - 1)` is zero exactly on powers of two. -/
theorem and_pred_zero (n : Nat) (h : n ≠ 0) : n &&& (n - 1) = 0 ↔ ∃ k, n = 2 ^ k := by
  induction n using Nat.strongRecOn with
  | ind n ih =>
    by_cases ho : n % 2 = 1
    · obtain ⟨m, rfl⟩ : ∃ m, n = 2 * m + 1 := ⟨n / 2, by omega⟩
      rw [Nat.add_sub_cancel, and_pred_odd]
      constructor
      · intro e; exact ⟨0, by rw [e]⟩
      · rintro ⟨k, e⟩
        cases k with
        | zero => omega
        | succ k => rw [Nat.pow_succ] at e; omega
    · obtain ⟨m, rfl⟩ : ∃ m, n = 2 * m := ⟨n / 2, by omega⟩
      rw [and_pred_even m (by omega)]
      have := ih m (by omega) (by omega)
      constructor
      · intro e
        obtain ⟨k, hk⟩ := this.1 (by omega)
        exact ⟨k + 1, by rw [Nat.pow_succ, hk]; omega⟩
      · rintro ⟨k, e⟩
        cases k with
        | zero => omega
        | succ k =>
          rw [Nat.pow_succ] at e
          have := this.2 ⟨k, by omega⟩
          omega

/-- One `n |= n >> k`, when a bit already stands for the `k` bits from it on. -/
theorem smear_step (n x k : Nat) (h : ∀ i, x.testBit i = true ↔ ∃ d, d < k ∧ n.testBit (i + d) = true) :
    ∀ i, (x ||| (x >>> k)).testBit i = true ↔ ∃ d, d < 2 * k ∧ n.testBit (i + d) = true := by
  intro i
  rw [Nat.testBit_or, Nat.testBit_shiftRight, Bool.or_eq_true, h, h]
  constructor
  · rintro (⟨d, h1, h2⟩ | ⟨d, h1, h2⟩)
    · exact ⟨d, by omega, h2⟩
    · exact ⟨k + d, by omega, by rw [← h2]; congr 1; omega⟩
  · rintro ⟨d, h1, h2⟩
    by_cases hd : d < k
    · exact Or.inl ⟨d, hd, h2⟩
    · exact Or.inr ⟨d - k, by omega, by rw [← h2]; congr 1; omega⟩

theorem smear_base (n : Nat) : ∀ i, n.testBit i = true ↔ ∃ d, d < 1 ∧ n.testBit (i + d) = true := by
  intro i
  constructor
  · intro h; exact ⟨0, by omega, h⟩
  · rintro ⟨d, h1, h2⟩
    rw [show d = 0 by omega] at h2
    exact h2

theorem smear_all (n x w : Nat) (h0 : n ≠ 0) (hn : n < 2 ^ w) (h : ∀ i, x.testBit i = true ↔ ∃ d, d < w ∧ n.testBit (i + d) = true) :
    x = 2 ^ (n.log2 + 1) - 1 := by
  apply Nat.eq_of_testBit_eq
  intro i
  have hl : n.log2 < w := (Nat.log2_lt h0).2 hn
  rw [Nat.testBit_two_pow_sub_one, Bool.eq_iff_iff, h, decide_eq_true_iff]
  constructor
  · rintro ⟨d, _, hd⟩
    have := Nat.ge_two_pow_of_testBit hd
    have h2 := (Nat.le_log2 h0).2 this
    omega
  · intro hi
    refine ⟨n.log2 - i, by omega, ?_⟩
    rw [show i + (n.log2 - i) = n.log2 by omega]
    exact Nat.testBit_log2 h0

theorem smear32_eq (n : Nat) (h0 : n ≠ 0) (hn : n < 2 ^ 32) : smear32 n = 2 ^ (n.log2 + 1) - 1 := by
  apply smear_all n _ 32 h0 hn
  unfold smear32
  exact smear_step n _ 16 (smear_step n _ 8 (smear_step n _ 4 (smear_step n _ 2 (smear_step n _ 1 (smear_base n)))))

theorem smear64_eq (n : Nat) (h0 : n ≠ 0) (hn : n < 2 ^ 64) : smear64 n = 2 ^ (n.log2 + 1) - 1 := by
  apply smear_all n _ 64 h0 hn
  unfold smear64
  exact smear_step n _ 32 (smear_step n _ 16 (smear_step n _ 8 (smear_step n _ 4 (smear_step n _ 2 (smear_step n _ 1 (smear_base n))))))

theorem log_lt (n w : Nat) (h0 : n ≠ 0) (hn : n < 2 ^ w) : 2 * 2 ^ n.log2 ≤ 2 ^ w := by
  have hl : n.log2 + 1 ≤ w := (Nat.log2_lt h0).2 hn
  have := Nat.pow_le_pow_right (n := 2) (by omega) hl
  rw [Nat.pow_succ] at this
  omega

theorem down (w n x : Nat) (h0 : n ≠ 0) (hn : n < 2 ^ w) (hx : x = 2 ^ (n.log2 + 1) - 1) : (x + 2 ^ w - (x >>> 1)) % 2 ^ w = 2 ^ n.log2 := by
  subst hx
  have h1 := log_lt n w h0 hn
  rw [Nat.shiftRight_eq_div_pow, Nat.pow_succ]
  have hp : 0 < 2 ^ n.log2 := Nat.pow_pos (by omega)
  generalize 2 ^ n.log2 = p at *
  generalize 2 ^ w = W at *
  rw [show p * 2 - 1 + W - (p * 2 - 1) / 2 ^ 1 = p + W by omega, Nat.add_mod_right, Nat.mod_eq_of_lt (by omega)]

end Verif.Bithacks
