import Mathlib.NumberTheory.LucasPrimality
import Mathlib.Tactic.NormNum.Prime
/-! The prime factors of `2 ^ 256 - 1`: number facts for C75. -/
namespace Verif.Rand

/-- Power modulo `m`, the lowest `n` bits of the exponent being left. -/
def powm (m a e : Nat) : Nat → Nat → Nat
  | 0, acc => acc
  | n + 1, acc => powm m a e n (acc * acc * (if e.testBit n then a else 1) % m)

theorem powm_spec (m a e n : Nat) : ∀ acc b, acc ≡ a ^ b [MOD m] → powm m a e n acc ≡ a ^ (b * 2 ^ n + e % 2 ^ n) [MOD m] := by
  induction n with
  | zero => intro acc b h; simpa [powm, Nat.mod_one] using h
  | succ n ih =>
    intro acc b h
    have hmod : e % 2 ^ (n + 1) = (if e.testBit n then 2 ^ n else 0) + e % 2 ^ n := by
      rw [Nat.mod_pow_succ, Nat.testBit_eq_decide_div_mod_eq, Nat.add_comm]
      rcases Nat.mod_two_eq_zero_or_one (e / 2 ^ n) with h | h <;> simp [h]
    rw [powm, hmod]
    cases hb : e.testBit n
    · refine (ih _ (b + b) ?_).trans ?_
      · simp only [Bool.false_eq_true, if_false, Nat.mul_one]
        exact (Nat.mod_modEq _ _).trans (by rw [pow_add]; exact h.mul h)
      · simp only [Bool.false_eq_true, if_false]
        rw [show (b + b) * 2 ^ n + e % 2 ^ n = b * 2 ^ (n + 1) + (0 + e % 2 ^ n) by ring]
    · refine (ih _ (b + b + 1) ?_).trans ?_
      · simp only [if_true]
        exact (Nat.mod_modEq _ _).trans (by rw [pow_succ, pow_add]; exact (h.mul h).mul_right _)
      · simp only [if_true]
        rw [show (b + b + 1) * 2 ^ n + e % 2 ^ n = b * 2 ^ (n + 1) + (2 ^ n + e % 2 ^ n) by ring]

theorem powm_zmod {m a e : Nat} (he : e < 2 ^ 80) : (a : ZMod m) ^ e = (powm m a e 80 1 : ZMod m) := by
  have h := powm_spec m a e 80 1 0 (by simp [Nat.ModEq])
  rw [Nat.mod_eq_of_lt he, Nat.zero_mul, Nat.zero_add] at h
  have := (ZMod.natCast_eq_natCast_iff _ _ _).2 h
  rw [this, Nat.cast_pow]

theorem prime_of (p a : Nat) (ps : List (Nat × Nat)) (hps : ∀ q ∈ ps, Nat.Prime q.1)
    (hprod : (ps.map fun q => q.1 ^ q.2).prod = p - 1) (hlt : p - 1 < 2 ^ 80) (hp : 1 < p)
    (h1 : powm p a (p - 1) 80 1 = 1) (h2 : ∀ q ∈ ps, powm p a ((p - 1) / q.1) 80 1 % p ≠ 1) : Nat.Prime p := by
  have hone : (1 : ZMod p) = ((1 : Nat) : ZMod p) := by simp
  refine lucas_primality p (a : ZMod p) ?_ ?_
  · rw [powm_zmod hlt, h1]; simp
  · intro q hq hd
    rw [← hprod] at hd
    obtain ⟨x, hx, hqx⟩ := (Prime.dvd_prod_iff hq.prime).1 hd
    obtain ⟨y, hy, rfl⟩ := List.mem_map.1 hx
    have he : q = y.1 := (Nat.prime_dvd_prime_iff_eq hq (hps y hy)).1 (hq.dvd_of_dvd_pow hqx)
    subst he
    rw [powm_zmod (Nat.lt_of_le_of_lt (Nat.div_le_self _ _) hlt), hone]
    intro h
    have := (ZMod.natCast_eq_natCast_iff _ _ _).1 h
    apply h2 y hy
    rw [this, Nat.mod_eq_of_lt hp]

theorem prime_1 : Nat.Prime 2998279 := by norm_num

theorem prime_2 : Nat.Prime 67280421310721 :=
  prime_of _ 3 [(2, 8), (5, 1), (47, 1), (373, 1), (2998279, 1)]
    (by simp only [List.forall_mem_cons]; refine ⟨?_, ?_, ?_, ?_, prime_1, by simp⟩ <;> norm_num)
    (by decide +kernel) (by decide +kernel) (by decide +kernel) (by decide +kernel) (by decide +kernel)

theorem prime_3 : Nat.Prime 1896229 := by norm_num

theorem prime_4 : Nat.Prime 18533742247 :=
  prime_of _ 6 [(2, 1), (3, 3), (181, 1), (1896229, 1)]
    (by simp only [List.forall_mem_cons]; refine ⟨?_, ?_, ?_, prime_3, by simp⟩ <;> norm_num)
    (by decide +kernel) (by decide +kernel) (by decide +kernel) (by decide +kernel) (by decide +kernel)

theorem prime_5 : Nat.Prime 116503103764643 :=
  prime_of _ 2 [(2, 1), (7, 1), (449, 1), (18533742247, 1)]
    (by simp only [List.forall_mem_cons]; refine ⟨?_, ?_, ?_, prime_4, by simp⟩ <;> norm_num)
    (by decide +kernel) (by decide +kernel) (by decide +kernel) (by decide +kernel) (by decide +kernel)

theorem prime_6 : Nat.Prime 59649589127497217 :=
  prime_of _ 3 [(2, 9), (116503103764643, 1)]
    (by simp only [List.forall_mem_cons]; refine ⟨?_, prime_5, by simp⟩; norm_num)
    (by decide +kernel) (by decide +kernel) (by decide +kernel) (by decide +kernel) (by decide +kernel)

theorem prime_7 : Nat.Prime 55515497 := by
  have h : Nat.Prime 6939437 := by norm_num
  exact prime_of _ 3 [(2, 3), (6939437, 1)]
    (by simp only [List.forall_mem_cons]; refine ⟨?_, h, by simp⟩; norm_num)
    (by decide +kernel) (by decide +kernel) (by decide +kernel) (by decide +kernel) (by decide +kernel)

theorem prime_8 : Nat.Prime 733803839347 :=
  prime_of _ 2 [(2, 1), (3, 1), (2203, 1), (55515497, 1)]
    (by simp only [List.forall_mem_cons]; refine ⟨?_, ?_, ?_, prime_7, by simp⟩ <;> norm_num)
    (by decide +kernel) (by decide +kernel) (by decide +kernel) (by decide +kernel) (by decide +kernel)

theorem prime_9 : Nat.Prime 5704689200685129054721 :=
  prime_of _ 21 [(2, 9), (3, 5), (5, 1), (12497, 1), (733803839347, 1)]
    (by simp only [List.forall_mem_cons]; refine ⟨?_, ?_, ?_, ?_, prime_8, by simp⟩ <;> norm_num)
    (by decide +kernel) (by decide +kernel) (by decide +kernel) (by decide +kernel) (by decide +kernel)

/-- The prime factors of the period. -/
def factors : List Nat := [3, 5, 17, 257, 641, 65537, 274177, 6700417, 67280421310721, 59649589127497217, 5704689200685129054721]

theorem factors_prime : ∀ q ∈ factors, Nat.Prime q := by
  simp only [factors, List.forall_mem_cons]
  refine ⟨?_, ?_, ?_, ?_, ?_, ?_, ?_, ?_, prime_2, prime_6, prime_9, by simp⟩ <;> norm_num

theorem mem_factors {p : Nat} (hp : p.Prime) (hd : p ∣ 2 ^ 256 - 1) : p ∈ factors := by
  rw [show 2 ^ 256 - 1 = factors.prod by decide +kernel] at hd
  obtain ⟨x, hx, hpx⟩ := (Prime.dvd_prod_iff hp.prime).1 hd
  rw [(Nat.prime_dvd_prime_iff_eq hp (factors_prime x hx)).1 hpx]
  exact hx

end Verif.Rand
