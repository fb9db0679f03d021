import Verif.Rand.Calc
import Verif.Rand.Primes
import Mathlib.GroupTheory.OrderOfElement
import Mathlib.Algebra.Group.End
import Mathlib.Data.Fintype.EquivFin
import Mathlib.Data.Fintype.Pigeonhole
/-! The order of the step: lemmas for C75. -/
namespace Verif.Rand

/-- The length of the period. -/
def period : Nat := 2 ^ 256 - 1

theorem period_lt : period < 2 ^ 256 := by decide +kernel

theorem period_pos : 0 < period := by decide +kernel

/-- Whether the power for one factor moves a state. -/
def chkFactor (q : Nat) : Bool := force (pow (Nat.div period q)) fun p => Bool.not (nloop 256 (Nat.xor p 1) 1 0 0 0 0 0 0 0)

theorem pow_period' : Nat.beq (pow period) 1 = true := by decide +kernel

theorem pow_period : pow period = 1 := by
  have := pow_period'
  generalize pow period = x at *
  exact Nat.eq_of_beq_eq_true this

theorem chk_0 : chkFactor 3 = true := by decide +kernel

theorem chk_1 : chkFactor 5 = true := by decide +kernel

theorem chk_2 : chkFactor 17 = true := by decide +kernel

theorem chk_3 : chkFactor 257 = true := by decide +kernel

theorem chk_4 : chkFactor 641 = true := by decide +kernel

theorem chk_5 : chkFactor 65537 = true := by decide +kernel

theorem chk_6 : chkFactor 274177 = true := by decide +kernel

theorem chk_7 : chkFactor 6700417 = true := by decide +kernel

theorem chk_8 : chkFactor 67280421310721 = true := by decide +kernel

theorem chk_9 : chkFactor 59649589127497217 = true := by decide +kernel

theorem chk_10 : chkFactor 5704689200685129054721 = true := by decide +kernel

theorem chk_factors : ∀ q ∈ factors, chkFactor q = true := by
  simp only [factors, List.forall_mem_cons]
  exact ⟨chk_0, chk_1, chk_2, chk_3, chk_4, chk_5, chk_6, chk_7, chk_8, chk_9, chk_10, by simp⟩

theorem iter_period (s : St) : step^[period] s = s := by
  have h := (pow_spec charPoly_zero period_lt).2 s
  rw [pow_period] at h
  rw [← h]
  exact act_one 255 s

theorem iter_factor {q : Nat} (hq : q ∈ factors) : step^[period / q] ⟨1, 0, 0, 0⟩ ≠ ⟨1, 0, 0, 0⟩ := by
  have h := chk_factors q hq
  rw [chkFactor, force_eq] at h
  have h' : nloop 256 (pow (period / q) ^^^ 1) 1 0 0 0 0 0 0 0 = false := by
    have : (!nloop 256 (pow (period / q) ^^^ 1) 1 0 0 0 0 0 0 0) = true := h
    simpa using this
  have h2 := nloop_act 256 (pow (period / q) ^^^ 1) ⟨1, 0, 0, 0⟩
  have h3 : act 256 (pow (period / q) ^^^ 1) ⟨1, 0, 0, 0⟩ ≠ zero := of_decide_eq_false (h2.symm.trans h')
  intro he
  apply h3
  rw [act_xor, (pow_spec charPoly_zero (Nat.lt_of_le_of_lt (Nat.div_le_self _ _) period_lt)).2, he, act_one 255]
  exact add_self _

/-- The step in the monoid of maps. -/
def stepEnd : Function.End St := step

theorem stepEnd_pow (n : Nat) : stepEnd ^ n = (step^[n] : St → St) := by
  induction n with
  | zero => rfl
  | succ n ih => rw [pow_succ, ih]; rfl

theorem order_step : orderOf stepEnd = period := by
  apply orderOf_eq_of_pow_and_pow_div_prime period_pos
  · rw [stepEnd_pow]
    funext s
    exact iter_period s
  · intro p hp hd h
    rw [stepEnd_pow] at h
    exact iter_factor (mem_factors hp hd) (congrFun h _)

theorem step_injective : Function.Injective step := by
  intro a b h
  have : step^[period] a = step^[period] b := by
    rw [show period = (period - 1) + 1 by have := period_pos; omega, Function.iterate_succ_apply, Function.iterate_succ_apply, h]
  rwa [iter_period, iter_period] at this

theorem iter_injective (n : Nat) : Function.Injective step^[n] := step_injective.iterate n

theorem iter_eq_zero {n : Nat} {s : St} : step^[n] s = zero ↔ s = zero := by
  constructor
  · intro h
    apply iter_injective n
    rw [h, iter_zero]
  · rintro rfl; exact iter_zero n

theorem iter_fun_inj {n m : Nat} (hn : n < period) (hm : m < period) (h : (step^[n] : St → St) = step^[m]) : n = m := by
  have := pow_injOn_Iio_orderOf (x := stepEnd)
  apply this
  · rw [order_step]; exact hn
  · rw [order_step]; exact hm
  · show stepEnd ^ n = stepEnd ^ m
    rw [stepEnd_pow, stepEnd_pow, h]

theorem pow_ne_zero {n : Nat} (hn : n < period) : pow n ≠ 0 := by
  intro h
  have := (pow_spec charPoly_zero (Nat.lt_trans hn period_lt)).2 ⟨1, 0, 0, 0⟩
  rw [h, act_zero_poly] at this
  have := iter_eq_zero.1 this.symm
  revert this
  decide

/-- Every polynomial except zero acts as some number of steps. -/
theorem act_is_iter {p : Nat} (h0 : p ≠ 0) (hp : p < 2 ^ 256) : ∃ n, n < period ∧ ∀ s, act 256 p s = step^[n] s := by
  have hpd : period = 2 ^ 256 - 1 := rfl
  have hb : ∀ n : Fin period, pow n.val - 1 < period := by
    intro n
    have := (pow_spec charPoly_zero (Nat.lt_trans n.isLt period_lt)).1
    have := pow_ne_zero n.isLt
    omega
  let f : Fin period → Fin period := fun n => ⟨pow n.val - 1, hb n⟩
  have hf : Function.Injective f := by
    intro a b h
    have h1 : pow a.val - 1 = pow b.val - 1 := congrArg Fin.val h
    have := pow_ne_zero a.isLt
    have := pow_ne_zero b.isLt
    have h2 : pow a.val = pow b.val := by omega
    apply Fin.ext
    apply iter_fun_inj a.isLt b.isLt
    funext s
    rw [← (pow_spec charPoly_zero (Nat.lt_trans a.isLt period_lt)).2, h2, (pow_spec charPoly_zero (Nat.lt_trans b.isLt period_lt)).2]
  have hs := Finite.injective_iff_surjective.1 hf
  obtain ⟨n, hn⟩ := hs ⟨p - 1, by omega⟩
  have h1 : pow n.val - 1 = p - 1 := congrArg Fin.val hn
  have := pow_ne_zero n.isLt
  have h2 : pow n.val = p := by omega
  exact ⟨n.val, n.isLt, fun s => by rw [← h2]; exact (pow_spec charPoly_zero (Nat.lt_trans n.isLt period_lt)).2 s⟩

theorem no_short {s : St} (hs : s ≠ zero) {k : Nat} (h0 : 0 < k) (hk : k < period) : step^[k] s ≠ s := by
  intro h
  have hps := pow_spec charPoly_zero (Nat.lt_trans hk period_lt)
  have hne : pow k ^^^ 1 ≠ 0 := by
    intro h1
    have h2 : pow k = 1 := by
      have : (pow k ^^^ 1) ^^^ 1 = 1 := by rw [h1, Nat.zero_xor]
      rwa [Nat.xor_assoc, Nat.xor_self, Nat.xor_zero] at this
    have : k = 0 := by
      apply iter_fun_inj hk period_pos
      funext t
      rw [← hps.2, h2, act_one 255]; rfl
    omega
  obtain ⟨n, _, hn⟩ := act_is_iter hne (xor_lt hps.1 (by decide))
  have := hn s
  rw [act_xor, hps.2, h, act_one 255, add_self] at this
  exact hs (iter_eq_zero.1 this.symm)

theorem iter_mod (n : Nat) (s : St) : step^[n] s = step^[n % period] s := by
  have h : ∀ m s, step^[period * m] s = s := by
    intro m
    induction m with
    | zero => intro s; rfl
    | succ m ih => intro s; rw [Nat.mul_succ, Function.iterate_add_apply, iter_period, ih]
  conv => lhs; rw [← Nat.mod_add_div n period, Function.iterate_add_apply, h]

theorem iter_eq_self {s : St} (hs : s ≠ zero) (n : Nat) : step^[n] s = s ↔ period ∣ n := by
  rw [iter_mod]
  constructor
  · intro h
    rcases Nat.eq_zero_or_pos (n % period) with h0 | h0
    · exact Nat.dvd_of_mod_eq_zero h0
    · exact absurd h (no_short hs h0 (Nat.mod_lt _ period_pos))
  · intro h
    rw [Nat.mod_eq_zero_of_dvd h]; rfl

theorem iter_inj {s : St} (hs : s ≠ zero) {n m : Nat} (hn : n < period) (hm : m < period) (h : step^[n] s = step^[m] s) : n = m := by
  rcases Nat.lt_trichotomy n m with hlt | he | hlt
  · rw [show m = n + (m - n) by omega, Function.iterate_add_apply] at h
    have := iter_injective n h
    exact absurd this.symm (no_short hs (by omega) (by omega))
  · exact he
  · rw [show n = m + (n - m) by omega, Function.iterate_add_apply] at h
    have := iter_injective m h
    exact absurd this (no_short hs (by omega) (by omega))

/-- A state as a number. -/
def code (s : St) : Nat := s.s0.toNat + 2 ^ 64 * (s.s1.toNat + 2 ^ 64 * (s.s2.toNat + 2 ^ 64 * s.s3.toNat))

theorem code_lt (s : St) : code s < 2 ^ 256 := by
  have h0 := s.s0.isLt; have h1 := s.s1.isLt; have h2 := s.s2.isLt; have h3 := s.s3.isLt
  unfold code
  omega

theorem code_inj {s t : St} (h : code s = code t) : s = t := by
  have h0 := s.s0.isLt; have h1 := s.s1.isLt; have h2 := s.s2.isLt; have h3 := s.s3.isLt
  have g0 := t.s0.isLt; have g1 := t.s1.isLt; have g2 := t.s2.isLt; have g3 := t.s3.isLt
  unfold code at h
  apply St.ext' <;> apply BitVec.eq_of_toNat_eq <;> omega

theorem code_ne_zero {s : St} (h : s ≠ zero) : code s ≠ 0 := fun h0 => h (code_inj h0)

theorem reach {s t : St} (hs : s ≠ zero) (ht : t ≠ zero) : ∃ n, n < period ∧ step^[n] s = t := by
  have hpd : period = 2 ^ 256 - 1 := rfl
  have hb : ∀ u : St, u ≠ zero → code u - 1 < period := by
    intro u hu
    have := code_lt u
    have := code_ne_zero hu
    omega
  let f : Fin period → Fin period := fun n => ⟨code (step^[n.val] s) - 1, hb _ (fun h => hs (iter_eq_zero.1 h))⟩
  have hf : Function.Injective f := by
    intro a b h
    have h1 : code (step^[a.val] s) - 1 = code (step^[b.val] s) - 1 := congrArg Fin.val h
    have ha : code (step^[a.val] s) ≠ 0 := code_ne_zero fun h => hs (iter_eq_zero.1 h)
    have hb : code (step^[b.val] s) ≠ 0 := code_ne_zero fun h => hs (iter_eq_zero.1 h)
    exact Fin.ext (iter_inj hs a.isLt b.isLt (code_inj (by omega)))
  obtain ⟨n, hn⟩ := Finite.injective_iff_surjective.1 hf ⟨code t - 1, hb t ht⟩
  have h1 : code (step^[n.val] s) - 1 = code t - 1 := congrArg Fin.val hn
  have ha : code (step^[n.val] s) ≠ 0 := code_ne_zero fun h => hs (iter_eq_zero.1 h)
  have := code_ne_zero ht
  exact ⟨n.val, n.isLt, code_inj (by omega)⟩

/-! ### Jumps -/

theorem act_mod (n p : Nat) (s : St) : ∀ k, n ≤ k → act n (p % 2 ^ k) s = act n p s := by
  induction n with
  | zero => intro k _; rfl
  | succ n ih =>
    intro k hk
    rw [act_succ, act_succ, ih k (by omega), Nat.testBit_mod_two_pow]
    simp [show n < k by omega]

theorem act_append (n m p : Nat) (s : St) : act (n + m) p s = add (act n p s) (act m (p >>> n) (step^[n] s)) := by
  induction m with
  | zero => exact (add_zero _).symm
  | succ m ih =>
    rw [← Nat.add_assoc, act_succ, ih, act_succ m, add_assoc, Nat.testBit_shiftRight, ← Function.iterate_add_apply, Nat.add_comm n m]

theorem jumpBits_spec (w : BitVec 64) : ∀ n b acc st, jumpBits w n b acc st = (add acc (act' n (w.toNat >>> b) st), step^[n] st) := by
  intro n
  induction n with
  | zero => intro b acc st; simp [jumpBits, act', add_zero]
  | succ n ih =>
    intro b acc st
    have hb : (w &&& (1#64 <<< b) ≠ 0) ↔ w.toNat.testBit b = true := by
      by_cases hlt : b < 64
      · constructor
        · intro h
          by_contra hf
          apply h
          ext i hi
          rw [BitVec.getElem_and, BitVec.getElem_shiftLeft, BitVec.getElem_one]
          by_cases h1 : i < b
          · simp [h1]
          · by_cases h2 : i = b
            · subst h2
              have : w[i] = false := by
                rw [← BitVec.getLsbD_eq_getElem, BitVec.getLsbD]; simpa using hf
              simp [this]
            · have : i - b ≠ 0 := by omega
              simp [this]
        · intro h he
          have h1 : (w &&& 1#64 <<< b)[b] = false := by rw [he]; simp
          rw [BitVec.getElem_and, BitVec.getElem_shiftLeft, BitVec.getElem_one] at h1
          have : w[b] = true := by rw [← BitVec.getLsbD_eq_getElem, BitVec.getLsbD]; exact h
          simp [this] at h1
      · have h1 : (1#64 <<< b) = 0 := BitVec.shiftLeft_eq_zero (by omega)
        have h2 : w.toNat.testBit b = false := Nat.testBit_lt_two_pow (Nat.lt_of_lt_of_le w.isLt (Nat.pow_le_pow_right (by decide) (by omega)))
        rw [h1, h2]; simp
    have hs : w.toNat >>> (b + 1) = (w.toNat >>> b) >>> 1 := Nat.shiftRight_add _ _ _
    simp only [jumpBits, rand]
    rw [ih, act', ← add_assoc, Function.iterate_succ_apply, Nat.testBit_shiftRight, hs]
    congr 3
    rw [Nat.add_zero]
    by_cases h : w &&& (1#64 <<< b) ≠ 0
    · rw [if_pos h, if_pos (hb.1 h)]; rfl
    · rw [if_neg h, if_neg (fun h2 => h (hb.2 h2)), add_zero]

/-- The polynomial in the table. -/
def jumpPoly : Nat := 0x39abdc4529b1661ca9582618e03fc9aad5a61266f0c9392c180ec6d33cfd0aba

theorem jump_act (st : St) : jump st = act 256 jumpPoly st := by
  have hw : ∀ (w : BitVec 64) (k : Nat) (s : St), w.toNat = (jumpPoly >>> k) % 2 ^ 64 → act' 64 (w.toNat >>> 0) s = act 64 (jumpPoly >>> k) s := by
    intro w k s h
    rw [act'_eq, Nat.shiftRight_zero, h, act_mod _ _ _ _ (Nat.le_refl _)]
  simp only [jump, jumpTable, jumpWords, jumpBits_spec]
  rw [hw _ 0 _ (by decide), hw _ 64 _ (by decide), hw _ 128 _ (by decide), hw _ 192 _ (by decide)]
  rw [show 256 = 64 + (64 + (64 + 64)) from rfl, act_append, act_append, act_append, show (⟨0, 0, 0, 0⟩ : St) = zero from rfl, zero_add,
    add_assoc, add_assoc]
  simp only [← Nat.shiftRight_add, Nat.shiftRight_zero]

theorem pow_jump' : Nat.beq (pow (2 ^ 128)) jumpPoly = true := by decide +kernel

theorem pow_jump : pow (2 ^ 128) = jumpPoly := by
  have := pow_jump'
  generalize pow (2 ^ 128) = x at *
  exact Nat.eq_of_beq_eq_true this

theorem jump_iter (st : St) : jump st = step^[2 ^ 128] st := by
  have h := (pow_spec charPoly_zero (show 2 ^ 128 < 2 ^ 256 by decide)).2 st
  rw [jump_act, ← h, pow_jump]

end Verif.Rand
