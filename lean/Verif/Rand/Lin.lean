import Verif.Rand.Model
import Mathlib.Logic.Function.Iterate
/-! The generator as a linear map, and polynomials in it: lemmas for C75. -/
namespace Verif.Rand

/-! ### Linearity -/

/-- Sum of states. -/
def add (a b : St) : St := ⟨a.s0 ^^^ b.s0, a.s1 ^^^ b.s1, a.s2 ^^^ b.s2, a.s3 ^^^ b.s3⟩

/-- The state of zeros only. -/
def zero : St := ⟨0, 0, 0, 0⟩

theorem St.ext' {a b : St} (h0 : a.s0 = b.s0) (h1 : a.s1 = b.s1) (h2 : a.s2 = b.s2) (h3 : a.s3 = b.s3) : a = b := by
  cases a; cases b; simp_all

theorem xor_self64 (a : BitVec 64) : a ^^^ a = 0 := by simp

theorem add_assoc (a b c : St) : add (add a b) c = add a (add b c) := by
  apply St.ext' <;> simp only [add, BitVec.xor_assoc]

theorem add_comm (a b : St) : add a b = add b a := by
  apply St.ext' <;> simp only [add, BitVec.xor_comm]

theorem add_left_comm (a b c : St) : add a (add b c) = add b (add a c) := by
  rw [← add_assoc, add_comm a b, add_assoc]

theorem add_zero (a : St) : add a zero = a := by
  apply St.ext' <;> simp [add, zero]

theorem zero_add (a : St) : add zero a = a := by
  apply St.ext' <;> simp [add, zero]

theorem add_self (a : St) : add a a = zero := by
  apply St.ext' <;> simp [add, zero]

theorem eq_of_add {a b : St} (h : add a b = zero) : a = b := by
  have : add (add a b) b = b := by rw [h, zero_add]
  rw [add_assoc, add_self, add_zero] at this
  exact this

theorem rotl_xor (a b : BitVec 64) (r : Nat) : rotl (a ^^^ b) r = rotl a r ^^^ rotl b r := by
  ext i hi
  simp only [rotl, BitVec.getElem_or, BitVec.getElem_xor, BitVec.getElem_shiftLeft, BitVec.getElem_ushiftRight]
  by_cases h : i < r
  · simp [h]
  · have e : 64 ≤ 64 - r + i := by omega
    simp [h, BitVec.getLsbD_of_ge, e]

theorem step_add (a b : St) : step (add a b) = add (step a) (step b) := by
  have h45 : ∀ a b : BitVec 64, rotl (a ^^^ b) 45 = rotl a 45 ^^^ rotl b 45 := fun a b => rotl_xor a b 45
  generalize hr : (fun a : BitVec 64 => rotl a 45) = r
  have hr' : ∀ a : BitVec 64, rotl a 45 = r a := fun a => by rw [← hr]
  have hx : ∀ a b, r (a ^^^ b) = r a ^^^ r b := fun a b => by rw [← hr', ← hr', ← hr', h45]
  generalize hs : (fun a : BitVec 64 => a <<< 17) = sh
  have hs' : ∀ a : BitVec 64, a <<< 17 = sh a := fun a => by rw [← hs]
  have hy : ∀ a b, sh (a ^^^ b) = sh a ^^^ sh b := fun a b => by rw [← hs', ← hs', ← hs', BitVec.shiftLeft_xor_distrib]
  simp only [step, add, hr', hs', hx, hy]
  congr 1 <;> ac_rfl

theorem step_zero : step zero = zero := by decide

theorem iter_add (n : Nat) (a b : St) : step^[n] (add a b) = add (step^[n] a) (step^[n] b) := by
  induction n with
  | zero => rfl
  | succ n ih => rw [Function.iterate_succ_apply', ih, step_add, Function.iterate_succ_apply', Function.iterate_succ_apply']

theorem iter_zero (n : Nat) : step^[n] zero = zero := by
  induction n with
  | zero => rfl
  | succ n ih => rw [Function.iterate_succ_apply', ih, step_zero]

/-! ### Polynomials -/

/-- The polynomial with the bits of `p` below `n` as coefficients, applied to the step. -/
def act : Nat → Nat → St → St
  | 0, _, _ => zero
  | n + 1, p, s => add (act n p s) (if p.testBit n then step^[n] s else zero)

theorem act_succ (n p : Nat) (s : St) : act (n + 1) p s = add (act n p s) (if p.testBit n then step^[n] s else zero) := rfl

theorem act_xor (n p r : Nat) (s : St) : act n (p ^^^ r) s = add (act n p s) (act n r s) := by
  induction n with
  | zero => exact (add_zero _).symm
  | succ n ih =>
    simp only [act, ih, Nat.testBit_xor]
    cases hp : p.testBit n <;> cases hr : r.testBit n <;> simp [add_zero, add_assoc]
    · rw [add_comm (step^[n] s)]
    · rw [add_left_comm (step^[n] s), add_self, add_zero]

theorem act_add (n p : Nat) (s t : St) : act n p (add s t) = add (act n p s) (act n p t) := by
  induction n with
  | zero => exact (add_zero _).symm
  | succ n ih =>
    simp only [act, ih, iter_add]
    cases hp : p.testBit n <;> simp [add_zero, add_assoc]
    rw [add_left_comm (step^[n] s)]

theorem act_zero (n p : Nat) : act n p zero = zero := by
  induction n with
  | zero => rfl
  | succ n ih => simp only [act, ih, iter_zero]; split <;> exact add_zero _

theorem act_step (n p : Nat) (s : St) : act n p (step s) = step (act n p s) := by
  induction n with
  | zero => exact step_zero.symm
  | succ n ih =>
    simp only [act, ih, step_add]
    cases hp : p.testBit n <;> simp [step_zero]
    rw [← Function.iterate_succ_apply, Function.iterate_succ_apply']

theorem act_iter (n p k : Nat) (s : St) : act n p (step^[k] s) = step^[k] (act n p s) := by
  induction k with
  | zero => rfl
  | succ k ih => rw [Function.iterate_succ_apply', act_step, ih, Function.iterate_succ_apply']

theorem act_shift (n p : Nat) (s : St) : act (n + 1) (p <<< 1) s = act n p (step s) := by
  induction n with
  | zero => simp only [act, Nat.testBit_shiftLeft]; simp [add_zero]
  | succ n ih =>
    rw [act, ih, act]
    simp only [Nat.testBit_shiftLeft, Nat.add_sub_cancel, ge_iff_le, Nat.le_add_left, decide_true, Bool.true_and]
    rw [← Function.iterate_succ_apply]

theorem act_high {n p : Nat} (h : p < 2 ^ n) (s : St) : act (n + 1) p s = act n p s := by
  rw [act, Nat.testBit_lt_two_pow h]
  simp [add_zero]

theorem act_zero_poly (n : Nat) (s : St) : act n 0 s = zero := by
  induction n with
  | zero => rfl
  | succ n ih => simp [act, ih, add_zero]

theorem act_one (n : Nat) (s : St) : act (n + 1) 1 s = s := by
  induction n with
  | zero => simp [act, zero_add]
  | succ n ih => rw [act_high (by rw [Nat.pow_succ]; have := Nat.two_pow_pos n; omega), ih]

/-! ### Arithmetic with polynomials -/

/-- Evaluate the argument first. -/
def force {α : Type} (n : Nat) (f : Nat → α) : α := Nat.rec (f 0) (fun k _ => f (Nat.succ k)) n

theorem force_eq {α : Type} (n : Nat) (f : Nat → α) : force n f = f n := by cases n <;> rfl

/-- The characteristic polynomial of the step. -/
def charPoly : Nat := 0x10003c03c3f3ecb1904b4edcf26259f850280002bcefd1a5e9d116f2bb0f0f001

/-- Multiply by the indeterminate. -/
def mulx (p : Nat) : Nat :=
  Nat.xor (Nat.shiftLeft p 1) (Nat.mul (Nat.shiftRight p 255) 0x10003c03c3f3ecb1904b4edcf26259f850280002bcefd1a5e9d116f2bb0f0f001)

/-- Multiply `p`, whose lowest `n` coefficients are left, by `r`. -/
def mulLoop (p r : Nat) (n : Nat) : Nat → Nat :=
  Nat.rec (motive := fun _ => Nat → Nat) (fun acc => acc)
    (fun k ih acc => force acc fun acc => ih (Nat.xor (mulx acc) (Nat.mul (Nat.land (Nat.shiftRight p k) 1) r))) n

/-- Product. -/
def mulmod (p r : Nat) : Nat := mulLoop p r 256 0

/-- Power of the indeterminate, the lowest `n` bits of the exponent `e` being left. -/
def powLoop (e : Nat) (n : Nat) : Nat → Nat :=
  Nat.rec (motive := fun _ => Nat → Nat) (fun acc => acc)
    (fun k ih acc => force acc fun acc => force (mulmod acc acc) fun t => ih (Nat.rec t (fun _ _ => mulx t) (Nat.land (Nat.shiftRight e k) 1))) n

theorem bit_eq (p k : Nat) : Nat.land (Nat.shiftRight p k) 1 = if p.testBit k then 1 else 0 := by
  have h : Nat.land (Nat.shiftRight p k) 1 = (p >>> k) &&& 1 := rfl
  rw [h, Nat.and_one_is_mod, Nat.testBit_eq_decide_div_mod_eq, Nat.shiftRight_eq_div_pow]
  have := Nat.mod_two_eq_zero_or_one (p / 2 ^ k)
  rcases this with h | h <;> simp [h]

theorem mulx_eq {p : Nat} (h : p < 2 ^ 256) : mulx p = (p <<< 1) ^^^ (if p.testBit 255 then charPoly else 0) := by
  have h2 : Nat.shiftRight p 255 = if p.testBit 255 then 1 else 0 := by
    have h1 : Nat.shiftRight p 255 = p >>> 255 := rfl
    rw [h1, Nat.testBit_eq_decide_div_mod_eq, Nat.shiftRight_eq_div_pow]
    have : p / 2 ^ 255 < 2 := by
      rw [Nat.div_lt_iff_lt_mul (by decide)]
      exact h
    rcases (by omega : p / 2 ^ 255 = 0 ∨ p / 2 ^ 255 = 1) with h | h <;> simp [h]
  unfold mulx
  rw [h2]
  have hm : ∀ b : Nat, Nat.mul b 0x10003c03c3f3ecb1904b4edcf26259f850280002bcefd1a5e9d116f2bb0f0f001 = b * charPoly := fun _ => rfl
  rw [hm]
  show (p <<< 1) ^^^ _ = _
  congr 1
  split <;> simp

theorem mulx_lt {p : Nat} (h : p < 2 ^ 256) : mulx p < 2 ^ 256 := by
  rw [mulx_eq h]
  apply Nat.lt_pow_two_of_testBit
  intro i hi
  rw [Nat.testBit_xor, Nat.testBit_shiftLeft]
  have hq : charPoly < 2 ^ 257 := by decide
  by_cases h1 : i = 256
  · subst h1
    have hb : charPoly.testBit 256 = true := by decide +kernel
    cases h2 : p.testBit 255 <;> simp [h2, hb]
  · have h3 : p.testBit (i - 1) = false := Nat.testBit_lt_two_pow (Nat.lt_of_lt_of_le h (Nat.pow_le_pow_right (by decide) (by omega)))
    have h4 : charPoly.testBit i = false := Nat.testBit_lt_two_pow (Nat.lt_of_lt_of_le hq (Nat.pow_le_pow_right (by decide) (by omega)))
    rw [h3]
    split <;> simp [h4]

theorem xor_lt {a b : Nat} (ha : a < 2 ^ 256) (hb : b < 2 ^ 256) : a ^^^ b < 2 ^ 256 := Nat.xor_lt_two_pow ha hb

section
variable (hQ : ∀ s, act 257 charPoly s = zero)
include hQ

theorem act_mulx {p : Nat} (h : p < 2 ^ 256) (s : St) : act 256 (mulx p) s = step (act 256 p s) := by
  rw [← act_high (mulx_lt h), mulx_eq h, act_xor, act_shift, act_step]
  split
  · rw [hQ, add_zero]
  · rw [act_zero_poly, add_zero]

theorem mulLoop_spec (p : Nat) {r : Nat} (hr : r < 2 ^ 256) (n : Nat) : ∀ acc, acc < 2 ^ 256 → mulLoop p r n acc < 2 ^ 256 ∧
    ∀ s, act 256 (mulLoop p r n acc) s = add (step^[n] (act 256 acc s)) (act n p (act 256 r s)) := by
  induction n with
  | zero => intro acc h; exact ⟨h, fun s => (add_zero _).symm⟩
  | succ n ih =>
    intro acc h
    have e : mulLoop p r (n + 1) acc = mulLoop p r n (mulx acc ^^^ (if p.testBit n then r else 0)) := by
      have : mulLoop p r (n + 1) acc = force acc fun acc => mulLoop p r n (Nat.xor (mulx acc) (Nat.mul (Nat.land (Nat.shiftRight p n) 1) r)) := rfl
      rw [this, force_eq, bit_eq]
      congr 1
      show mulx acc ^^^ (_ * r) = _
      congr 1
      split <;> simp
    have hlt : mulx acc ^^^ (if p.testBit n then r else 0) < 2 ^ 256 := xor_lt (mulx_lt h) (by
      split
      · exact hr
      · decide)
    rw [e]
    refine ⟨(ih _ hlt).1, fun s => ?_⟩
    rw [(ih _ hlt).2 s, act_xor, act_mulx hQ h, iter_add, act_succ n, ← Function.iterate_succ_apply]
    cases p.testBit n
    · simp only [Bool.false_eq_true, if_false, act_zero_poly, iter_zero, add_zero]
    · simp only [if_true]
      rw [add_assoc, add_comm (step^[n] _) (act n p _)]

theorem mulmod_spec (p : Nat) {r : Nat} (hr : r < 2 ^ 256) : mulmod p r < 2 ^ 256 ∧ ∀ s, act 256 (mulmod p r) s = act 256 p (act 256 r s) := by
  have h := mulLoop_spec hQ p hr 256 0 (by decide)
  refine ⟨h.1, fun s => ?_⟩
  rw [mulmod, h.2, act_zero_poly, iter_zero, zero_add]

theorem powLoop_spec (e n : Nat) : ∀ acc a, acc < 2 ^ 256 → (∀ s, act 256 acc s = step^[a] s) → powLoop e n acc < 2 ^ 256 ∧
    ∀ s, act 256 (powLoop e n acc) s = step^[a * 2 ^ n + e % 2 ^ n] s := by
  induction n with
  | zero => intro acc a h ha; exact ⟨h, fun s => by rw [Nat.pow_zero, Nat.mul_one, Nat.mod_one]; exact ha s⟩
  | succ n ih =>
    intro acc a h ha
    have e1 : powLoop e (n + 1) acc = powLoop e n (if e.testBit n then mulx (mulmod acc acc) else mulmod acc acc) := by
      have : powLoop e (n + 1) acc = force acc fun acc => force (mulmod acc acc) fun t =>
          powLoop e n (Nat.rec t (fun _ _ => mulx t) (Nat.land (Nat.shiftRight e n) 1)) := rfl
      rw [this, force_eq, force_eq, bit_eq]
      split <;> rfl
    obtain ⟨hm, hms⟩ := mulmod_spec hQ acc h
    have hsq : ∀ s, act 256 (mulmod acc acc) s = step^[a + a] s := by
      intro s; rw [hms, ha, ha, ← Function.iterate_add_apply]
    rw [e1]
    have hmod : e % 2 ^ (n + 1) = (if e.testBit n then 2 ^ n else 0) + e % 2 ^ n := by
      rw [Nat.mod_pow_succ, Nat.testBit_eq_decide_div_mod_eq, Nat.add_comm]
      rcases Nat.mod_two_eq_zero_or_one (e / 2 ^ n) with h | h <;> simp [h]
    cases hb : e.testBit n
    · simp only [Bool.false_eq_true, if_false]
      obtain ⟨h1, h2⟩ := ih _ (a + a) hm hsq
      refine ⟨h1, fun s => ?_⟩
      rw [h2, hmod, hb]
      congr 1
      simp only [Bool.false_eq_true, if_false, if_true, Nat.pow_succ, Nat.add_mul, Nat.mul_add, ← Nat.mul_assoc]; omega
    · simp only [if_true]
      obtain ⟨h1, h2⟩ := ih _ (a + a + 1) (mulx_lt hm) (fun s => by rw [act_mulx hQ hm, hsq, Function.iterate_succ_apply'])
      refine ⟨h1, fun s => ?_⟩
      rw [h2, hmod, hb]
      congr 1
      simp only [Bool.false_eq_true, if_false, if_true, Nat.pow_succ, Nat.add_mul, Nat.mul_add, ← Nat.mul_assoc]; omega
end

/-- Power of the indeterminate. -/
def pow (e : Nat) : Nat := powLoop e 256 1

theorem pow_spec (hQ : ∀ s, act 257 charPoly s = zero) {e : Nat} (he : e < 2 ^ 256) : pow e < 2 ^ 256 ∧ ∀ s, act 256 (pow e) s = step^[e] s := by
  obtain ⟨h1, h2⟩ := powLoop_spec hQ e 256 1 0 (by decide) (fun s => act_one 255 s)
  refine ⟨h1, fun s => ?_⟩
  rw [pow, h2, Nat.mod_eq_of_lt he]
  simp

end Verif.Rand
