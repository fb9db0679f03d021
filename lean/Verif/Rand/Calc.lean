import Verif.Rand.Lin
/-! The characteristic polynomial: calculations for C75. -/
namespace Verif.Rand

/-- Sum the states selected by the bits of `q`, for `n` steps, and tell whether the sum is zero. -/
def nloop (n : Nat) : Nat → Nat → Nat → Nat → Nat → Nat → Nat → Nat → Nat → Bool :=
  Nat.rec (motive := fun _ => Nat → Nat → Nat → Nat → Nat → Nat → Nat → Nat → Nat → Bool)
    (fun _ _ _ _ _ A B C D => Nat.beq (Nat.lor (Nat.lor A B) (Nat.lor C D)) 0)
    (fun _ ih q a b c d A B C D =>
      force (Nat.land q 1) fun k =>
      force (Nat.xor A (Nat.mul k a)) fun A => force (Nat.xor B (Nat.mul k b)) fun B =>
      force (Nat.xor C (Nat.mul k c)) fun C => force (Nat.xor D (Nat.mul k d)) fun D =>
      force (Nat.xor c a) fun c => force (Nat.xor d b) fun d =>
      force (Nat.mod (Nat.shiftLeft b 17) 18446744073709551616) fun t =>
      force (Nat.xor b c) fun b => force (Nat.xor a d) fun a => force (Nat.xor c t) fun c =>
      force (Nat.lor (Nat.mod (Nat.shiftLeft d 45) 18446744073709551616) (Nat.shiftRight d 19)) fun d =>
      force (Nat.shiftRight q 1) fun q => ih q a b c d A B C D) n

/-- The same for states. -/
def act' : Nat → Nat → St → St
  | 0, _, _ => zero
  | n + 1, q, s => add (if q.testBit 0 then s else zero) (act' n (q >>> 1) (step s))

theorem act'_eq (n : Nat) : ∀ q s, act' n q s = act n q s := by
  suffices h : ∀ n q s, act (n + 1) q s = add (if q.testBit 0 then s else zero) (act n (q >>> 1) (step s)) by
    induction n with
    | zero => intro q s; rfl
    | succ n ih => intro q s; rw [act', ih, h]
  intro n
  induction n with
  | zero => intro q s; simp only [act, zero_add, add_zero]; rfl
  | succ n ih =>
    intro q s
    rw [act_succ, ih, act_succ, add_assoc, ← Function.iterate_succ_apply]
    congr 3
    rw [Nat.testBit_shiftRight, Nat.add_comm 1 n]

theorem nloop_succ (n q a b c d A B C D : Nat) : nloop (n + 1) q a b c d A B C D =
    nloop n (q >>> 1) (a ^^^ (d ^^^ b)) (b ^^^ (c ^^^ a)) ((c ^^^ a) ^^^ (b <<< 17 % 18446744073709551616))
      (((d ^^^ b) <<< 45 % 18446744073709551616) ||| (d ^^^ b) >>> 19)
      (A ^^^ (if q.testBit 0 then a else 0)) (B ^^^ (if q.testBit 0 then b else 0))
      (C ^^^ (if q.testBit 0 then c else 0)) (D ^^^ (if q.testBit 0 then d else 0)) := by
  have hb : Nat.land q 1 = if q.testBit 0 then 1 else 0 := by
    have := bit_eq q 0
    exact this
  have h : ∀ x, Nat.mul (Nat.land q 1) x = if q.testBit 0 then x else 0 := by
    intro x; rw [hb]; show _ * x = _; split <;> simp
  simp only [← h]
  refine Eq.trans (show _ = (
      force (Nat.land q 1) fun k =>
      force (Nat.xor A (Nat.mul k a)) fun A => force (Nat.xor B (Nat.mul k b)) fun B =>
      force (Nat.xor C (Nat.mul k c)) fun C => force (Nat.xor D (Nat.mul k d)) fun D =>
      force (Nat.xor c a) fun c => force (Nat.xor d b) fun d =>
      force (Nat.mod (Nat.shiftLeft b 17) 18446744073709551616) fun t =>
      force (Nat.xor b c) fun b => force (Nat.xor a d) fun a => force (Nat.xor c t) fun c =>
      force (Nat.lor (Nat.mod (Nat.shiftLeft d 45) 18446744073709551616) (Nat.shiftRight d 19)) fun d =>
      force (Nat.shiftRight q 1) fun q => nloop n q a b c d A B C D) from rfl) ?_
  simp only [force_eq]
  rfl

theorem toNat_if (p : Bool) (a : BitVec 64) : (if p then a else 0).toNat = if p then a.toNat else 0 := by cases p <;> rfl

theorem nloop_spec (n : Nat) : ∀ q (s acc : St), nloop n q s.s0.toNat s.s1.toNat s.s2.toNat s.s3.toNat
    acc.s0.toNat acc.s1.toNat acc.s2.toNat acc.s3.toNat = decide (add acc (act' n q s) = zero) := by
  induction n with
  | zero =>
    intro q s acc
    show Nat.beq _ 0 = _
    rw [act', add_zero, Bool.eq_iff_iff, decide_eq_true_iff, Nat.beq_eq]
    constructor
    · intro h
      have h' : (acc.s0.toNat ||| acc.s1.toNat) ||| (acc.s2.toNat ||| acc.s3.toNat) = 0 := h
      simp only [Nat.or_eq_zero_iff] at h'
      apply St.ext' <;> apply BitVec.eq_of_toNat_eq
      · exact h'.1.1
      · exact h'.1.2
      · exact h'.2.1
      · exact h'.2.2
    · rintro rfl; rfl
  | succ n ih =>
    intro q s acc
    rw [nloop_succ, act', ← add_assoc, ← ih]
    have e : ∀ (p : Bool) (a b : BitVec 64), a.toNat ^^^ (if p then b.toNat else 0) = (a ^^^ (if p then b else 0)).toNat := by
      intro p a b; rw [BitVec.toNat_xor, toNat_if]
    have e1 : (step s).s0.toNat = s.s0.toNat ^^^ (s.s3.toNat ^^^ s.s1.toNat) := by simp [step, BitVec.toNat_xor]
    have e2 : (step s).s1.toNat = s.s1.toNat ^^^ (s.s2.toNat ^^^ s.s0.toNat) := by simp [step, BitVec.toNat_xor]
    have e3 : (step s).s2.toNat = (s.s2.toNat ^^^ s.s0.toNat) ^^^ (s.s1.toNat <<< 17 % 18446744073709551616) := by
      simp only [step, BitVec.toNat_xor, BitVec.toNat_shiftLeft]
    have e4 : (step s).s3.toNat = ((s.s3.toNat ^^^ s.s1.toNat) <<< 45 % 18446744073709551616) ||| (s.s3.toNat ^^^ s.s1.toNat) >>> 19 := by
      simp only [step, rotl, BitVec.toNat_or, BitVec.toNat_xor, BitVec.toNat_shiftLeft, BitVec.toNat_ushiftRight]
    rw [e1, e2, e3, e4]
    have f : ∀ (p : Bool) (a b : St), (add a (if p then b else zero)).s0.toNat = a.s0.toNat ^^^ (if p then b.s0.toNat else 0) ∧
        (add a (if p then b else zero)).s1.toNat = a.s1.toNat ^^^ (if p then b.s1.toNat else 0) ∧
        (add a (if p then b else zero)).s2.toNat = a.s2.toNat ^^^ (if p then b.s2.toNat else 0) ∧
        (add a (if p then b else zero)).s3.toNat = a.s3.toNat ^^^ (if p then b.s3.toNat else 0) := by
      intro p a b
      cases p <;> simp [add, zero, BitVec.toNat_xor]
    obtain ⟨f0, f1, f2, f3⟩ := f (q.testBit 0) acc s
    rw [f0, f1, f2, f3]

/-- Whether the polynomial `q` is zero on the state. -/
theorem nloop_act (n q : Nat) (s : St) : nloop n q s.s0.toNat s.s1.toNat s.s2.toNat s.s3.toNat 0 0 0 0 = decide (act n q s = zero) := by
  have := nloop_spec n q s zero
  rw [zero_add, act'_eq] at this
  exact this

/-- The calculation for one vector of the basis. -/
def chk (i : Nat) : Bool :=
  force (Nat.pow 2 i) fun w =>
  (nloop 257 charPoly w 0 0 0 0 0 0 0).and ((nloop 257 charPoly 0 w 0 0 0 0 0 0).and
    ((nloop 257 charPoly 0 0 w 0 0 0 0 0).and (nloop 257 charPoly 0 0 0 w 0 0 0 0)))

/-- The calculation for all. -/
def chkAll (n : Nat) : Bool := Nat.rec true (fun k ih => (chk k).and ih) n

theorem chkAll_spec {n : Nat} (h : chkAll n = true) : ∀ i, i < n → chk i = true := by
  induction n with
  | zero => intro i hi; omega
  | succ n ih =>
    have h' : ((chk n) && chkAll n) = true := h
    simp only [Bool.and_eq_true] at h'
    intro i hi
    rcases (by omega : i = n ∨ i < n) with rfl | hi
    · exact h'.1
    · exact ih h'.2 i hi

theorem chk_all : chkAll 64 = true := by decide +kernel

theorem bv_ind {P : BitVec 64 → Prop} (h0 : P 0) (hx : ∀ a b, P a → P b → P (a ^^^ b)) (h1 : ∀ i, i < 64 → P (BitVec.ofNat 64 (2 ^ i))) : ∀ w, P w := by
  suffices h : ∀ k, k ≤ 64 → ∀ w : BitVec 64, w.toNat < 2 ^ k → P w from fun w => h 64 (Nat.le_refl _) w w.isLt
  intro k
  induction k with
  | zero =>
    intro _ w hw
    have : w = 0 := BitVec.eq_of_toNat_eq (by simpa using hw)
    rw [this]; exact h0
  | succ k ih =>
    intro hk w hw
    by_cases hlt : w.toNat < 2 ^ k
    · exact ih (by omega) w hlt
    · have hpk : (BitVec.ofNat 64 (2 ^ k)).toNat = 2 ^ k := by
        rw [BitVec.toNat_ofNat, Nat.mod_eq_of_lt (Nat.pow_lt_pow_right (by decide) (by omega))]
      have hb : w.toNat.testBit k = true := by
        rw [Nat.testBit_eq_decide_div_mod_eq]
        have h3 : w.toNat / 2 ^ k = 1 := by
          apply Nat.div_eq_of_lt_le <;> rw [Nat.pow_succ] at * <;> omega
        simp [h3]
      have h2 : (w ^^^ BitVec.ofNat 64 (2 ^ k)).toNat < 2 ^ k := by
        apply Nat.lt_pow_two_of_testBit
        intro i hi
        rw [BitVec.toNat_xor, hpk, Nat.testBit_xor, Nat.testBit_two_pow]
        by_cases he : k = i
        · subst he; simp [hb]
        · have : w.toNat.testBit i = false :=
            Nat.testBit_lt_two_pow (Nat.lt_of_lt_of_le hw (Nat.pow_le_pow_right (by decide) (by omega)))
          simp [he, this]
      have h3 := hx _ _ (ih (by omega) _ h2) (h1 k (by omega))
      rwa [BitVec.xor_assoc, BitVec.xor_self, BitVec.xor_zero] at h3

/-- The step is a zero of the polynomial. -/
theorem charPoly_zero (s : St) : act 257 charPoly s = zero := by
  have hc : ∀ i, i < 64 → act 257 charPoly ⟨BitVec.ofNat 64 (2 ^ i), 0, 0, 0⟩ = zero ∧ act 257 charPoly ⟨0, BitVec.ofNat 64 (2 ^ i), 0, 0⟩ = zero ∧
      act 257 charPoly ⟨0, 0, BitVec.ofNat 64 (2 ^ i), 0⟩ = zero ∧ act 257 charPoly ⟨0, 0, 0, BitVec.ofNat 64 (2 ^ i)⟩ = zero := by
    intro i hi
    have h := chkAll_spec chk_all i hi
    rw [chk, force_eq] at h
    have hpk : (BitVec.ofNat 64 (2 ^ i)).toNat = Nat.pow 2 i := by
      rw [BitVec.toNat_ofNat, Nat.mod_eq_of_lt (Nat.pow_lt_pow_right (by decide) hi)]; rfl
    have h' : (nloop 257 charPoly (Nat.pow 2 i) 0 0 0 0 0 0 0 && (nloop 257 charPoly 0 (Nat.pow 2 i) 0 0 0 0 0 0 &&
      (nloop 257 charPoly 0 0 (Nat.pow 2 i) 0 0 0 0 0 && nloop 257 charPoly 0 0 0 (Nat.pow 2 i) 0 0 0 0))) = true := h
    simp only [Bool.and_eq_true] at h'
    rw [← hpk] at h'
    obtain ⟨a, b, c, d⟩ := h'
    exact ⟨of_decide_eq_true ((nloop_act _ _ ⟨_, 0, 0, 0⟩).symm.trans a), of_decide_eq_true ((nloop_act _ _ ⟨0, _, 0, 0⟩).symm.trans b),
      of_decide_eq_true ((nloop_act _ _ ⟨0, 0, _, 0⟩).symm.trans c), of_decide_eq_true ((nloop_act _ _ ⟨0, 0, 0, _⟩).symm.trans d)⟩
  have hz : ∀ s t : St, act 257 charPoly s = zero → act 257 charPoly t = zero → act 257 charPoly (add s t) = zero := by
    intro s t hs ht; rw [act_add, hs, ht, add_zero]
  have hzero : act 257 charPoly ⟨0, 0, 0, 0⟩ = zero := act_zero _ _
  have w0 : ∀ w, act 257 charPoly ⟨w, 0, 0, 0⟩ = zero := by
    refine bv_ind (P := fun w => act 257 charPoly ⟨w, 0, 0, 0⟩ = zero) hzero ?_ ?_
    · intro a b ha hb
      have := hz _ _ ha hb
      simp only [add, BitVec.xor_self] at this; exact this
    · exact fun i hi => (hc i hi).1
  have w1 : ∀ w, act 257 charPoly ⟨0, w, 0, 0⟩ = zero := by
    refine bv_ind (P := fun w => act 257 charPoly ⟨0, w, 0, 0⟩ = zero) hzero ?_ ?_
    · intro a b ha hb
      have := hz _ _ ha hb
      simp only [add, BitVec.xor_self] at this; exact this
    · exact fun i hi => (hc i hi).2.1
  have w2 : ∀ w, act 257 charPoly ⟨0, 0, w, 0⟩ = zero := by
    refine bv_ind (P := fun w => act 257 charPoly ⟨0, 0, w, 0⟩ = zero) hzero ?_ ?_
    · intro a b ha hb
      have := hz _ _ ha hb
      simp only [add, BitVec.xor_self] at this; exact this
    · exact fun i hi => (hc i hi).2.2.1
  have w3 : ∀ w, act 257 charPoly ⟨0, 0, 0, w⟩ = zero := by
    refine bv_ind (P := fun w => act 257 charPoly ⟨0, 0, 0, w⟩ = zero) hzero ?_ ?_
    · intro a b ha hb
      have := hz _ _ ha hb
      simp only [add, BitVec.xor_self] at this; exact this
    · exact fun i hi => (hc i hi).2.2.2
  have := hz _ _ (w0 s.s0) (hz _ _ (w1 s.s1) (hz _ _ (w2 s.s2) (w3 s.s3)))
  have e : add ⟨s.s0, 0, 0, 0⟩ (add ⟨0, s.s1, 0, 0⟩ (add ⟨0, 0, s.s2, 0⟩ ⟨0, 0, 0, s.s3⟩)) = s := by
    apply St.ext' <;> simp [add]
  rwa [e] at this

end Verif.Rand
