import Verif.Decimal.Model
namespace Verif.Decimal

def Fits (x : Int) : Prop := -9223372036854775808 ≤ x ∧ x ≤ 9223372036854775807

instance (x : Int) : Decidable (Fits x) := inferInstanceAs (Decidable (_ ∧ _))

theorem wrap_fits {x : Int} (h : Fits x) : wrap x = x := by
  unfold wrap Fits at *
  omega

theorem tdiv_le_pos {m a b : Int} (ha : 0 < a) (hm : 0 ≤ m) : (b > m.tdiv a ↔ a * b > m) := by
  rw [Int.tdiv_eq_ediv_of_nonneg hm]
  constructor
  · intro h
    have := (Int.ediv_lt_iff_lt_mul ha).1 h
    rw [Int.mul_comm] at this; exact this
  · intro h
    apply (Int.ediv_lt_iff_lt_mul ha).2
    rw [Int.mul_comm]; exact h

/-- The overflow test of the multiplication is exact. -/
theorem multInt64_spec (a b : Int) (ha : Fits a) (hb : Fits b) :
    multInt64 a b = (if Fits (a * b) then .success else .overflow, wrap (a * b)) := by
  have key : (if a > 0 then
      if b > 0 then decide (a > i64max.tdiv b)
      else decide (b < i64min.tdiv a)
    else
      if b > 0 then decide (a < i64min.tdiv b)
      else decide (a ≠ 0 ∧ b < i64max.tdiv a)) = decide (¬ Fits (a * b)) := by
    unfold i64max i64min Fits
    split
    next h1 =>
      split
      next h2 =>
        have h : 0 < a * b := Int.mul_pos h1 h2
        have := tdiv_le_pos (m := 9223372036854775807) (b := a) h2 (by omega)
        rw [Int.mul_comm] at this
        rw [decide_eq_decide, this]
        omega
      next h2 =>
        have h : a * b ≤ 0 := Int.mul_nonpos_of_nonneg_of_nonpos (by omega) (by omega)
        have := tdiv_le_pos (m := 9223372036854775808) (b := -b) h1 (by omega)
        rw [Int.mul_neg] at this
        rw [decide_eq_decide, Int.neg_tdiv]
        omega
    next h1 =>
      split
      next h2 =>
        have h : a * b ≤ 0 := Int.mul_nonpos_of_nonpos_of_nonneg (by omega) (by omega)
        have := tdiv_le_pos (m := 9223372036854775808) (b := -a) h2 (by omega)
        rw [Int.mul_neg, Int.mul_comm] at this
        rw [decide_eq_decide, Int.neg_tdiv]
        omega
      next h2 =>
        have h : 0 ≤ a * b := Int.mul_nonneg_of_nonpos_of_nonpos (by omega) (by omega)
        rw [decide_eq_decide]
        by_cases h0 : a = 0
        · subst h0; simp
        · have := tdiv_le_pos (m := 9223372036854775807) (a := -a) (b := -b) (by omega) (by omega)
          rw [Int.neg_mul_neg, Int.tdiv_neg] at this
          omega
  unfold multInt64
  simp only [key]
  by_cases h : Fits (a * b) <;> simp [h]

theorem pow10_pos (n : Nat) : (0 : Int) < 10 ^ n := Int.pow_pos (by decide)

theorem pow10_le {m n : Nat} (h : m ≤ n) : (10 : Int) ^ m ≤ 10 ^ n := by
  obtain ⟨k, rfl⟩ := Nat.exists_eq_add_of_le h
  rw [Int.pow_add]
  have h1 := pow10_pos m
  have h2 := pow10_pos k
  have : (10 : Int) ^ m * 1 ≤ 10 ^ m * 10 ^ k := Int.mul_le_mul_of_nonneg_left (by omega) (by omega)
  omega

theorem pow10_18 : (10 : Int) ^ 18 = 1000000000000000000 := by decide
theorem pow10_19 : (10 : Int) ^ 19 = 10000000000000000000 := by decide

theorem fits_pow {n : Nat} : Fits (10 ^ n) ↔ n ≤ 18 := by
  unfold Fits
  have h0 := pow10_pos n
  constructor
  · intro h
    apply Classical.byContradiction
    intro hn
    have := pow10_le (m := 19) (n := n) (by omega)
    rw [pow10_19] at this
    omega
  · intro h
    have := pow10_le h
    rw [pow10_18] at this
    omega

theorem expLoop_spec (n : Nat) : ∀ k, k ≤ 18 → 
    (k + n ≤ 18 → expLoop 10 n (10 ^ k) = (.success, 10 ^ (k + n))) ∧ (18 < k + n → (expLoop 10 n (10 ^ k)).1 = .overflow) := by
  induction n with
  | zero => intro k hk; exact ⟨fun _ => rfl, by omega⟩
  | succ n ih =>
    intro k hk
    have h10 : Fits 10 := by unfold Fits; omega
    have hm := multInt64_spec (10 ^ k) 10 (fits_pow.2 hk) h10
    rw [← Int.pow_succ] at hm
    unfold expLoop
    rw [hm]
    by_cases hk' : k + 1 ≤ 18
    · rw [if_pos (fits_pow.2 hk'), wrap_fits (fits_pow.2 hk')]
      simp only [ne_eq, not_true, if_false]
      have := ih (k + 1) hk'
      rw [show k + 1 + n = k + (n + 1) by omega] at this
      exact this
    · rw [if_neg (fun h => hk' (fits_pow.1 h))]
      constructor
      · intro; omega
      · intro; simp

theorem expInt64_le {e : Nat} (h : e ≤ 18) : expInt64 10 e = (.success, 10 ^ e) := by
  have := (expLoop_spec e 0 (by omega)).1 (by omega)
  simpa [expInt64] using this

theorem expInt64_gt {e : Nat} (h : 18 < e) : (expInt64 10 e).1 = .overflow := by
  have := (expLoop_spec e 0 (by omega)).2 (by omega)
  simpa [expInt64] using this

theorem not_fits_big {x : Int} {k : Nat} (hx : x ≠ 0) (hk : 18 < k) : ¬ Fits (x * 10 ^ k) := by
  have h1 := pow10_le (m := 19) (n := k) (by omega)
  rw [pow10_19] at h1
  unfold Fits
  intro ⟨h2, h3⟩
  by_cases hp : 0 < x
  · have : 1 * (10 : Int) ^ k ≤ x * 10 ^ k := Int.mul_le_mul_of_nonneg_right (by omega) (by omega)
    omega
  · have : 1 * (10 : Int) ^ k ≤ (-x) * 10 ^ k := Int.mul_le_mul_of_nonneg_right (by omega) (by omega)
    rw [Int.neg_mul] at this
    omega

/-- Raising the number of decimals: exact, or reported as overflow exactly when it does not fit. -/
theorem transform_up {d : Dec} {nd : Nat} (round : Round) (hd : Fits d.num) (h : d.nd ≤ nd) :
    (Fits (d.num * 10 ^ (nd - d.nd)) → transform d nd round = some (.success, ⟨d.num * 10 ^ (nd - d.nd), nd⟩)) ∧
    (¬ Fits (d.num * 10 ^ (nd - d.nd)) → ∃ t, transform d nd round = some (.overflow, t)) := by
  unfold transform
  by_cases he : nd = d.nd
  · subst he
    simp only [Nat.sub_self, Int.pow_zero, Int.mul_one, if_true]
    exact ⟨fun _ => trivial, fun h => absurd hd h⟩
  · rw [if_neg he, if_pos (by omega)]
    by_cases h0 : d.num = 0
    · rw [if_neg (by simp [h0]), h0]
      simp [Fits]
    · rw [if_pos h0]
      by_cases hk : nd - d.nd ≤ 18
      · rw [expInt64_le hk]
        simp only [reduceCtorEq, if_false]
        rw [multInt64_spec _ _ hd (fits_pow.2 hk)]
        constructor
        · intro hf; rw [if_pos hf, wrap_fits hf]
        · intro hf; rw [if_neg hf]; exact ⟨_, rfl⟩
      · have hg := expInt64_gt (e := nd - d.nd) (by omega)
        constructor
        · intro hf; exact absurd hf (not_fits_big h0 (by omega))
        · intro _
          simp only [hg, if_true]
          exact ⟨_, rfl⟩

/-- Lowering the number of decimals when only zeros are dropped is exact. -/
theorem transform_down {d : Dec} {nd : Nat} (round : Round) (h : nd < d.nd) {q : Int} (hq : d.num = q * 10 ^ (d.nd - nd)) (hd : Fits d.num) :
    transform d nd round = some (.success, ⟨q, nd⟩) := by
  unfold transform
  rw [if_neg (by omega), if_neg (by omega)]
  by_cases h0 : d.num = 0
  · have : q = 0 := by
      rw [h0] at hq
      rcases Int.mul_eq_zero.1 hq.symm with h | h
      · exact h
      · have := pow10_pos (d.nd - nd); omega
    rw [if_neg (by simp [h0]), h0, this]
  · rw [if_pos h0]
    have hq0 : q ≠ 0 := by intro e; rw [e, Int.zero_mul] at hq; exact h0 hq
    have hk : d.nd - nd ≤ 18 := by
      apply Classical.byContradiction
      intro hk
      exact not_fits_big hq0 (by omega) (hq ▸ hd)
    rw [expInt64_le hk]
    simp only [reduceCtorEq, if_false]
    obtain ⟨k, hk1⟩ : ∃ k, d.nd - nd = k + 1 := ⟨d.nd - nd - 1, by omega⟩
    rw [hk1] at hq ⊢
    have hp := pow10_pos (k + 1)
    have hp' := pow10_pos k
    have htd : d.num.tdiv (10 ^ (k + 1)) = q := by rw [hq]; exact Int.mul_tdiv_cancel q (by omega)
    have htm : d.num.tmod (10 ^ (k + 1)) = 0 := by rw [hq]; exact Int.mul_tmod_left q _
    have hmd : ((10 : Int) ^ (k + 1)).tdiv 10 = 10 ^ k := by
      rw [Int.pow_succ]; exact Int.mul_tdiv_cancel _ (by decide)
    have hdig : d.num.tdiv (10 ^ k) = q * 10 := by
      rw [hq, Int.pow_succ, Int.mul_comm (10 ^ k), ← Int.mul_assoc]
      exact Int.mul_tdiv_cancel _ (by omega)
    have hround : roundOut q d.num (10 ^ (k + 1)) round = some q := by
      unfold roundOut
      by_cases hr : round = .none
      · rw [if_pos hr]
      · rw [if_neg hr, hmd]
        simp only
        rw [if_neg (by omega), hdig]
        unfold abs64 i64min
        rw [if_neg (by omega)]
        simp only [bind, Option.bind_some]
        have hmod : (if q * 10 < 0 then -(q * 10) else q * 10) % 10 = 0 := by split <;> omega
        rw [hmod]
        simp
    unfold divInt64
    rw [if_neg (by omega), if_neg (by omega), htd, hround, htm]
    simp

/-! ### Reduction -/

theorem reduceLoop_spec (nd : Nat) : ∀ num, Fits num →
    (reduceLoop num nd).nd ≤ nd ∧ num = (reduceLoop num nd).num * 10 ^ (nd - (reduceLoop num nd).nd) ∧
    Fits (reduceLoop num nd).num ∧ ((reduceLoop num nd).nd = 0 ∨ ¬ (10 : Int) ∣ (reduceLoop num nd).num) := by
  induction nd with
  | zero => intro num h; exact ⟨Nat.le_refl _, by simp [reduceLoop], h, Or.inl rfl⟩
  | succ nd ih =>
    intro num h
    unfold reduceLoop
    by_cases hm : num.tmod 10 = 0
    · rw [if_neg (by simp [hm])]
      have hdv : (10 : Int) ∣ num := Int.dvd_of_tmod_eq_zero hm
      obtain ⟨q, hq⟩ := hdv
      have htd : num.tdiv 10 = q := by rw [hq]; exact Int.mul_tdiv_cancel_left q (by decide)
      rw [htd]
      obtain ⟨h1, h2, h3, h4⟩ := ih q (by unfold Fits at *; omega)
      refine ⟨by omega, ?_, h3, h4⟩
      rw [show nd + 1 - (reduceLoop q nd).nd = (nd - (reduceLoop q nd).nd) + 1 by omega, Int.pow_succ, ← Int.mul_assoc, ← h2, hq]
      omega
    · rw [if_pos hm]
      refine ⟨Nat.le_refl _, by simp, h, Or.inr ?_⟩
      intro hd
      exact hm (Int.tmod_eq_zero_of_dvd hd)

/-- The rational number denoted by a decimal. -/
def val (d : Dec) : Rat := mkRat d.num (10 ^ d.nd)

theorem pow10_ne (n : Nat) : (10 ^ n : Nat) ≠ 0 := Nat.ne_of_gt (Nat.pow_pos (by decide))

theorem mkRat_scale (x : Int) (m k : Nat) : mkRat (x * 10 ^ k) (10 ^ (m + k)) = mkRat x (10 ^ m) := by
  have := Rat.mkRat_mul_right (n := x) (d := 10 ^ m) (pow10_ne k)
  rw [← Nat.pow_add] at this
  simpa using this

theorem val_scale (d : Dec) {w : Nat} (h : d.nd ≤ w) : val d = mkRat (d.num * 10 ^ (w - d.nd)) (10 ^ w) := by
  have := mkRat_scale d.num d.nd (w - d.nd)
  rw [show d.nd + (w - d.nd) = w by omega] at this
  exact this.symm

theorem reduce_spec {d : Dec} (h : Fits d.num) :
    val (reduce d) = val d ∧ Fits (reduce d).num ∧ (reduce d).nd ≤ d.nd ∧ d.num = (reduce d).num * 10 ^ (d.nd - (reduce d).nd) ∧
    ((reduce d).nd = 0 ∨ ¬ (10 : Int) ∣ (reduce d).num) := by
  obtain ⟨h1, h2, h3, h4⟩ := reduceLoop_spec d.nd d.num h
  refine ⟨?_, h3, h1, h2, h4⟩
  rw [val_scale (reduce d) h1]
  unfold val reduce
  rw [← h2]

theorem mkRat_add_same (a b : Int) (n : Nat) : mkRat a (10 ^ n) + mkRat b (10 ^ n) = mkRat (a + b) (10 ^ n) := by
  rw [Rat.mkRat_add_mkRat _ _ (pow10_ne n) (pow10_ne n), ← Int.add_mul]
  exact Rat.mkRat_mul_right (pow10_ne n)

theorem mkRat_sub_same (a b : Int) (n : Nat) : mkRat a (10 ^ n) - mkRat b (10 ^ n) = mkRat (a - b) (10 ^ n) := by
  rw [Rat.sub_eq_add_neg, Rat.neg_mkRat, mkRat_add_same, Int.sub_eq_add_neg]

theorem mkRat_inj {a b : Int} {n : Nat} (h : mkRat a (10 ^ n) = mkRat b (10 ^ n)) : a = b := by
  rw [Rat.mkRat_eq_iff (pow10_ne n) (pow10_ne n)] at h
  have hp := pow10_pos n
  exact Int.eq_of_mul_eq_mul_right (by simpa using (Int.ne_of_gt hp)) h

theorem mkRat_lt_iff {a b : Int} {n : Nat} : mkRat a (10 ^ n) < mkRat b (10 ^ n) ↔ a < b := by
  have hp : (0 : Int) < ((10 ^ n : Nat) : Int) := by simpa using pow10_pos n
  have h : mkRat b (10 ^ n) ≤ mkRat a (10 ^ n) ↔ b ≤ a := by
    rw [Rat.le_iff_sub_nonneg, mkRat_sub_same, ← Rat.divInt_ofNat, Rat.divInt_nonneg_iff_of_pos_right hp]
    omega
  rw [← Rat.not_le, h]
  omega

/-! ### Alignment -/

/-- The reduced number of decimals is the least possible. -/
theorem reduce_min {d : Dec} (h : Fits d.num) {x : Int} {w : Nat} (hx : val d = mkRat x (10 ^ w)) :
    (reduce d).nd ≤ w ∧ x = (reduce d).num * 10 ^ (w - (reduce d).nd) := by
  obtain ⟨h1, _, _, _, h5⟩ := reduce_spec h
  rw [← h1] at hx
  generalize reduce d = r at *
  have hle : r.nd ≤ w := by
    apply Classical.byContradiction
    intro hn
    unfold val at hx
    rw [Rat.mkRat_eq_iff (pow10_ne _) (pow10_ne _)] at hx
    have hx : r.num * 10 ^ w = x * 10 ^ r.nd := by simpa using hx
    obtain ⟨k, hk⟩ : ∃ k, r.nd = w + (k + 1) := ⟨r.nd - w - 1, by omega⟩
    rw [hk, Int.pow_add, Int.mul_comm (10 ^ w), ← Int.mul_assoc] at hx
    have hp := pow10_pos w
    have := Int.eq_of_mul_eq_mul_right (by omega) hx
    rcases h5 with h5 | h5
    · omega
    · apply h5
      rw [this, Int.pow_succ]
      exact ⟨x * 10 ^ k, by rw [← Int.mul_assoc, Int.mul_comm]⟩
  refine ⟨hle, ?_⟩
  rw [val_scale r hle] at hx
  exact (mkRat_inj hx).symm

theorem prepStep_up {t1 t2 : Dec} {w : Nat} (h1 : Fits t1.num) (h2 : Fits t2.num) (l1 : t1.nd ≤ w) (l2 : t2.nd ≤ w) :
    (Fits (t1.num * 10 ^ (w - t1.nd)) → Fits (t2.num * 10 ^ (w - t2.nd)) →
      prepStep t1 t2 w = some (true, ⟨t1.num * 10 ^ (w - t1.nd), w⟩, ⟨t2.num * 10 ^ (w - t2.nd), w⟩)) ∧
    (¬ (Fits (t1.num * 10 ^ (w - t1.nd)) ∧ Fits (t2.num * 10 ^ (w - t2.nd))) → ∃ u1 u2, prepStep t1 t2 w = some (false, u1, u2)) := by
  have a := transform_up .traditional h1 l1
  have b := transform_up .traditional h2 l2
  unfold prepStep
  constructor
  · intro f1 f2
    rw [a.1 f1, b.1 f2]; rfl
  · intro hn
    by_cases f1 : Fits (t1.num * 10 ^ (w - t1.nd))
    · by_cases f2 : Fits (t2.num * 10 ^ (w - t2.nd))
      · exact absurd ⟨f1, f2⟩ hn
      · obtain ⟨t, ht⟩ := b.2 f2
        rw [a.1 f1, ht]
        exact ⟨_, _, rfl⟩
    · obtain ⟨t, ht⟩ := a.2 f1
      rw [ht]
      exact ⟨_, _, rfl⟩

theorem prepLoop_not_success (d1 d2 : Dec) : ∀ nd u1 u2, prepLoop d1 d2 nd ≠ some (.success, u1, u2) := by
  intro nd
  induction nd with
  | zero =>
    intro u1 u2 h
    unfold prepLoop at h
    cases hs : prepStep d1 d2 0 with
    | none => rw [hs] at h; cases h
    | some r =>
      rw [hs] at h
      simp only [bind, Option.bind_some] at h
      split at h <;> simp at h
  | succ nd ih =>
    intro u1 u2 h
    unfold prepLoop at h
    cases hs : prepStep d1 d2 (nd + 1) with
    | none => rw [hs] at h; cases h
    | some r =>
      rw [hs] at h
      simp only [bind, Option.bind_some] at h
      split at h
      · simp at h
      · exact ih _ _ h

/-- Aligned arguments: same number of decimals, same values. -/
structure Aligned (d1 d2 u1 u2 : Dec) : Prop where
  nd : u1.nd = u2.nd
  f1 : Fits u1.num
  f2 : Fits u2.num
  v1 : val u1 = val d1
  v2 : val u2 = val d2
  le : u1.nd ≤ max d1.nd d2.nd

theorem prepmath_success {d1 d2 u1 u2 : Dec} {red : Bool} (h1 : Fits d1.num) (h2 : Fits d2.num)
    (h : prepmath d1 d2 red = some (.success, u1, u2)) : Aligned d1 d2 u1 u2 := by
  have key : ∀ t1 t2 : Dec, Fits t1.num → Fits t2.num → val t1 = val d1 → val t2 = val d2 → t1.nd ≤ d1.nd → t2.nd ≤ d2.nd →
      (prepStep t1 t2 (max t1.nd t2.nd)).bind (fun (fin, u1, u2) => if fin then some (.success, u1, u2)
        else if max t1.nd t2.nd = 0 then some (.invalid, u1, u2)
        else prepLoop d1 d2 (max t1.nd t2.nd - 1)) = some (Rv.success, u1, u2) → Aligned d1 d2 u1 u2 := by
    intro t1 t2 f1 f2 v1 v2 l1 l2 hh
    have hs := prepStep_up (w := max t1.nd t2.nd) f1 f2 (by omega) (by omega)
    by_cases hf : Fits (t1.num * 10 ^ (max t1.nd t2.nd - t1.nd)) ∧ Fits (t2.num * 10 ^ (max t1.nd t2.nd - t2.nd))
    · rw [hs.1 hf.1 hf.2] at hh
      simp only [Option.bind_some, if_true, Option.some.injEq, Prod.mk.injEq, true_and] at hh
      obtain ⟨rfl, rfl⟩ := hh
      refine ⟨rfl, hf.1, hf.2, ?_, ?_, ?_⟩
      · rw [← v1, val_scale t1 (Nat.le_max_left t1.nd t2.nd)]; rfl
      · rw [← v2, val_scale t2 (Nat.le_max_right t1.nd t2.nd)]; rfl
      · simp only; omega
    · obtain ⟨a, b, hab⟩ := hs.2 hf
      rw [hab] at hh
      simp only [Option.bind_some, Bool.false_eq_true, if_false] at hh
      split at hh
      · simp at hh
      · exact absurd hh (prepLoop_not_success _ _ _ _ _)
  unfold prepmath at h
  cases red with
  | false => exact key d1 d2 h1 h2 rfl rfl (Nat.le_refl _) (Nat.le_refl _) h
  | true =>
    have r1 := reduce_spec h1
    have r2 := reduce_spec h2
    exact key (reduce d1) (reduce d2) r1.2.1 r2.2.1 r1.1 r2.1 r1.2.2.1 r2.2.2.1 h

/-- If the numbers can be written with a common number of decimals, alignment succeeds. -/
theorem prepmath_total {d1 d2 : Dec} (h1 : Fits d1.num) (h2 : Fits d2.num) {x y : Int} {w : Nat} (fx : Fits x) (fy : Fits y)
    (hx : val d1 = mkRat x (10 ^ w)) (hy : val d2 = mkRat y (10 ^ w)) :
    ∃ u1 u2, prepmath d1 d2 true = some (.success, u1, u2) := by
  have r1 := reduce_spec h1
  have r2 := reduce_spec h2
  obtain ⟨a1, a2⟩ := reduce_min h1 hx
  obtain ⟨b1, b2⟩ := reduce_min h2 hy
  have shrink : ∀ {z : Int} {m n : Nat}, m ≤ n → Fits (z * 10 ^ n) → Fits (z * 10 ^ m) := by
    intro z m n hmn hz
    obtain ⟨k, rfl⟩ := Nat.exists_eq_add_of_le hmn
    rw [Int.pow_add, ← Int.mul_assoc] at hz
    have hk := pow10_pos k
    generalize z * 10 ^ m = v at *
    unfold Fits at *
    rcases Int.lt_trichotomy v 0 with hv | hv | hv
    · have : (-v) * 1 ≤ (-v) * 10 ^ k := Int.mul_le_mul_of_nonneg_left (by omega) (by omega)
      simp only [Int.neg_mul, Int.mul_one] at this
      omega
    · omega
    · have : v * 1 ≤ v * 10 ^ k := Int.mul_le_mul_of_nonneg_left (by omega) (by omega)
      omega
  have hs := prepStep_up (w := max (reduce d1).nd (reduce d2).nd) r1.2.1 r2.2.1 (by omega) (by omega)
  have f1 : Fits ((reduce d1).num * 10 ^ (max (reduce d1).nd (reduce d2).nd - (reduce d1).nd)) :=
    shrink (n := w - (reduce d1).nd) (by omega) (a2 ▸ fx)
  have f2 : Fits ((reduce d2).num * 10 ^ (max (reduce d1).nd (reduce d2).nd - (reduce d2).nd)) :=
    shrink (n := w - (reduce d2).nd) (by omega) (b2 ▸ fy)
  unfold prepmath
  simp only [if_true, bind]
  rw [hs.1 f1 f2]
  exact ⟨_, _, rfl⟩

theorem prepLoop_not_overflow (d1 d2 : Dec) : ∀ nd u1 u2, prepLoop d1 d2 nd ≠ some (.overflow, u1, u2) := by
  intro nd
  induction nd with
  | zero =>
    intro u1 u2 h
    unfold prepLoop at h
    cases hs : prepStep d1 d2 0 with
    | none => rw [hs] at h; cases h
    | some r =>
      rw [hs] at h
      simp only [bind, Option.bind_some] at h
      split at h <;> simp at h
  | succ nd ih =>
    intro u1 u2 h
    unfold prepLoop at h
    cases hs : prepStep d1 d2 (nd + 1) with
    | none => rw [hs] at h; cases h
    | some r =>
      rw [hs] at h
      simp only [bind, Option.bind_some] at h
      split at h
      · simp at h
      · exact ih _ _ h

theorem prepmath_not_overflow (d1 d2 : Dec) (red : Bool) (u1 u2 : Dec) : prepmath d1 d2 red ≠ some (.overflow, u1, u2) := by
  intro h
  unfold prepmath at h
  simp only [bind] at h
  generalize prepStep _ _ _ = s at h
  generalize (max _ _ : Nat) = w at h
  cases s with
  | none => cases h
  | some z =>
    simp only [Option.bind_some] at h
    split at h
    · simp at h
    · split at h
      · simp at h
      · exact prepLoop_not_overflow _ _ _ _ _ h

end Verif.Decimal
