import Verif.Decimal.Lemmas
/-! C24, C25, C55: decimal arithmetic.  `val` is the rational number of a decimal. -/
namespace Verif.Decimal

/-! ### C24 -/

theorem transform_common {d : Dec} (h : Fits d.num) {w : Nat} (hw : (reduce d).nd ≤ w)
    (hf : Fits ((reduce d).num * 10 ^ (w - (reduce d).nd))) (round : Round) :
    transform d w round = some (.success, ⟨(reduce d).num * 10 ^ (w - (reduce d).nd), w⟩) := by
  obtain ⟨h1, h2, h3, h4, _⟩ := reduce_spec h
  generalize reduce d = r at *
  by_cases hd : d.nd ≤ w
  · have e : r.num * 10 ^ (w - r.nd) = d.num * 10 ^ (w - d.nd) := by
      rw [h4, Int.mul_assoc, ← Int.pow_add]
      congr 2; omega
    rw [e] at hf ⊢
    exact (transform_up round h hd).1 hf
  · apply transform_down round (by omega) _ h
    rw [h4, Int.mul_assoc, ← Int.pow_add]
    congr 2; omega

/-- Two decimals that can be written with a common number of decimals are compared numerically.  Missing: pairs that cannot
(`cmp_unaligned_fails`). -/
theorem cmp_correct_partial {a b : Dec} (ha : Fits a.num) (hb : Fits b.num) {x y : Int} {w : Nat} (fx : Fits x) (fy : Fits y)
    (hx : val a = mkRat x (10 ^ w)) (hy : val b = mkRat y (10 ^ w)) :
    cmp a b = some (if val b < val a then 1 else if val a < val b then -1 else 0) := by
  obtain ⟨p1, p2⟩ := reduce_min ha hx
  obtain ⟨q1, q2⟩ := reduce_min hb hy
  -- the values compared are multiples of the common representation
  have final : ∀ (m : Nat) (t1 t2 : Dec), val a = mkRat t1.num (10 ^ m) → val b = mkRat t2.num (10 ^ m) →
      (if t1.num > t2.num then some (1 : Int) else if t1.num < t2.num then some (-1) else some 0) =
        some (if val b < val a then 1 else if val a < val b then -1 else 0) := by
    intro m t1 t2 e1 e2
    simp only [e1, e2, mkRat_lt_iff]
    split
    · simp [*]
    · rename_i hh
      split
      · rfl
      · rfl
  obtain ⟨u1, u2, hp⟩ := prepmath_total ha hb fx fy hx hy
  have ra := reduce_spec ha
  have rb := reduce_spec hb
  have hs := prepStep_up (w := max (reduce a).nd (reduce b).nd) ra.2.1 rb.2.1 (by omega) (by omega)
  have hfit : Fits ((reduce a).num * 10 ^ (max (reduce a).nd (reduce b).nd - (reduce a).nd)) ∧
      Fits ((reduce b).num * 10 ^ (max (reduce a).nd (reduce b).nd - (reduce b).nd)) := by
    apply Classical.byContradiction
    intro hn
    obtain ⟨v1, v2, hv⟩ := hs.2 hn
    unfold prepmath at hp
    simp only [if_true, bind] at hp
    rw [hv] at hp
    simp only [Option.bind_some, Bool.false_eq_true, if_false] at hp
    split at hp
    · simp at hp
    · exact prepLoop_not_success _ _ _ _ _ hp
  unfold cmp
  simp only
  cases hm : max (reduce a).nd (reduce b).nd with
  | zero =>
    have za : (reduce a).nd = 0 := by omega
    have zb : (reduce b).nd = 0 := by omega
    simp only [cmpLoop, bind, Option.bind_some]
    apply final 0
    · rw [← ra.1, val, za]
    · rw [← rb.1, val, zb]
  | succ m =>
    rw [hm] at hfit
    have ta := transform_common ha (w := m + 1) (by omega) hfit.1 .traditional
    have tb := transform_common hb (w := m + 1) (by omega) hfit.2 .traditional
    simp only [cmpLoop, cmpStep, bind]
    rw [ta, tb]
    simp only [Option.bind_some, ne_eq, not_true, if_false, BEq.rfl, if_true]
    apply final (m + 1) ⟨_, m + 1⟩ ⟨_, m + 1⟩
    · rw [← ra.1]; exact val_scale _ (by omega)
    · rw [← rb.1]; exact val_scale _ (by omega)

/-- 1.5 and 1.25 -/
example : cmp ⟨15, 1⟩ ⟨125, 2⟩ = some 1 ∧ val ⟨15, 1⟩ = mkRat 150 (10 ^ 2) ∧ val ⟨125, 2⟩ = mkRat 125 (10 ^ 2) := by decide +kernel

/-- `10^18` is reported smaller than `10^-18`. -/
theorem cmp_unaligned_fails : cmp ⟨1000000000000000000, 0⟩ ⟨1, 18⟩ = some (-1) ∧
    val ⟨1, 18⟩ < val ⟨1000000000000000000, 0⟩ := by decide +kernel

/-! ### C25 -/

theorem reduce_val_of_fits {n : Int} {nd : Nat} (h : Fits n) : val (reduce ⟨n, nd⟩) = mkRat n (10 ^ nd) :=
  (reduce_spec (d := ⟨n, nd⟩) h).1

theorem addInt64_spec {a b : Int} (ha : Fits a) (hb : Fits b) :
    addInt64 a b = if Fits (a + b) then (.success, some (a + b)) else (.overflow, none) := by
  unfold addInt64 i64min i64max
  by_cases h : Fits (a + b)
  · rw [if_pos h, if_neg]
    unfold Fits at *; omega
  · rw [if_neg h, if_pos]
    unfold Fits at *; omega

/-- Addition that reports success is exact. -/
theorem add_exact {a b r : Dec} (ha : Fits a.num) (hb : Fits b.num) (h : add a b = some (.success, r)) : val r = val a + val b := by
  unfold add at h
  cases hp : prepmath a b true with
  | none => rw [hp] at h; cases h
  | some p =>
    obtain ⟨prv, t1, t2⟩ := p
    rw [hp] at h
    simp only [bind, Option.bind_some] at h
    split at h
    · simp at h
    · by_cases hps : prv = .success
      · subst hps
        have al := prepmath_success ha hb hp
        rw [addInt64_spec al.f1 al.f2] at h
        by_cases hf : Fits (t1.num + t2.num)
        · rw [if_pos hf] at h
          simp only [Option.some.injEq, Prod.mk.injEq, true_and] at h
          rw [← h, reduce_val_of_fits hf, ← al.v1, ← al.v2, val, val, ← al.nd, mkRat_add_same]
        · rw [if_neg hf] at h
          simp at h
      · exfalso
        split at h
        · simp only [Option.some.injEq, Prod.mk.injEq] at h; exact hps h.1
        · simp at h

/-- Subtraction that reports success is exact. -/
theorem subtract_exact {a b r : Dec} (ha : Fits a.num) (hb : Fits b.num) (h : subtract a b = some (.success, r)) :
    val r = val a - val b := by
  unfold subtract at h
  cases hp : prepmath a b true with
  | none => rw [hp] at h; cases h
  | some p =>
    obtain ⟨prv, t1, t2⟩ := p
    rw [hp] at h
    simp only [bind, Option.bind_some] at h
    split at h
    · simp at h
    · split at h
      · simp at h
      next hov =>
        simp only [Option.some.injEq, Prod.mk.injEq] at h
        obtain ⟨rfl, h⟩ := h
        have al := prepmath_success ha hb hp
        have hf : Fits (t1.num - t2.num) := by
          have f1 := al.f1
          have f2 := al.f2
          unfold i64min i64max at hov
          unfold Fits at *
          omega
        rw [← h, wrap_fits hf, reduce_val_of_fits hf, ← al.v1, ← al.v2, val, val, ← al.nd, mkRat_sub_same]

example : add ⟨15, 1⟩ ⟨125, 2⟩ = some (.success, ⟨275, 2⟩) ∧ subtract ⟨15, 1⟩ ⟨125, 2⟩ = some (.success, ⟨25, 2⟩) := by decide +kernel

/-- Multiplication that reports success is exact when neither argument has more than 127 decimals.  Missing: more decimals,
where the doubled count wraps (`multiply_decimals_fails`). -/
theorem multiply_exact_partial {a b r : Dec} (ha : Fits a.num) (hb : Fits b.num) (na : a.nd ≤ 127) (nb : b.nd ≤ 127)
    (h : multiply a b = some (.success, r)) : val r = val a * val b := by
  have multLoop_i : ∀ fuel (t1 t2 : Dec) (i : Nat) {rv num nd j}, multLoop fuel t1 t2 i = some (rv, num, nd, j) → i ≤ j := by
    intro fuel
    induction fuel with
    | zero => intro t1 t2 i rv num nd j hh; cases hh
    | succ fuel ih =>
      intro t1 t2 i rv num nd j hh
      unfold multLoop at hh
      simp only at hh
      split at hh
      · simp at hh; omega
      · split at hh
        · simp at hh; omega
        · cases h1 : transform t1 (t1.nd - 1) .traditional with
          | none => rw [h1] at hh; cases hh
          | some p1 =>
            cases h2 : transform t2 (t2.nd - 1) .traditional with
            | none => rw [h1, h2] at hh; cases hh
            | some p2 =>
              rw [h1, h2] at hh
              simp only [bind, Option.bind_some] at hh
              have := ih _ _ _ hh
              omega
  unfold multiply at h
  cases hp : prepmath a b true with
  | none => rw [hp] at h; cases h
  | some p =>
    obtain ⟨prv, t1, t2⟩ := p
    rw [hp] at h
    simp only [bind, Option.bind_some] at h
    split at h
    · simp at h
    next hinv =>
      cases hl : multLoop (t1.nd + 1) t1 t2 0 with
      | none => rw [hl] at h; cases h
      | some q =>
        obtain ⟨rv, num, nd, i⟩ := q
        rw [hl] at h
        simp only [Option.bind_some] at h
        split at h
        · simp at h; exact absurd h.1 ‹_›
        next hrv =>
          simp only [Option.some.injEq, Prod.mk.injEq] at h
          obtain ⟨h1, h2⟩ := h
          have hrv : rv = .success := Classical.byContradiction hrv
          have hc : ¬ (i ≠ 0 ∨ prv = .truncation) := by
            intro hc; rw [if_pos hc] at h1; cases h1
          have hi : i = 0 := by omega
          subst hi
          have hps : prv = .success := by
            cases prv with
            | success => rfl
            | truncation => exact absurd (Or.inr rfl) hc
            | invalid => exact absurd rfl hinv
            | overflow => exact absurd hp (prepmath_not_overflow _ _ _ _ _)
          subst hps
          have al := prepmath_success ha hb hp
          unfold multLoop at hl
          simp only at hl
          rw [multInt64_spec _ _ al.f1 al.f2] at hl
          have hf : Fits (t1.num * t2.num) := by
            apply Classical.byContradiction
            intro hf
            rw [if_neg hf] at hl
            simp only [ne_eq, not_true, if_false] at hl
            split at hl
            · simp only [Option.some.injEq, Prod.mk.injEq] at hl
              rw [hrv] at hl; cases hl.1
            · cases k1 : transform t1 (t1.nd - 1) .traditional with
              | none => rw [k1] at hl; cases hl
              | some p1 =>
                cases k2 : transform t2 (t2.nd - 1) .traditional with
                | none => rw [k1, k2] at hl; cases hl
                | some p2 =>
                  rw [k1, k2] at hl
                  simp only [bind, Option.bind_some] at hl
                  have := multLoop_i _ _ _ _ hl
                  omega
          rw [if_pos hf, wrap_fits hf] at hl
          simp only [ne_eq, reduceCtorEq, not_false_eq_true, if_true, Option.some.injEq, Prod.mk.injEq] at hl
          obtain ⟨_, rfl, rfl, _⟩ := hl
          have hle := al.le
          rw [← h2, Nat.mod_eq_of_lt (by omega), reduce_val_of_fits hf, ← al.v1, ← al.v2, val, val, ← al.nd, Rat.mkRat_mul_mkRat,
            ← Nat.pow_add, Nat.mul_two]

example : multiply ⟨15, 1⟩ ⟨125, 2⟩ = some (.success, ⟨1875, 3⟩) := by decide +kernel

/-- With 128 decimals each, the product `10^-256` is returned as 1 with success. -/
theorem multiply_decimals_fails : multiply ⟨1, 128⟩ ⟨1, 128⟩ = some (.success, ⟨1, 0⟩) := by decide +kernel

/-- When both numbers and their sum can be written with a common number of decimals, addition succeeds. -/
theorem add_succeeds {a b : Dec} (ha : Fits a.num) (hb : Fits b.num) {x y : Int} {w : Nat} (fx : Fits x) (fy : Fits y) (fs : Fits (x + y))
    (hx : val a = mkRat x (10 ^ w)) (hy : val b = mkRat y (10 ^ w)) : ∃ r, add a b = some (.success, r) := by
  obtain ⟨u1, u2, hp⟩ := prepmath_total ha hb fx fy hx hy
  have al := prepmath_success ha hb hp
  have hf : Fits (u1.num + u2.num) := by
    -- the aligned sum is no larger than the given one
    have ra := reduce_min ha hx
    have rb := reduce_min hb hy
    have e1 := al.v1
    have e2 := al.v2
    by_cases hle : u1.nd ≤ w
    · rw [val_scale u1 hle, hx] at e1
      rw [val_scale u2 (by rw [← al.nd]; exact hle), hy] at e2
      have e1 := mkRat_inj e1
      have e2 := mkRat_inj e2
      rw [← al.nd] at e2
      have hs : x + y = (u1.num + u2.num) * 10 ^ (w - u1.nd) := by rw [Int.add_mul, e1, e2]
      have hk := pow10_pos (w - u1.nd)
      rw [hs] at fs
      generalize u1.num + u2.num = v at *
      unfold Fits at *
      rcases Int.lt_trichotomy v 0 with hv | hv | hv
      · have : (-v) * 1 ≤ (-v) * 10 ^ (w - u1.nd) := Int.mul_le_mul_of_nonneg_left (by omega) (by omega)
        simp only [Int.neg_mul, Int.mul_one] at this
        omega
      · omega
      · have : v * 1 ≤ v * 10 ^ (w - u1.nd) := Int.mul_le_mul_of_nonneg_left (by omega) (by omega)
        omega
    · -- impossible: alignment uses the larger reduced count
      exfalso
      unfold prepmath at hp
      simp only [if_true, bind] at hp
      have r1 := reduce_spec ha
      have r2 := reduce_spec hb
      have hs := prepStep_up (w := max (reduce a).nd (reduce b).nd) r1.2.1 r2.2.1 (by omega) (by omega)
      by_cases hfit : Fits ((reduce a).num * 10 ^ (max (reduce a).nd (reduce b).nd - (reduce a).nd)) ∧
          Fits ((reduce b).num * 10 ^ (max (reduce a).nd (reduce b).nd - (reduce b).nd))
      · rw [hs.1 hfit.1 hfit.2] at hp
        simp only [Option.bind_some, if_true, Option.some.injEq, Prod.mk.injEq, true_and] at hp
        have : u1.nd = max (reduce a).nd (reduce b).nd := by rw [← hp.1]
        omega
      · obtain ⟨v1, v2, hv⟩ := hs.2 hfit
        rw [hv] at hp
        simp only [Option.bind_some, Bool.false_eq_true, if_false] at hp
        split at hp
        · simp at hp
        · exact prepLoop_not_success _ _ _ _ _ hp
  unfold add
  rw [hp]
  simp only [bind, Option.bind_some, reduceCtorEq, if_false]
  rw [addInt64_spec al.f1 al.f2, if_pos hf]
  exact ⟨_, rfl⟩

/-- Aligning can divide the most negative number, whose absolute value does not exist: undefined behaviour. -/
theorem add_undefined_fails : add ⟨i64min, 3⟩ ⟨2000000000000000001, 2⟩ = none := by decide +kernel

/-! ### C55: division -/

theorem divNone {out0 num denom q : Int} (h : divInt64 out0 num denom .none = some (.success, q)) :
    denom ≠ 0 ∧ num = denom * q := by
  unfold divInt64 at h
  split at h
  · simp at h
  next h0 =>
    split at h
    · simp at h
    · simp only [roundOut, if_true, bind, Option.bind_some, Option.some.injEq, Prod.mk.injEq] at h
      obtain ⟨h1, h2⟩ := h
      refine ⟨h0, ?_⟩
      have hm : num.tmod denom = 0 := by
        apply Classical.byContradiction
        intro hm; rw [if_pos hm] at h1; cases h1
      have := Int.mul_tdiv_add_tmod num denom
      rw [hm, h2] at this
      omega

theorem remLoop_spec (rem : Int) (hr : Fits rem) : ∀ w rv0 r0 {rv remexp w'}, w ≤ 18 → (w = 0 → rv0 ≠ .success) →
    remLoop rem w rv0 r0 = (rv, remexp, w') → rv = .success → remexp = rem * 10 ^ w' ∧ 1 ≤ w' ∧ w' ≤ 18 := by
  intro w
  induction w with
  | zero =>
    intro rv0 r0 rv remexp w' _ h0 h hs
    simp only [remLoop, Prod.mk.injEq] at h
    rw [← h.1] at hs
    exact absurd hs (h0 rfl)
  | succ w ih =>
    intro rv0 r0 rv remexp w' hw _ h hs
    unfold remLoop at h
    rw [expInt64_le hw, multInt64_spec _ _ hr (fits_pow.2 hw)] at h
    simp only at h
    by_cases hf : Fits (rem * 10 ^ (w + 1))
    · rw [if_pos hf, wrap_fits hf] at h
      simp only [if_true, Prod.mk.injEq] at h
      obtain ⟨_, rfl, rfl⟩ := h
      exact ⟨rfl, by omega, hw⟩
    · rw [if_neg hf] at h
      simp only [reduceCtorEq, if_false] at h
      exact ih _ _ (by omega) (by simp) h hs

theorem fitLoop_spec (num : Int) (hn : Fits num) (h10 : Fits (num * 10)) : ∀ w dn ad arv {dnum ad' arv' w'}, 1 ≤ w → w ≤ 18 →
    fitLoop num .none w dn ad arv = some (dnum, ad', arv', w') → arv' ≠ .truncation →
    1 ≤ w' ∧ w' ≤ w ∧ dnum = num * 10 ^ w' ∧ ad = ad' * 10 ^ (w - w') ∧ arv ≠ .truncation := by
  intro w
  induction w with
  | zero => intro dn ad arv dnum ad' arv' w' h1; omega
  | succ w ih =>
    intro dn ad arv dnum ad' arv' w' _ hw h hs
    unfold fitLoop at h
    rw [expInt64_le hw, multInt64_spec _ _ hn (fits_pow.2 hw)] at h
    simp only at h
    by_cases hf : Fits (num * 10 ^ (w + 1))
    · rw [if_pos hf, wrap_fits hf] at h
      simp only [if_true, Option.some.injEq, Prod.mk.injEq] at h
      obtain ⟨rfl, rfl, rfl, rfl⟩ := h
      exact ⟨by omega, Nat.le_refl _, rfl, by simp, hs⟩
    · rw [if_neg hf] at h
      simp only [reduceCtorEq, if_false] at h
      have hw1 : 1 ≤ w := by
        apply Classical.byContradiction
        intro hw0
        have : w = 0 := by omega
        subst this
        exact hf (by simpa using h10)
      cases hd : divInt64 ad ad 10 .none with
      | none => rw [hd] at h; cases h
      | some q =>
        rw [hd] at h
        simp only [bind, Option.bind_some] at h
        obtain ⟨k1, k2, k3, k4, k5⟩ := ih _ _ _ hw1 (by omega) h hs
        have hq : q.1 ≠ .truncation := by
          intro hq; rw [if_pos hq] at k5; exact k5 rfl
        have hsucc : q.1 = .success := by
          unfold divInt64 at hd
          rw [if_neg (by decide), if_neg (by omega)] at hd
          simp only [roundOut, if_true, bind, Option.bind_some, Option.some.injEq] at hd
          rw [← hd] at hq ⊢
          simp only at hq ⊢
          split at hq
          · exact absurd rfl hq
          · rename_i hh; rw [if_neg hh]
        have := divNone (q := q.2) (by rw [hd, ← hsucc])
        refine ⟨k1, by omega, k3, ?_, ?_⟩
        · rw [show w + 1 - w' = (w - w') + 1 by omega, Int.pow_succ, ← Int.mul_assoc, ← k4, this.2, Int.mul_comm]
        · rw [if_neg hq] at k5; exact k5

theorem tmod_fits {a b : Int} (h : Fits a) : Fits (a.tmod b) := by
  have h1 : (a.tmod b).natAbs ≤ a.natAbs := by
    rw [Int.natAbs_tmod]; exact Nat.mod_le _ _
  rcases Int.le_total 0 a with ha | ha
  · have := Int.tmod_nonneg b ha
    unfold Fits at *; omega
  · have : (-a).tmod b = -(a.tmod b) := Int.neg_tmod ..
    have h2 := Int.tmod_nonneg b (show 0 ≤ -a by omega)
    unfold Fits at *; omega

theorem chk_some {a z : Int} (h : chk a = some z) : z = a ∧ Fits z := by
  unfold chk i64min i64max at h
  split at h
  · simp only [Option.some.injEq] at h
    subst h
    exact ⟨rfl, by unfold Fits; omega⟩
  · cases h

theorem val_natAbs {t a : Dec} (h : val t = val a) : t.num.natAbs * 10 ^ a.nd = a.num.natAbs * 10 ^ t.nd := by
  unfold val at h
  rw [Rat.mkRat_eq_iff (pow10_ne _) (pow10_ne _)] at h
  have := congrArg Int.natAbs h
  rw [Int.natAbs_mul, Int.natAbs_mul, Int.natAbs_natCast, Int.natAbs_natCast] at this
  exact this

theorem quotient_fits {a b t1 t2 : Dec} (v1 : val t1 = val a) (v2 : val t2 = val b) (hn : t1.nd = t2.nd) (h0 : t2.num ≠ 0)
    (hq : 10 * a.num.natAbs * 10 ^ b.nd ≤ 9223372036854775807 * b.num.natAbs * 10 ^ a.nd) :
    Fits (t1.num.tdiv t2.num) ∧ Fits (t1.num.tdiv t2.num * 10) := by
  have e1 := val_natAbs v1
  have e2 := val_natAbs v2
  rw [← hn] at e2
  have hle : 10 * t1.num.natAbs ≤ 9223372036854775807 * t2.num.natAbs := by
    have hp : 0 < 10 ^ a.nd * 10 ^ b.nd := Nat.mul_pos (Nat.pow_pos (by omega)) (Nat.pow_pos (by omega))
    apply Nat.le_of_mul_le_mul_right _ hp
    have := Nat.mul_le_mul_right (10 ^ t1.nd) hq
    calc 10 * t1.num.natAbs * (10 ^ a.nd * 10 ^ b.nd) = 10 * (t1.num.natAbs * 10 ^ a.nd) * 10 ^ b.nd := by grind
      _ = 10 * a.num.natAbs * 10 ^ b.nd * 10 ^ t1.nd := by rw [e1]; grind
      _ ≤ 9223372036854775807 * b.num.natAbs * 10 ^ a.nd * 10 ^ t1.nd := this
      _ = 9223372036854775807 * (b.num.natAbs * 10 ^ t1.nd) * 10 ^ a.nd := by grind
      _ = 9223372036854775807 * t2.num.natAbs * (10 ^ a.nd * 10 ^ b.nd) := by rw [← e2]; grind
  have h2 : 10 * (t1.num.tdiv t2.num).natAbs ≤ 9223372036854775807 := by
    rw [Int.natAbs_tdiv]
    have hp : 0 < t2.num.natAbs := by omega
    apply Nat.le_of_mul_le_mul_right _ hp
    have := Nat.div_mul_le_self t1.num.natAbs t2.num.natAbs
    rw [Nat.mul_assoc]
    generalize t1.num.natAbs / t2.num.natAbs * t2.num.natAbs = z at *
    omega
  unfold Fits
  omega

/-- Division without rounding that reports success is exact, when ten times the quotient fits: `|10 * a| ≤ (2^63 - 1) * |b|`.  Missing: rounding
modes (`divide_rounding_fails`) and large quotients (`divide_large_fails`). -/
theorem divide_exact_partial {a b r : Dec} (ha : Fits a.num) (hb : Fits b.num) (h : divide a b .none = some (.success, r))
    (hq : 10 * a.num.natAbs * 10 ^ b.nd ≤ 9223372036854775807 * b.num.natAbs * 10 ^ a.nd) :
    val r * val b = val a ∧ b.num ≠ 0 := by
  unfold divide at h
  cases hp : prepmath a b false with
  | none => rw [hp] at h; cases h
  | some p =>
    obtain ⟨prv, t1, t2⟩ := p
    rw [hp] at h
    simp only [bind, Option.bind_some] at h
    split at h
    · simp at h
    next hinv =>
      split at h
      · simp at h
      next h20 =>
        split at h
        · simp at h
        next hmin =>
          cases hr : remLoop (t1.num.tmod t2.num) 18 .success 0 with
          | mk rv q =>
            obtain ⟨remexp, w⟩ := q
            rw [hr] at h
            simp only at h
            split at h
            · simp at h; exact absurd h.1 ‹_›
            next hrv =>
              cases hd : divInt64 0 remexp t2.num .none with
              | none => rw [hd] at h; cases h
              | some dq =>
                obtain ⟨drv, ad⟩ := dq
                rw [hd] at h
                simp only [Option.bind_some] at h
                split at h
                · simp only [Option.some.injEq, Prod.mk.injEq] at h
                  rename_i hh; exact absurd h.1 hh.1
                next hdrv =>
                  cases hfl : fitLoop (t1.num.tdiv t2.num) .none w 0 ad (if drv = .truncation then .truncation else .success) with
                  | none => rw [hfl] at h; cases h
                  | some fq =>
                    obtain ⟨dnum, ad', arv, w'⟩ := fq
                    rw [hfl] at h
                    simp only [Option.bind_some] at h
                    have hps : prv = .success ∧ arv ≠ .truncation := by
                      have hcond : ¬ (arv = .truncation ∨ prv = .truncation) := by
                        intro hc
                        split at h
                        · cases hck : chk (dnum + ad') with
                          | none => rw [hck] at h; cases h
                          | some z => rw [hck] at h; simp [hc] at h
                        · simp [hc] at h
                      refine ⟨?_, fun e => hcond (Or.inl e)⟩
                      cases prv with
                      | success => rfl
                      | truncation => exact absurd (Or.inr rfl) hcond
                      | invalid => exact absurd rfl hinv
                      | overflow => exact absurd hp (prepmath_not_overflow _ _ _ _ _)
                    obtain ⟨rfl, harv⟩ := hps
                    have al := prepmath_success ha hb hp
                    have hb0 : b.num ≠ 0 := by
                      intro hb0
                      have := al.v2
                      unfold val at this
                      rw [hb0, Rat.zero_mkRat] at this
                      rw [Rat.mkRat_eq_zero (pow10_ne _)] at this
                      exact h20 this
                    refine ⟨?_, hb0⟩
                    have hrv : rv = .success := Classical.byContradiction hrv
                    have hfr : Fits (t1.num.tmod t2.num) := tmod_fits al.f1
                    obtain ⟨k1, k2, k3⟩ := remLoop_spec _ hfr 18 _ _ (Nat.le_refl _) (by simp) hr hrv
                    obtain ⟨hq1, hq2⟩ := quotient_fits al.v1 al.v2 al.nd h20 hq
                    obtain ⟨m1, m2, m3, m4, m5⟩ := fitLoop_spec _ hq1 hq2 _ _ _ _ k2 k3 hfl harv
                    have hds : drv = .success := by
                      cases drv with
                      | success => rfl
                      | truncation => exact absurd rfl m5
                      | invalid => exact absurd ⟨by simp, by simp⟩ hdrv
                      | overflow => exact absurd ⟨by simp, by simp⟩ hdrv
                    rw [hds] at hd
                    have hex := (divNone hd).2
                    rw [if_pos (by omega)] at h
                    cases hck : chk (dnum + ad') with
                    | none => rw [hck] at h; cases h
                    | some z =>
                      rw [hck] at h
                      simp only [Option.bind_some, Option.some.injEq, Prod.mk.injEq] at h
                      have hz : z = dnum + ad' ∧ Fits z := chk_some hck
                      rw [← h.2, reduce_val_of_fits hz.2, ← al.v1, ← al.v2, val, val, ← al.nd, Rat.mkRat_mul_mkRat, hz.1]
                      have e : (dnum + ad') * t2.num = t1.num * 10 ^ w' := by
                        have hp := pow10_pos (w - w')
                        apply Int.eq_of_mul_eq_mul_right (a := 10 ^ (w - w')) (by omega)
                        have hsplit : (10 : Int) ^ w = 10 ^ w' * 10 ^ (w - w') := by
                          rw [← Int.pow_add]; congr 1; omega
                        have hdm := Int.mul_tdiv_add_tmod t1.num t2.num
                        calc (dnum + ad') * t2.num * 10 ^ (w - w')
                            = t2.num * (t1.num.tdiv t2.num) * (10 ^ w' * 10 ^ (w - w')) + t2.num * (ad' * 10 ^ (w - w')) := by rw [m3]; grind
                          _ = t2.num * (t1.num.tdiv t2.num) * 10 ^ w + t1.num.tmod t2.num * 10 ^ w := by rw [← m4, ← hex, k1, hsplit]
                          _ = t1.num * 10 ^ w := by rw [← Int.add_mul, hdm]
                          _ = t1.num * 10 ^ w' * 10 ^ (w - w') := by rw [hsplit, Int.mul_assoc]
                      rw [e, Nat.mul_comm (10 ^ w')]
                      rw [← Nat.pow_add]
                      exact mkRat_scale t1.num t1.nd w'

example : divide ⟨1, 0⟩ ⟨4, 0⟩ .none = some (.success, ⟨25, 2⟩) ∧
    10 * (1 : Int).natAbs * 10 ^ 0 ≤ 9223372036854775807 * (4 : Int).natAbs * 10 ^ 0 := by decide +kernel

/-- 14 / 35 with either rounding mode is 0.40000000000000001 with success. -/
theorem divide_rounding_fails : divide ⟨14, 0⟩ ⟨35, 0⟩ .traditional = some (.success, ⟨40000000000000001, 17⟩) ∧
    divide ⟨14, 0⟩ ⟨35, 0⟩ .bankers = some (.success, ⟨40000000000000001, 17⟩) := by decide +kernel

/-- `5*10^18 / 1` is a negative number with success. -/
theorem divide_large_fails : divide ⟨5000000000000000000, 0⟩ ⟨1, 0⟩ .none = some (.success, ⟨-5340232221128654848, 0⟩) := by decide +kernel

end Verif.Decimal
