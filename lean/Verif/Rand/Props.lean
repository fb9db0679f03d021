import Verif.Rand.Period
import Mathlib.Algebra.BigOperators.Group.Finset.Basic
import Mathlib.Order.Interval.Finset.Nat
import Mathlib.Data.Finset.Card
/-! C75: the random number generator; C76: random numbers in a range and random strings. -/
namespace Verif.Rand

/-! ### Specification -/

/-- The state after `n` calls. -/
def calls (n : Nat) (st : St) : St := (fun s => (rand s).2)^[n] st

/-- The number returned by the call after `n` others. -/
def nth (n : Nat) (st : St) : BitVec 64 := (rand (calls n st)).1

/-! ### Lemmas -/

theorem calls_eq (n : Nat) (st : St) : calls n st = step^[n] st := rfl

/-- The second word that gives an output. -/
def outInv (v : BitVec 64) : BitVec 64 :=
  let x := v * 0x8E38E38E38E38E39
  ((x >>> 7) ||| (x <<< 57)) * 0xCCCCCCCCCCCCCCCD

theorem rotl_inv (x : BitVec 64) : (rotl x 7 >>> 7) ||| (rotl x 7 <<< 57) = x := by
  ext i hi
  simp only [rotl, BitVec.getElem_or, BitVec.getElem_shiftLeft, BitVec.getElem_ushiftRight, BitVec.getLsbD_or, BitVec.getLsbD_shiftLeft,
    BitVec.getLsbD_ushiftRight]
  have hx : x[i] = x.getLsbD i := (BitVec.getLsbD_eq_getElem hi).symm
  rw [hx]
  by_cases h : i < 57
  · have h1 : 7 + i < 64 := by omega
    have h2 : ¬ 7 + i < 7 := by omega
    have h3 : 7 + i - 7 = i := by omega
    have h4 : x.getLsbD (64 - 7 + (7 + i)) = false := BitVec.getLsbD_of_ge _ _ (by omega)
    simp [h, h1, h3, h4, hx]
  · have h1 : ¬ 7 + i < 64 := by omega
    have h2 : i - 57 < 7 := by omega
    have h3 : 64 - 7 + (i - 57) = i := by omega
    have h4 : x.getLsbD (64 - 7 + (7 + i)) = false := BitVec.getLsbD_of_ge _ _ (by omega)
    simp [h, h1, h2, h3, h4, hx]

theorem rotl_inv' (x : BitVec 64) : rotl ((x >>> 7) ||| (x <<< 57)) 7 = x := by
  ext i hi
  simp only [rotl, BitVec.getElem_or, BitVec.getElem_shiftLeft, BitVec.getElem_ushiftRight, BitVec.getLsbD_or, BitVec.getLsbD_shiftLeft,
    BitVec.getLsbD_ushiftRight]
  have hx : x[i] = x.getLsbD i := (BitVec.getLsbD_eq_getElem hi).symm
  rw [hx]
  by_cases h : i < 7
  · have h1 : 64 - 7 + i < 64 := by omega
    have h2 : ¬ 64 - 7 + i < 57 := by omega
    have h3 : 64 - 7 + i - 57 = i := by omega
    have h4 : x.getLsbD (7 + (64 - 7 + i)) = false := BitVec.getLsbD_of_ge _ _ (by omega)
    simp [h, h1, h3, h4, hx]
  · have h1 : ¬ 64 - 7 + i < 64 := by omega
    have h2 : i - 7 < 57 := by omega
    have h3 : 7 + (i - 7) = i := by omega
    have h4 : x.getLsbD (7 + (64 - 7 + i)) = false := BitVec.getLsbD_of_ge _ _ (by omega)
    have h5 : ¬ 7 + (i - 7) < 7 := by omega
    simp [h, h1, h2, h3, h4, hx]

theorem out_eq (st : St) (v : BitVec 64) : out st = v ↔ st.s1 = outInv v := by
  constructor
  · rintro rfl
    simp only [out, outInv]
    rw [BitVec.mul_assoc (rotl _ _), show (9 : BitVec 64) * 0x8E38E38E38E38E39 = 1#64 by decide, BitVec.mul_one, rotl_inv,
      BitVec.mul_assoc, show (5 : BitVec 64) * 0xCCCCCCCCCCCCCCCD = 1#64 by decide, BitVec.mul_one]
  · intro h
    simp only [out, h, outInv]
    rw [BitVec.mul_assoc _ _ (5 : BitVec 64), show (0xCCCCCCCCCCCCCCCD : BitVec 64) * 5 = 1#64 by decide, BitVec.mul_one, rotl_inv',
      BitVec.mul_assoc, show (0x8E38E38E38E38E39 : BitVec 64) * 9 = 1#64 by decide, BitVec.mul_one]

theorem outInv_eq_zero (v : BitVec 64) : outInv v = 0 ↔ v = 0 := by
  have h := out_eq ⟨0, 0, 0, 0⟩ v
  have h0 : out ⟨0, 0, 0, 0⟩ = 0 := by decide
  rw [h0] at h
  constructor
  · intro h1; exact (h.2 h1.symm).symm
  · intro h1; exact (h.1 h1.symm).symm

/-- Three words as a number. -/
def code3 (s : St) : Nat := s.s0.toNat + 2 ^ 64 * (s.s2.toNat + 2 ^ 64 * s.s3.toNat)

theorem code3_lt (s : St) : code3 s < 2 ^ 192 := by
  have h0 := s.s0.isLt; have h2 := s.s2.isLt; have h3 := s.s3.isLt
  unfold code3
  omega

theorem code3_inj {s t : St} (h : code3 s = code3 t) (h1 : s.s1 = t.s1) : s = t := by
  have h0 := s.s0.isLt; have h2 := s.s2.isLt; have h3 := s.s3.isLt
  have g0 := t.s0.isLt; have g2 := t.s2.isLt; have g3 := t.s3.isLt
  unfold code3 at h
  refine St.ext' ?_ h1 ?_ ?_ <;> apply BitVec.eq_of_toNat_eq <;> omega

theorem code3_surj (n : Nat) (hn : n < 2 ^ 192) (w : BitVec 64) : ∃ s : St, s.s1 = w ∧ code3 s = n := by
  refine ⟨⟨BitVec.ofNat 64 n, w, BitVec.ofNat 64 (n / 2 ^ 64), BitVec.ofNat 64 (n / 2 ^ 128)⟩, rfl, ?_⟩
  simp only [code3, BitVec.toNat_ofNat]
  omega

/-! ### C75 -/

/-- C75: a jump does what `2 ^ 128` calls do. -/
theorem jump_calls (st : St) : jump st = calls (2 ^ 128) st := by
  rw [jump_iter, calls_eq]

/-- C75: the generator comes back to its state after `2 ^ 256 - 1` calls and not before. -/
theorem calls_period {st : St} (h : st ≠ ⟨0, 0, 0, 0⟩) (n : Nat) : calls n st = st ↔ (2 ^ 256 - 1) ∣ n := by
  rw [calls_eq]
  exact iter_eq_self h n

/-- C75: from every state but zero every other one is reached. -/
theorem calls_reach {st t : St} (h : st ≠ ⟨0, 0, 0, 0⟩) (ht : t ≠ ⟨0, 0, 0, 0⟩) : ∃ n, n < 2 ^ 256 - 1 ∧ calls n st = t := by
  obtain ⟨n, hn, he⟩ := reach h ht
  exact ⟨n, hn, he⟩

/-- C75: the state never becomes zero. -/
theorem calls_ne_zero {st : St} (h : st ≠ ⟨0, 0, 0, 0⟩) (n : Nat) : calls n st ≠ ⟨0, 0, 0, 0⟩ := by
  rw [calls_eq]
  exact fun h1 => h (iter_eq_zero.1 h1)

/-- C75: a new generator is not in state zero. -/
theorem create_ne_zero (seed entropy : BitVec 64) : create seed entropy ≠ ⟨0, 0, 0, 0⟩ := by
  intro h
  simp only [create, jump_iter] at h
  have h1 := iter_eq_zero.1 h
  have h2 := congrArg St.s0 h1
  have h3 := congrArg St.s1 h1
  simp only [zero] at h2 h3
  rw [h2] at h3
  revert h3
  decide

/-- C75: generators with different seeds are in different states. -/
theorem create_inj {a b e e' : BitVec 64} (ha : a ≠ 0) (hb : b ≠ 0) (h : create a e = create b e') : a = b := by
  simp only [create, jump_iter, if_neg ha, if_neg hb] at h
  exact congrArg St.s0 (iter_injective _ h)

/-- C75: generators made by jumping from one another never meet within `2 ^ 128` calls each. -/
theorem jump_disjoint {st : St} (h : st ≠ ⟨0, 0, 0, 0⟩) {a b i j : Nat} (ha : a < 2 ^ 128 - 1) (hb : b < 2 ^ 128 - 1) (hi : i < 2 ^ 128)
    (hj : j < 2 ^ 128) (he : calls i (jump^[a] st) = calls j (jump^[b] st)) : a = b ∧ i = j := by
  have hjump : ∀ k (s : St), jump^[k] s = step^[k * 2 ^ 128] s := by
    intro k
    induction k with
    | zero => intro s; rw [Nat.zero_mul]; rfl
    | succ k ih => intro s; rw [Function.iterate_succ_apply, ih, jump_iter, ← Function.iterate_add_apply, Nat.succ_mul]
  rw [calls_eq, calls_eq, hjump, hjump, ← Function.iterate_add_apply, ← Function.iterate_add_apply] at he
  have hpd : period = 2 ^ 256 - 1 := rfl
  have := iter_inj h (by omega) (by omega) he
  omega

/-- C75: in one period every number except zero is returned `2 ^ 192` times, and zero once less. -/
theorem nth_count {st : St} (h : st ≠ ⟨0, 0, 0, 0⟩) (v : BitVec 64) :
    ((Finset.range period).filter fun n => nth n st = v).card = if v = 0 then 2 ^ 192 - 1 else 2 ^ 192 := by
  have hcard : (Finset.Ico (if v = 0 then 1 else 0) (2 ^ 192)).card = if v = 0 then 2 ^ 192 - 1 else 2 ^ 192 := by
    rw [Nat.card_Ico]; split <;> rfl
  rw [← hcard]
  have hs1 : ∀ n, nth n st = v ↔ (step^[n] st).s1 = outInv v := fun n => out_eq _ v
  apply Finset.card_bij (fun n _ => code3 (step^[n] st))
  · intro n hn
    rw [Finset.mem_filter, hs1] at hn
    rw [Finset.mem_Ico]
    refine ⟨?_, code3_lt _⟩
    split
    · rename_i h0
      have hne : step^[n] st ≠ zero := fun h1 => h (iter_eq_zero.1 h1)
      by_contra hc
      apply hne
      apply code3_inj
      · have : code3 zero = 0 := by decide
        omega
      · rw [hn.2, (outInv_eq_zero v).2 h0]; rfl
    · exact Nat.zero_le _
  · intro n hn m hm he
    rw [Finset.mem_filter, hs1, Finset.mem_range] at hn hm
    exact iter_inj h hn.1 hm.1 (code3_inj he (by rw [hn.2, hm.2]))
  · intro k hk
    rw [Finset.mem_Ico] at hk
    obtain ⟨t, ht1, ht2⟩ := code3_surj k hk.2 (outInv v)
    have hne : t ≠ zero := by
      rintro rfl
      have h0 : outInv v = 0 := ht1.symm
      rw [outInv_eq_zero] at h0
      rw [if_pos h0, ← ht2] at hk
      exact absurd hk.1 (by decide)
    obtain ⟨n, hn, he⟩ := reach h hne
    refine ⟨n, ?_, ?_⟩
    · rw [Finset.mem_filter, hs1, Finset.mem_range, he]
      exact ⟨hn, ht1⟩
    · rw [he, ht2]

example : create 1 0 ≠ ⟨0, 0, 0, 0⟩ := create_ne_zero 1 0

example : rand ⟨1, 2, 3, 4⟩ = (11520, ⟨7, 0, 262146, 211106232532992⟩) := by decide

/-! ### C76 -/

/-- C76: an empty range gives its lower end, a reversed one gives zero; nothing is drawn. -/
theorem range_empty (n : Nat) (st : St) {min max : BitVec 64} (h : max ≤ min) :
    range (n + 1) st min max = some (if min = max then min else 0, st) := by
  rw [range, if_pos h]
  split <;> rfl

theorem range_succ (n : Nat) (st : St) {min max : BitVec 64} (h : min < max) : range (n + 1) st min max =
    if (out st).toNat < (2 ^ 64 - 1) / (max.toNat - min.toNat) * (max.toNat - min.toNat) then
      some (BitVec.ofNat 64 (min.toNat + (out st).toNat / ((2 ^ 64 - 1) / (max.toNat - min.toNat))), step st)
    else range n (step st) min max := by
  have hlt : min.toNat < max.toNat := h
  have hmax := max.isLt
  have hd : (max - min).toNat = max.toNat - min.toNat := by
    rw [BitVec.toNat_sub_of_le (BitVec.le_of_lt h)]
  have hM : randMax.toNat = 2 ^ 64 - 1 := by decide
  generalize hR : max.toNat - min.toNat = R at *
  have hb : (randMax - randMax % (max - min)).toNat = (2 ^ 64 - 1) / R * R := by
    have hle : randMax % (max - min) ≤ randMax := by
      show (randMax % (max - min)).toNat ≤ randMax.toNat
      rw [BitVec.toNat_umod]; exact Nat.mod_le _ _
    rw [BitVec.toNat_sub_of_le hle, BitVec.toNat_umod, hd, hM]
    have := Nat.div_add_mod (2 ^ 64 - 1) R
    rw [Nat.mul_comm] at this
    omega
  rw [range, if_neg (by show ¬ max.toNat ≤ min.toNat; omega)]
  show (if out st ≥ randMax - randMax % (max - min) then range n (step st) min max
    else some (min + out st / (randMax / (max - min)), step st)) = _
  by_cases ha : (out st).toNat < (2 ^ 64 - 1) / R * R
  · rw [if_pos ha, if_neg (show ¬ out st ≥ randMax - randMax % (max - min) by
      show ¬ (randMax - randMax % (max - min)).toNat ≤ (out st).toNat
      rw [hb]; omega)]
    have he : min + out st / (randMax / (max - min)) = BitVec.ofNat 64 (min.toNat + (out st).toNat / ((2 ^ 64 - 1) / R)) := by
      apply BitVec.eq_of_toNat_eq
      rw [BitVec.toNat_add, BitVec.toNat_udiv, BitVec.toNat_udiv, hd, hM, BitVec.toNat_ofNat]
    rw [he]
  · rw [if_neg ha, if_pos (show out st ≥ randMax - randMax % (max - min) by
      show (randMax - randMax % (max - min)).toNat ≤ (out st).toNat
      rw [hb]; omega)]

theorem div_group {r g R : Nat} (hr : r < g * R) : r / g < R := by
  have hg : 0 < g := Nat.pos_of_ne_zero (by rintro rfl; simp at hr)
  exact (Nat.div_lt_iff_lt_mul hg).2 (by rwa [Nat.mul_comm])

/-- C76: a number drawn from a range lies in it. -/
theorem range_bounds {n : Nat} {st st' : St} {min max v : BitVec 64} (h : min < max) (hr : range n st min max = some (v, st')) :
    min ≤ v ∧ v < max := by
  have hlt : min.toNat < max.toNat := h
  have hmax := max.isLt
  induction n generalizing st with
  | zero => simp [range] at hr
  | succ n ih =>
    rw [range_succ n st h] at hr
    split at hr
    · rename_i ha
      have := div_group ha
      simp only [Option.some.injEq, Prod.mk.injEq] at hr
      rw [← hr.1]
      constructor
      · show min.toNat ≤ BitVec.toNat _
        rw [BitVec.toNat_ofNat, Nat.mod_eq_of_lt (by omega)]
        exact Nat.le_add_right _ _
      · show BitVec.toNat _ < max.toNat
        rw [BitVec.toNat_ofNat, Nat.mod_eq_of_lt (by omega)]
        omega
    · exact ih hr

theorem range_mono {n : Nat} {st : St} {min max : BitVec 64} {r : BitVec 64 × St} (hr : range n st min max = some r) :
    ∀ m, n ≤ m → range m st min max = some r := by
  induction n generalizing st with
  | zero => simp [range] at hr
  | succ n ih =>
    intro m hm
    obtain ⟨m, rfl⟩ : ∃ k, m = k + 1 := ⟨m - 1, by omega⟩
    by_cases h : min < max
    · rw [range_succ n st h] at hr
      rw [range_succ m st h]
      split at hr
      · rename_i ha; rw [if_pos ha]; exact hr
      · rename_i ha; rw [if_neg ha]; exact ih hr m (by omega)
    · rw [range_empty _ _ (by show max.toNat ≤ min.toNat; have : ¬ min.toNat < max.toNat := h; omega)] at hr ⊢
      exact hr

theorem groups_pos {min max : BitVec 64} (h : min < max) : 0 < (2 ^ 64 - 1) / (max.toNat - min.toNat) := by
  have hlt : min.toNat < max.toNat := h
  have hmax := max.isLt
  exact Nat.div_pos (by omega) (by omega)

/-- C76: a number is drawn in the end, in whatever state the generator is; the draws made are the shortest run that ends with one
that is accepted. -/
theorem range_terminates (st : St) (min max : BitVec 64) : ∃ n v st', range n st min max = some (v, st') := by
  by_cases h : min < max
  · have hlt : min.toNat < max.toNat := h
    have key : ∀ k st, out (step^[k] st) = 0 → ∃ n v st', range n st min max = some (v, st') := by
      intro k
      induction k with
      | zero =>
        intro st h0
        have h0 : out st = 0 := h0
        refine ⟨1, ?_⟩
        have hp : 0 < (2 ^ 64 - 1) / (max.toNat - min.toNat) * (max.toNat - min.toNat) := Nat.mul_pos (groups_pos h) (Nat.sub_pos_of_lt hlt)
        have hz : (0 : BitVec 64).toNat = 0 := rfl
        rw [range_succ 0 st h, h0, hz, if_pos hp]
        exact ⟨_, _, rfl⟩
      | succ k ih =>
        intro st h0
        obtain ⟨n, v, st', hn⟩ := ih (step st) h0
        by_cases ha : (out st).toNat < (2 ^ 64 - 1) / (max.toNat - min.toNat) * (max.toNat - min.toNat)
        · exact ⟨1, _, _, by rw [range_succ 0 st h, if_pos ha]⟩
        · exact ⟨n + 1, v, st', by rw [range_succ n st h, if_neg ha, hn]⟩
    by_cases hz : st = zero
    · subst hz; exact key 0 _ (by decide)
    · obtain ⟨k, _, hk⟩ := reach (t := ⟨1, 0, 0, 0⟩) hz (by decide)
      exact key k st (by rw [hk]; decide)
  · exact ⟨1, _, _, range_empty 0 st (by show max.toNat ≤ min.toNat; have : ¬ min.toNat < max.toNat := h; omega)⟩

theorem out_nth (n : Nat) (st : St) : out (calls n st) = nth n st := rfl

/-- C76: the draws are fair.  Over one period of the generator every number of the range comes from the same number of states that
draw once, except that the lower end has one less. -/
theorem range_fair {st : St} (h : st ≠ ⟨0, 0, 0, 0⟩) {min max v : BitVec 64} (hv : min ≤ v) (hv' : v < max) :
    ((Finset.range period).filter fun n => (range 1 (calls n st) min max).map Prod.fst = some v).card =
      (2 ^ 64 - 1) / (max.toNat - min.toNat) * 2 ^ 192 - if v = min then 1 else 0 := by
  have hlt : min < max := by
    have h1 : min.toNat ≤ v.toNat := hv
    have h2 : v.toNat < max.toNat := hv'
    show min.toNat < max.toNat
    omega
  have h1 : min.toNat ≤ v.toNat := hv
  have h2 : v.toNat < max.toNat := hv'
  have hmax := max.isLt
  have hg := groups_pos hlt
  generalize hgg : (2 ^ 64 - 1) / (max.toNat - min.toNat) = g at *
  have hgR : g * (max.toNat - min.toNat) ≤ 2 ^ 64 - 1 := by rw [← hgg]; exact Nat.div_mul_le_self _ _
  have hk1 : (v.toNat - min.toNat) * g + g ≤ g * (max.toNat - min.toNat) := by
    rw [← Nat.succ_mul, Nat.mul_comm g]
    exact Nat.mul_le_mul_right g (by omega)
  have hiff : ∀ n, (range 1 (calls n st) min max).map Prod.fst = some v ↔
      (nth n st).toNat ∈ Finset.Ico ((v.toNat - min.toNat) * g) ((v.toNat - min.toNat) * g + g) := by
    intro n
    rw [range_succ 0 _ hlt, out_nth, hgg, Finset.mem_Ico]
    generalize hr : (nth n st).toNat = r
    have hdv : r / g = v.toNat - min.toNat ↔ (v.toNat - min.toNat) * g ≤ r ∧ r < (v.toNat - min.toNat) * g + g := by
      rw [Nat.div_eq_iff hg]
      constructor
      · rintro ⟨a, b⟩; exact ⟨a, by omega⟩
      · rintro ⟨a, b⟩; exact ⟨a, by omega⟩
    by_cases ha : r < g * (max.toNat - min.toNat)
    · rw [if_pos ha, ← hdv]
      have hd := div_group ha
      simp only [Option.map_some, Option.some.injEq]
      constructor
      · intro he
        have := congrArg BitVec.toNat he
        rw [BitVec.toNat_ofNat, Nat.mod_eq_of_lt (by omega)] at this
        omega
      · intro he
        apply BitVec.eq_of_toNat_eq
        rw [BitVec.toNat_ofNat, Nat.mod_eq_of_lt (by omega)]
        omega
    · rw [if_neg ha]
      simp only [range, Option.map_none, reduceCtorEq, false_iff]
      rintro ⟨_, hb⟩
      omega
  rw [Finset.filter_congr (fun n _ => hiff n)]
  rw [Finset.card_eq_sum_card_fiberwise (f := fun n => (nth n st).toNat) (t := Finset.Ico ((v.toNat - min.toNat) * g) ((v.toNat - min.toNat) * g + g))
    (fun n hn => by simpa using (Finset.mem_filter.1 hn).2)]
  have hcount : ∀ r ∈ Finset.Ico ((v.toNat - min.toNat) * g) ((v.toNat - min.toNat) * g + g),
      (((Finset.range period).filter fun n => (nth n st).toNat ∈ Finset.Ico ((v.toNat - min.toNat) * g) ((v.toNat - min.toNat) * g + g)).filter
        fun n => (nth n st).toNat = r).card = if r = 0 then 2 ^ 192 - 1 else 2 ^ 192 := by
    intro r hr
    have hr' := Finset.mem_Ico.1 hr
    have hrlt : r < 2 ^ 64 := by omega
    have hc := nth_count h (BitVec.ofNat 64 r)
    have h0 : BitVec.ofNat 64 r = 0 ↔ r = 0 := by
      constructor
      · intro h
        have := congrArg BitVec.toNat h
        rw [BitVec.toNat_ofNat, Nat.mod_eq_of_lt hrlt] at this
        exact this
      · rintro rfl; rfl
    simp only [h0] at hc
    rw [← hc, Finset.filter_filter]
    refine congrArg Finset.card (Finset.filter_congr ?_)
    intro n _
    constructor
    · rintro ⟨_, he⟩
      rw [← he]; simp
    · intro he
      have he' : (nth n st).toNat = r := by rw [he, BitVec.toNat_ofNat, Nat.mod_eq_of_lt hrlt]
      exact ⟨by rw [he']; exact hr, he'⟩
  rw [Finset.sum_congr rfl hcount]
  have hsum : ∀ a g : Nat, 0 < g → ∑ r ∈ Finset.Ico (a * g) (a * g + g), (if r = 0 then 2 ^ 192 - 1 else 2 ^ 192) =
      g * 2 ^ 192 - if a = 0 then 1 else 0 := by
    intro a g hg
    by_cases ha : a = 0
    · subst ha
      rw [Nat.zero_mul, Nat.zero_add, if_pos rfl, Finset.sum_eq_sum_Ico_succ_bot hg, if_pos rfl]
      rw [Finset.sum_congr rfl (g := fun _ => 2 ^ 192) (fun r hr => if_neg (by have := Finset.mem_Ico.1 hr; omega))]
      rw [Finset.sum_const, Nat.card_Ico, smul_eq_mul]
      obtain ⟨g, rfl⟩ : ∃ k, g = k + 1 := ⟨g - 1, by omega⟩
      rw [Nat.add_mul]
      omega
    · rw [if_neg ha, Finset.sum_congr rfl (g := fun _ => 2 ^ 192) (fun r hr => if_neg (by
        have := Finset.mem_Ico.1 hr
        have : 0 < a * g := Nat.mul_pos (by omega) hg
        omega))]
      rw [Finset.sum_const, Nat.card_Ico, smul_eq_mul]
      omega
  rw [hsum _ _ hg]
  have : v.toNat - min.toNat = 0 ↔ v = min := by
    constructor
    · intro h; apply BitVec.eq_of_toNat_eq; omega
    · rintro rfl; omega
  simp only [this]

theorem strLoop_sound {n : Nat} {cs : List UInt8} (h0 : cs ≠ []) (hlen : cs.length < 2 ^ 64) : ∀ len st acc r, strLoop n cs len st acc = some r →
    ∃ s : List UInt8, r.1 = some (acc ++ s) ∧ s.length = len ∧ ∀ c ∈ s, c ∈ cs := by
  intro len
  induction len with
  | zero => intro st acc r h; simp only [strLoop, Option.some.injEq] at h; subst h; exact ⟨[], by simp, rfl, by simp⟩
  | succ len ih =>
    intro st acc r h
    rw [strLoop] at h
    have hpos : 0 < cs.length := List.length_pos_iff.2 h0
    have hc : (BitVec.ofNat 64 cs.length).toNat = cs.length := by rw [BitVec.toNat_ofNat, Nat.mod_eq_of_lt hlen]
    cases hr : range n st 0 (BitVec.ofNat 64 cs.length) with
    | none => rw [hr] at h; simp at h
    | some x =>
      obtain ⟨i, st'⟩ := x
      rw [hr] at h
      have hb := (range_bounds (by show (0 : BitVec 64).toNat < (BitVec.ofNat 64 cs.length).toNat; rw [hc]; exact hpos) hr).2
      have hi : i.toNat < cs.length := by
        have : i.toNat < (BitVec.ofNat 64 cs.length).toNat := hb
        rwa [hc] at this
      simp only [List.getElem?_eq_getElem hi] at h
      obtain ⟨s, h1, h2, h3⟩ := ih _ _ _ h
      refine ⟨cs[i.toNat] :: s, by rw [h1]; simp, by simp [h2], ?_⟩
      intro c hc
      rcases List.mem_cons.1 hc with rfl | hc
      · exact List.getElem_mem hi
      · exact h3 c hc

theorem strLoop_mono {n : Nat} {cs : List UInt8} : ∀ len st acc r, strLoop n cs len st acc = some r → ∀ m, n ≤ m → strLoop m cs len st acc = some r := by
  intro len
  induction len with
  | zero => intro st acc r h m hm; exact h
  | succ len ih =>
    intro st acc r h m hm
    rw [strLoop] at h ⊢
    cases hr : range n st 0 (BitVec.ofNat 64 cs.length) with
    | none => rw [hr] at h; simp at h
    | some x =>
      rw [hr] at h
      rw [range_mono hr m hm]
      obtain ⟨i, st'⟩ := x
      simp only at h ⊢
      cases hi : cs[i.toNat]? with
      | none => rw [hi] at h; exact h
      | some c => rw [hi] at h; exact ih _ _ _ h m hm

theorem strLoop_terminates (cs : List UInt8) : ∀ len st acc, ∃ n r, strLoop n cs len st acc = some r := by
  intro len
  induction len with
  | zero => intro st acc; exact ⟨0, _, rfl⟩
  | succ len ih =>
    intro st acc
    obtain ⟨n, v, st', hr⟩ := range_terminates st 0 (BitVec.ofNat 64 cs.length)
    cases hi : cs[v.toNat]? with
    | none => exact ⟨n, (none, st'), by rw [strLoop, hr]; simp only [hi]⟩
    | some c =>
      obtain ⟨m, r, hm⟩ := ih st' (acc ++ [c])
      refine ⟨max n m, r, ?_⟩
      rw [strLoop, range_mono hr _ (Nat.le_max_left _ _)]
      simp only [hi]
      exact strLoop_mono _ _ _ _ hm _ (Nat.le_max_right _ _)

/-- C76: a random string is made, in whatever state the generator is; it has the length that was asked for, is made of the characters
of the set, and ends with a null byte.  Nothing outside the set is read. -/
theorem randStr_spec (st : St) {cs : List UInt8} (h0 : cs ≠ []) (hlen : cs.length < 2 ^ 64) {len : Nat} (hl : len ≠ 0) :
    (∃ n r, randStr n st cs len = some r) ∧
    ∀ n r, randStr n st cs len = some r → ∃ s : List UInt8, r = some (s ++ [0]) ∧ s.length = len ∧ ∀ c ∈ s, c ∈ cs := by
  have hne : ¬ (cs.length = 0 ∨ len = 0) := by
    rintro (h | h)
    · exact h0 (List.length_eq_zero_iff.1 h)
    · exact hl h
  constructor
  · obtain ⟨n, r, h⟩ := strLoop_terminates cs len st []
    exact ⟨n, _, by rw [randStr, if_neg hne, h]; rfl⟩
  · intro n r h
    rw [randStr, if_neg hne] at h
    cases hx : strLoop n cs len st [] with
    | none => rw [hx] at h; simp at h
    | some x =>
      rw [hx] at h
      obtain ⟨s, h1, h2, h3⟩ := strLoop_sound h0 hlen len st [] x hx
      simp only [Option.map_some, Option.some.injEq] at h
      refine ⟨s, ?_, h2, h3⟩
      rw [← h, h1]
      simp

example : range 5 ⟨1, 2, 3, 4⟩ 10 20 = some (10, ⟨7, 0, 262146, 211106232532992⟩) := by decide

example : randStr 5 ⟨1, 0xFEDCBA9876543210, 3, 0x123456789ABCDEF⟩ [97, 98, 99] 4 = some (some [98, 98, 99, 99, 0]) := by decide +kernel

end Verif.Rand
