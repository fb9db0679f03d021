import Verif.Textcodec.Punycode
import Verif.Utf8.Props
/- Punycode (C50). -/
namespace Verif.Textcodec.Puny
open Verif.Textcodec

/-! ### The bias -/

theorem adaptLoop_ok : ∀ (j fuel d k : Nat), d < 456 * 35 ^ j → j < fuel →
    ∃ d' k', adaptLoop fuel d k = some (d', k') ∧ k' ≤ k + 36 * j := by
  intro j
  induction j with
  | zero =>
    intro fuel d k hd hf
    cases fuel with
    | zero => omega
    | succ fuel => exact ⟨d, k, by rw [adaptLoop, if_neg (by omega)], by omega⟩
  | succ j ih =>
    intro fuel d k hd hf
    cases fuel with
    | zero => omega
    | succ fuel =>
      rw [adaptLoop]
      split
      · rw [Nat.pow_succ] at hd
        obtain ⟨d', k', h1, h2⟩ := ih fuel (d / 35) (k + 36) (by omega) (by omega)
        exact ⟨d', k', h1, by omega⟩
      · exact ⟨d, k, rfl, by omega⟩

theorem adapt_ok (delta np : Nat) (first : Bool) (hn : np ≠ 0) : ∃ b, adapt delta np first = some b ∧ b ≤ 215 := by
  unfold adapt
  rw [if_neg hn]
  obtain ⟨d', k', h1, h2⟩ := adaptLoop_ok 5 32 (((if first then delta / 700 else delta / 2) + (if first then delta / 700 else delta / 2) / np) % M) 0
    (Nat.lt_of_lt_of_le (Nat.mod_lt _ (by decide)) (by decide)) (by decide)
  simp only [h1, Option.map_some]
  refine ⟨_, rfl, ?_⟩
  have : 36 * d' / (d' + 38) < 36 := by rw [Nat.div_lt_iff_lt_mul (by omega)]; omega
  omega

/-! ### Digits -/

theorem digit_ok (d : Nat) (h : d < 36) : decodeDigit (encodeDigit d) = d ∧ encodeDigit d ≠ 45 ∧ encodeDigit d < 128 := by
  have : ∀ k : Fin 36, decodeDigit (encodeDigit k) = k ∧ encodeDigit k ≠ 45 ∧ encodeDigit k < 128 := by decide +kernel
  exact this ⟨d, h⟩

theorem threshold_range (k bias : Nat) : 1 ≤ threshold k bias ∧ threshold k bias ≤ 26 := by
  unfold threshold
  split
  · omega
  · split <;> omega

/-- A text of digits. -/
def Plain (ds : List UInt8) : Prop := ∀ c ∈ ds, c ≠ 45 ∧ c < 128

/-- The decoder reads the digits of `q` as `q`. -/
theorem digits (bias : Nat) (hb : bias ≤ 215) : ∀ (fuel s q w i : Nat), q < 10 ^ fuel → i + q * w ≤ M - 1 → 0 < w → s + fuel < 100 →
    (w = 35 ^ s ∨ 36 * (s + 1) ≥ bias + 26) → ∃ ds, encDigits bias (fuel + 1) (36 * (s + 1)) q = some ds ∧ ds ≠ [] ∧ Plain ds ∧
      ∀ rest, decVar bias (ds ++ rest) (36 * (s + 1)) i w = some (i + q * w, rest) := by
  intro fuel
  induction fuel with
  | zero =>
    intro s q w i hq hi hw hs _
    obtain ⟨t1, t2⟩ := threshold_range (36 * (s + 1) % M) bias
    have h0 : q = 0 := by simpa using hq
    subst h0
    obtain ⟨g1, g2, g3⟩ := digit_ok 0 (by decide)
    refine ⟨[encodeDigit 0], by rw [encDigits, if_pos (by omega)], by simp, by simpa [Plain] using ⟨g2, g3⟩, fun rest => ?_⟩
    rw [List.cons_append, List.nil_append, decVar]
    simp only [g1]
    rw [if_neg (by omega), if_neg (Nat.not_lt_zero _), if_pos (by omega), Nat.zero_mul]
  | succ fuel ih =>
    intro s q w i hq hi hw hs hinv
    obtain ⟨t1, t2⟩ := threshold_range (36 * (s + 1) % M) bias
    have hkm : 36 * (s + 1) % M = 36 * (s + 1) := Nat.mod_eq_of_lt (by rw [M]; omega)
    have hle : ∀ d, d * w ≤ q * w → ¬ d > (M - 1 - i) / w := by
      intro d hd hgt
      have : d ≤ (M - 1 - i) / w := (Nat.le_div_iff_mul_le hw).2 (by omega)
      omega
    rw [encDigits]
    generalize ht : threshold (36 * (s + 1) % M) bias = t at *
    by_cases hqt : q < t
    · obtain ⟨g1, g2, g3⟩ := digit_ok q (by omega)
      refine ⟨[encodeDigit q], by rw [if_pos hqt], by simp, by simpa [Plain] using ⟨g2, g3⟩, fun rest => ?_⟩
      rw [List.cons_append, List.nil_append, decVar]
      simp only [g1, ht]
      rw [if_neg (by omega), if_neg (hle q (Nat.le_refl _)), if_pos hqt]
    · have hdm := Nat.div_add_mod (q - t) (36 - t)
      have hml := Nat.mod_lt (q - t) (show 36 - t > 0 by omega)
      generalize hq' : (q - t) / (36 - t) = q' at *
      generalize hr : (q - t) % (36 - t) = r at *
      have hqe : q = t + r + q' * (36 - t) := by rw [Nat.mul_comm] at hdm; omega
      have hmul : q * w = (t + r) * w + q' * (w * (36 - t)) := by
        rw [hqe, Nat.add_mul, Nat.mul_assoc, Nat.mul_comm (36 - t) w]
      have hdle : (t + r) * w ≤ q * w := by rw [hmul]; exact Nat.le_add_right _ _
      -- the multiplier does not overflow
      have hwmax : w * (36 - t) ≤ M - 1 := by
        have hqw : q * w ≤ M - 1 := by omega
        by_cases h18 : 18 ≤ t
        · refine Nat.le_trans ?_ hqw
          rw [Nat.mul_comm]
          exact Nat.mul_le_mul_right w (by omega)
        · rw [hkm] at ht
          have hk : 36 * (s + 1) < bias + 18 := by
            unfold threshold at ht
            split at ht
            · omega
            · split at ht <;> omega
          have hw35 : w = 35 ^ s := by
            rcases hinv with h | h
            · exact h
            · omega
          have hs5 : s ≤ 5 := by omega
          have h5 : 35 ^ s ≤ 35 ^ 5 := Nat.pow_le_pow_right (by decide) hs5
          rw [hw35]
          refine Nat.le_trans (Nat.mul_le_mul h5 (show 36 - t ≤ 35 by omega)) (by decide)
      have hq10 : q' < 10 ^ fuel := by
        rw [Nat.pow_succ] at hq
        rw [← hq', Nat.div_lt_iff_lt_mul (by omega)]
        have : 10 ^ fuel * 10 ≤ 10 ^ fuel * (36 - t) := Nat.mul_le_mul_left _ (by omega)
        omega
      have hinv' : w * (36 - t) = 35 ^ (s + 1) ∨ 36 * (s + 1 + 1) ≥ bias + 26 := by
        rw [hkm] at ht
        by_cases h1 : t = 1
        · rcases hinv with h | h
          · left; rw [h, h1, Nat.pow_succ]
          · right; omega
        · right
          unfold threshold at ht
          split at ht
          · omega
          · omega
      obtain ⟨ds, h1, h2, h3, h4⟩ := ih (s + 1) q' (w * (36 - t)) (i + (t + r) * w) hq10 (by omega) (Nat.mul_pos hw (by omega)) (by omega) hinv'
      obtain ⟨g1, g2, g3⟩ := digit_ok (t + r) (by omega)
      refine ⟨encodeDigit (t + r) :: ds, ?_, by simp, ?_, fun rest => ?_⟩
      · rw [if_neg hqt, show 36 * (s + 1) + 36 = 36 * (s + 1 + 1) by omega, h1]
        rfl
      · intro c hc
        rcases List.mem_cons.1 hc with h | h
        · rw [h]; exact ⟨g2, g3⟩
        · exact h3 c h
      · rw [List.cons_append, decVar]
        simp only [g1, ht]
        have hng : ¬ w > (M - 1) / (36 - t) := by
          have : w ≤ (M - 1) / (36 - t) := (Nat.le_div_iff_mul_le (by omega)).2 hwmax
          omega
        rw [if_neg (by omega), if_neg (hle _ hdle), if_neg (by omega), if_neg hng, show 36 * (s + 1) + 36 = 36 * (s + 1 + 1) by omega, h4,
          hmul, Nat.add_assoc]

/-! ### One pass of the encoder and the decoder -/

open Verif.Utf8 (utf8 flat Good Allowed)

/-- Reading `ds` leads the decoder from `d` to `d'`. -/
def Run (ds : List UInt8) (d d' : Dec) : Prop :=
  ∃ c, c ≤ ds.length ∧ ∀ rest fuel, decLoop (fuel + c) (ds ++ rest) d = decLoop fuel rest d'

theorem Run.nil (d : Dec) : Run [] d d := ⟨0, Nat.le_refl _, fun _ _ => rfl⟩

theorem Run.trans {a b : List UInt8} {d1 d2 d3 : Dec} (h1 : Run a d1 d2) (h2 : Run b d2 d3) : Run (a ++ b) d1 d3 := by
  obtain ⟨c1, l1, r1⟩ := h1
  obtain ⟨c2, l2, r2⟩ := h2
  refine ⟨c1 + c2, by simp; omega, fun rest fuel => ?_⟩
  rw [List.append_assoc, show fuel + (c1 + c2) = fuel + c2 + c1 by omega, r1, r2]

/-- The state of the encoder in the pass for `n`, with `P` done and `R` ahead, beside the state of the decoder that has read
everything written. -/
structure Sync (b n : Nat) (P R : List Nat) (e : Enc) (d : Dec) : Prop where
  l : d.l = (P.filter (· ≤ n) ++ R.filter (· < n)).map utf8
  h : e.h = d.l.length
  pos : e.delta + d.i + d.n * (e.h + 1) = n * (e.h + 1) + (P.filter (· ≤ n)).length
  bias : e.bias = d.bias
  bound : e.bias ≤ 215
  le : d.n ≤ n
  ge : 128 ≤ d.n
  first : d.i = 0 ↔ e.h = b
  base : b ≤ e.h

/-- The numbers do not overflow for texts of `len` code points up to `B`. -/
def Fits (B len : Nat) : Prop := 128 ≤ B ∧ B ≤ 0x10FFFF ∧ (B - 127) * (len + 1) < M

theorem Sync.small {b n B : Nat} {P R : List Nat} {e : Enc} {d : Dec} (s : Sync b n P R e d) (hn : n ≤ B) (hf : Fits B (P.length + R.length)) :
    ∃ k j, n = d.n + k ∧ j = (P.filter (· ≤ n)).length ∧ j ≤ e.h ∧ e.h + 1 < M ∧ e.delta + d.i = k * (e.h + 1) + j ∧ e.delta + d.i < M - 1 := by
  obtain ⟨hB, hB2, hM⟩ := hf
  have hl := s.h
  rw [s.l, List.length_map, List.length_append] at hl
  have p1 := List.length_filter_le (fun x => decide (x ≤ n)) P
  have p2 := List.length_filter_le (fun x => decide (x < n)) R
  obtain ⟨k, hk⟩ := Nat.le.dest s.le
  refine ⟨k, _, hk.symm, rfl, by omega, ?_, ?_⟩
  · have : 1 * (P.length + R.length + 1) ≤ (B - 127) * (P.length + R.length + 1) := Nat.mul_le_mul_right _ (by omega)
    omega
  · have hp := s.pos
    rw [← hk, Nat.add_mul] at hp
    rw [hk] at hp
    have e1 : e.delta + d.i = k * (e.h + 1) + (P.filter (· ≤ n)).length := by omega
    refine ⟨e1, ?_⟩
    have h1 : k * (e.h + 1) ≤ (B - 128) * (P.length + R.length + 1) := Nat.mul_le_mul (by have := s.ge; omega) (by omega)
    have h2 : (B - 127) * (P.length + R.length + 1) = (B - 128) * (P.length + R.length + 1) + (P.length + R.length + 1) := by
      rw [show B - 127 = B - 128 + 1 by omega, Nat.succ_mul]
    omega

theorem decLoop_step {d : Dec} {ds : List UInt8} {delta k j bias : Nat} (hne : ds ≠ [])
    (hd : ∀ rest, decVar d.bias (ds ++ rest) 36 d.i 1 = some (d.i + delta, rest)) (hi : delta + d.i = k * (d.l.length + 1) + j) (hj : j ≤ d.l.length)
    (hl : d.l.length + 1 < M) (hk : k < M) (hn : d.n + k < M) (ha : adapt delta (d.l.length + 1) (d.i == 0) = some bias) (hok : Allowed (d.n + k)) :
    Run ds d ⟨j + 1, d.n + k, bias, d.l.take j ++ utf8 (d.n + k) :: d.l.drop j⟩ := by
  refine ⟨1, ?_, fun rest fuel => ?_⟩
  · cases ds with
    | nil => exact absurd rfl hne
    | cons => simp
  · have h1 := hd rest
    cases ds with
    | nil => exact absurd rfl hne
    | cons c ds =>
      rw [List.cons_append] at h1 ⊢
      rw [decLoop, h1]
      simp only []
      have hi' : d.i + delta = (d.l.length + 1) * k + j := by rw [Nat.mul_comm]; omega
      have e1 : d.i + delta - d.i = delta := by omega
      have e2 : (d.l.length + 1) % M = d.l.length + 1 := Nat.mod_eq_of_lt hl
      have e3 : (d.i + delta) / (d.l.length + 1) = k := by
        rw [hi', Nat.mul_add_div (by omega), Nat.div_eq_of_lt (by omega), Nat.add_zero]
      have e4 : (d.i + delta) % (d.l.length + 1) = j := by
        rw [hi', Nat.mul_add_mod, Nat.mod_eq_of_lt (by omega)]
      have hfit : (utf8 (d.n + k)).length ≤ 8 := by
        unfold utf8
        repeat' split
        all_goals simp
      rw [e1, e2, e3, e4, Nat.mod_eq_of_lt hk, Nat.mod_eq_of_lt hn, ha]
      simp only [Option.bind_some]
      rw [if_neg (by omega), Utf8.fromCp_eq, if_pos hok, if_pos hfit]

/-- The pass. -/
theorem pass (b n B : Nat) (hnB : n ≤ B) : ∀ (R P : List Nat) (e : Enc) (d : Dec), Sync b n P R e d → Fits B (P.length + R.length) →
    (∀ c ∈ R, Allowed c) → ∃ e' d' ds, encPass b n R e = some (some e') ∧ e'.out = e.out ++ ds ∧ Plain ds ∧ Run ds d d' ∧
      Sync b n (P ++ R) [] e' d' := by
  intro R
  induction R with
  | nil =>
    intro P e d s _ _
    exact ⟨e, d, [], rfl, by simp, by simp [Plain], Run.nil d, by simpa using s⟩
  | cons c R ih =>
    intro P e d s hf hal
    obtain ⟨k, j, hk, hj, hjh, hhM, hsum, hlt⟩ := s.small hnB hf
    have hf' : Fits B ((P ++ [c]).length + R.length) := by
      have : (P ++ [c]).length + R.length = P.length + (c :: R).length := by simp; omega
      rw [this]; exact hf
    have hal' : ∀ c ∈ R, Allowed c := fun x hx => hal x (List.mem_cons_of_mem _ hx)
    rw [encPass]
    by_cases h1 : c < n
    · rw [if_pos h1, if_neg (by omega)]
      have s' : Sync b n (P ++ [c]) R ⟨e.delta + 1, e.bias, e.h, e.out⟩ d := by
        have ef : (P ++ [c]).filter (· ≤ n) = P.filter (· ≤ n) ++ [c] := by simp [Nat.le_of_lt h1]
        have eg : (c :: R).filter (· < n) = c :: R.filter (· < n) := by simp [h1]
        refine ⟨?_, s.h, ?_, s.bias, s.bound, s.le, s.ge, s.first, s.base⟩
        · rw [s.l, ef, eg]; simp
        · have := s.pos
          rw [ef, List.length_append, List.length_singleton]
          simp only []
          omega
      obtain ⟨e', d', ds, q1, q2, q3, q4, q5⟩ := ih _ _ _ s' hf' hal'
      exact ⟨e', d', ds, q1, q2, q3, q4, by simpa using q5⟩
    · rw [if_neg h1]
      by_cases h2 : c > n
      · rw [if_pos h2]
        have s' : Sync b n (P ++ [c]) R e d := by
          have ef : (P ++ [c]).filter (· ≤ n) = P.filter (· ≤ n) := by simp [h2]
          have eg : (c :: R).filter (· < n) = R.filter (· < n) := by simp [h1]
          refine ⟨?_, s.h, ?_, s.bias, s.bound, s.le, s.ge, s.first, s.base⟩
          · rw [s.l, ef, eg]
          · rw [ef]; exact s.pos
        obtain ⟨e', d', ds, q1, q2, q3, q4, q5⟩ := ih _ _ _ s' hf' hal'
        exact ⟨e', d', ds, q1, q2, q3, q4, by simpa using q5⟩
      · rw [if_neg h2]
        have hc : c = n := by omega
        have hBM : B < M := by have := hf.2.1; rw [M]; omega
        obtain ⟨ds, g1, g2, g3, g4⟩ := digits e.bias s.bound 63 0 e.delta 1 d.i
          (by have : M ≤ 10 ^ 63 := by decide
              omega) (by omega) (by decide) (by decide) (Or.inl rfl)
        have hb := adapt_ok e.delta (e.h + 1) (e.h == b) (by omega)
        obtain ⟨bias, b1, b2⟩ := hb
        rw [g1, Nat.mod_eq_of_lt hhM, b1]
        simp only [Option.bind_some]
        have hfirst : (d.i == 0) = (e.h == b) := by
          rw [Bool.eq_iff_iff, beq_iff_eq, beq_iff_eq]; exact s.first
        have hrun := decLoop_step (d := d) (delta := e.delta) (k := k) (j := j) (bias := bias) g2
          (fun rest => by have := g4 rest; rw [s.bias] at this; simpa using this)
          (by rw [← s.h]; exact hsum) (by rw [← s.h]; exact hjh) (by rw [← s.h]; exact hhM) (by omega) (by omega)
          (by rw [← s.h, hfirst]; exact b1) (by rw [← hk, ← hc]; exact hal c List.mem_cons_self)
        have ef : (P ++ [c]).filter (· ≤ n) = P.filter (· ≤ n) ++ [n] := by simp [hc]
        have eg : (c :: R).filter (· < n) = R.filter (· < n) := by simp [h1]
        have hlen : d.l.length = e.h := s.h.symm
        have s' : Sync b n (P ++ [c]) R ⟨0, bias, e.h + 1, e.out ++ ds⟩ ⟨j + 1, d.n + k, bias, d.l.take j ++ utf8 (d.n + k) :: d.l.drop j⟩ := by
          refine ⟨?_, ?_, ?_, rfl, b2, by simp only []; omega, by have := s.ge; simp only []; omega, ?_, ?_⟩
          · simp only []
            rw [ef, ← hk, s.l, eg, List.map_append, List.map_append, List.map_append]
            have hjl : ((P.filter (· ≤ n)).map utf8).length = j := by rw [List.length_map, hj]
            rw [List.take_left' hjl, List.drop_left' hjl]
            simp
          · simp only [List.length_append, List.length_cons, List.length_take, List.length_drop, hlen]
            omega
          · simp only []
            rw [ef, List.length_append, List.length_singleton, ← hj, ← hk]
            omega
          · simp only []
            have := s.base
            omega
          · have := s.base
            simp only []
            omega
        obtain ⟨e', d', ds', q1, q2, q3, q4, q5⟩ := ih _ _ _ s' hf' hal'
        refine ⟨e', d', ds ++ ds', q1, by rw [q2]; simp, ?_, hrun.trans q4, by simpa using q5⟩
        intro x hx
        rcases List.mem_append.1 hx with h | h
        · exact g3 x h
        · exact q3 x h

/-! ### All passes -/

theorem encLoop_ok (cps : List Nat) (b B : Nat) (hf : Fits B cps.length) (hal : ∀ c ∈ cps, Allowed c ∧ c ≤ B) : ∀ (ms : List Nat) (n : Nat) (e : Enc) (d : Dec),
    Sync b n [] cps e d → ms.Pairwise (· < ·) → (∀ x, x ∈ ms ↔ x ∈ cps ∧ n ≤ x) →
    ∃ e' d' ds, encLoop cps b ms n e = some (some e') ∧ e'.out = e.out ++ ds ∧ Plain ds ∧ Run ds d d' ∧ d'.l = cps.map utf8 := by
  intro ms
  induction ms with
  | nil =>
    intro n e d s _ hm
    refine ⟨e, d, [], rfl, by simp, by simp [Plain], Run.nil d, ?_⟩
    rw [s.l]
    have : cps.filter (· < n) = cps := by
      rw [List.filter_eq_self]
      intro x hx
      have h := hm x
      simp only [List.not_mem_nil, false_iff] at h
      have : ¬ n ≤ x := fun h' => h ⟨hx, h'⟩
      simpa using this
    rw [this]; rfl
  | cons m ms ih =>
    intro n e d s hp hm
    have hm0 := (hm m).1 List.mem_cons_self
    have hmB := (hal m hm0.1).2
    obtain ⟨g, hg⟩ := Nat.le.dest hm0.2
    have hsort := List.pairwise_cons.1 hp
    have hfil : cps.filter (· < n) = cps.filter (· < m) := by
      apply List.filter_congr
      intro x hx
      rw [decide_eq_decide]
      constructor
      · omega
      · intro h
        apply Classical.byContradiction
        intro h'
        have := (hm x).2 ⟨hx, by omega⟩
        rcases List.mem_cons.1 this with h1 | h1
        · omega
        · have := hsort.1 x h1; omega
    have s1 : Sync b m [] cps ⟨e.delta + g * (e.h + 1), e.bias, e.h, e.out⟩ d := by
      refine ⟨?_, s.h, ?_, s.bias, s.bound, Nat.le_trans s.le hm0.2, s.ge, s.first, s.base⟩
      · rw [s.l, hfil]; rfl
      · have := s.pos
        simp only [List.filter_nil, List.length_nil, Nat.add_zero] at this ⊢
        rw [← hg, Nat.add_mul, ← this]
        omega
    obtain ⟨k, j, h1, h2, h3, h4, h5, h6⟩ := s1.small hmB (by simpa using hf)
    simp only [] at h4 h5 h6
    rw [encLoop]
    have hBM : B < M := by have := hf.2.1; rw [M]; omega
    have e1 : (m + M - n) % M = g := by
      rw [show m + M - n = g + M by omega, Nat.add_mod_right, Nat.mod_eq_of_lt (by omega)]
    have e2 : (e.h + 1) % M = e.h + 1 := Nat.mod_eq_of_lt h4
    simp only [e1, e2]
    have hng : ¬ g > (M - 1 - e.delta) / (e.h + 1) := by
      have : g ≤ (M - 1 - e.delta) / (e.h + 1) := (Nat.le_div_iff_mul_le (by omega)).2 (by omega)
      omega
    rw [if_neg (by omega), if_neg hng, Nat.mod_eq_of_lt (show e.delta + g * (e.h + 1) < M by omega)]
    obtain ⟨e', d', ds, q1, q2, q3, q4, q5⟩ := pass b m B hmB cps [] _ d s1 (by simpa using hf) (fun c hc => (hal c hc).1)
    rw [q1]
    simp only [Option.bind_some]
    rw [List.nil_append] at q5
    obtain ⟨k', j', r1, r2, r3, r4, r5, r6⟩ := q5.small hmB (by simpa using hf)
    have hfl : cps.filter (· ≤ m) = cps.filter (· < m + 1) := by
      apply List.filter_congr
      intro x _
      rw [decide_eq_decide]
      omega
    have s2 : Sync b (m + 1) [] cps ⟨e'.delta + 1, e'.bias, e'.h, e'.out⟩ d' := by
      refine ⟨?_, q5.h, ?_, q5.bias, q5.bound, Nat.le_succ_of_le q5.le, q5.ge, q5.first, q5.base⟩
      · rw [q5.l, hfl]; simp
      · have p := q5.pos
        have l := q5.h
        rw [q5.l] at l
        simp only [List.filter_nil, List.append_nil, List.length_map, List.length_nil, Nat.add_zero] at l ⊢
        rw [← l] at p
        rw [Nat.succ_mul]
        omega
    rw [Nat.mod_eq_of_lt (show m + 1 < M by have := hf.2.1; rw [M]; omega), Nat.mod_eq_of_lt (show e'.delta + 1 < M by omega)]
    obtain ⟨e2, d2, ds2, t1, t2, t3, t4, t5⟩ := ih (m + 1) _ d' s2 hsort.2 (by
      intro x
      constructor
      · intro hx
        exact ⟨((hm x).1 (List.mem_cons_of_mem _ hx)).1, hsort.1 x hx⟩
      · intro ⟨hx, hx'⟩
        rcases List.mem_cons.1 ((hm x).2 ⟨hx, by omega⟩) with h | h
        · omega
        · exact h)
    refine ⟨e2, d2, ds ++ ds2, t1, by rw [t2]; simp only []; rw [q2]; simp, ?_, q4.trans t4, t5⟩
    intro x hx
    rcases List.mem_append.1 hx with h | h
    · exact q3 x h
    · exact t3 x h

/-! ### The sorted set -/

theorem insertSet_mem (m : Nat) (l : List Nat) (x : Nat) : x ∈ insertSet m l ↔ x = m ∨ x ∈ l := by
  induction l with
  | nil => simp [insertSet]
  | cons y l ih =>
    rw [insertSet]
    split
    · simp
    · split
      · rename_i h; simp [h]
      · simp only [List.mem_cons, ih]
        grind

theorem insertSet_sorted (m : Nat) (l : List Nat) (h : l.Pairwise (· < ·)) : (insertSet m l).Pairwise (· < ·) := by
  induction l with
  | nil => simp [insertSet]
  | cons y l ih =>
    rw [insertSet]
    have hp := List.pairwise_cons.1 h
    split
    · rename_i hlt
      refine List.pairwise_cons.2 ⟨?_, h⟩
      intro x hx
      rcases List.mem_cons.1 hx with e | e
      · omega
      · have := hp.1 x e; omega
    · split
      · exact h
      · refine List.pairwise_cons.2 ⟨?_, ih hp.2⟩
        intro x hx
        rcases (insertSet_mem m l x).1 hx with e | e
        · omega
        · exact hp.1 x e

theorem fold_set (ms : List Nat) : ∀ l : List Nat, l.Pairwise (· < ·) → (ms.foldl (fun l m => insertSet m l) l).Pairwise (· < ·) ∧
    ∀ x, x ∈ ms.foldl (fun l m => insertSet m l) l ↔ x ∈ ms ∨ x ∈ l := by
  induction ms with
  | nil => intro l h; simp [h]
  | cons m ms ih =>
    intro l h
    obtain ⟨h1, h2⟩ := ih (insertSet m l) (insertSet_sorted m l h)
    refine ⟨h1, fun x => ?_⟩
    rw [List.foldl_cons, h2, insertSet_mem, List.mem_cons]
    grind

/-! ### The strings -/

theorem readCps_flat (cps : List Nat) : ∀ fuel, Good cps → cps.length < fuel → readCps fuel (flat cps ++ [0]) = some cps := by
  induction cps with
  | nil =>
    intro fuel _ hf
    cases fuel with
    | zero => omega
    | succ fuel => simp [readCps, flat]
  | cons cp cps ih =>
    intro fuel hg hf
    have hcp := hg cp (by simp)
    obtain ⟨c, hc, hc0⟩ := Utf8.flat_head hcp.1 hcp.2 cps [0]
    cases fuel with
    | zero => omega
    | succ fuel =>
      rw [readCps, hc]
      simp only [Option.bind_some]
      rw [if_neg hc0, Utf8.flat_cons, List.append_assoc, Utf8.getCp_utf8 hcp.1 hcp.2]
      simp only [Option.bind_some]
      rw [ih fuel (fun c hc => hg c (by simp [hc])) (by simp at hf; omega)]
      rfl

theorem isValid_flat (cps : List Nat) (hg : Good cps) : Utf8.isValid (flat cps ++ [0]) = some (true, [0]) := by
  unfold Utf8.isValid Utf8.validateInt
  cases cps with
  | nil => simp [flat]
  | cons cp cps =>
    have hcp := hg cp (by simp)
    obtain ⟨c, hc, hc0⟩ := Utf8.flat_head hcp.1 hcp.2 cps [0]
    rw [hc]
    simp only [bind, Option.bind_some]
    rw [if_neg hc0, if_neg hc0, Utf8.validateLoop_flat _ [] _ 0 hg (by have := Utf8.flat_length (cp :: cps); simp; simp at this; omega)]
    rfl

theorem takeWhile_stop {p : UInt8 → Bool} {a : List UInt8} (h : ∀ c ∈ a, p c = true) {x : UInt8} (hx : p x = false) (r : List UInt8) :
    (a ++ x :: r).takeWhile p = a ∧ (a ++ x :: r).dropWhile p = x :: r := by
  rw [List.takeWhile_append_of_pos h, List.dropWhile_append_of_pos h]
  simp [hx]

theorem cut_dash (a ds : List UInt8) (h : 45 ∉ ds) : cut (a ++ 45 :: ds) = (a, ds) := by
  unfold cut
  rw [if_pos (by simp)]
  have e : (a ++ 45 :: ds).reverse = ds.reverse ++ 45 :: a.reverse := by simp
  obtain ⟨h1, h2⟩ := takeWhile_stop (p := fun c : UInt8 => decide (c ≠ 45)) (a := ds.reverse) (x := 45)
    (by intro c hc; have := List.mem_reverse.1 hc; simp; intro e; exact h (e ▸ this)) (by simp) a.reverse
  rw [e, h1, h2]
  simp

theorem flat_ascii (cps : List Nat) (h : ∀ c ∈ cps, c < 128) : flat cps = cps.map UInt8.ofNat := by
  induction cps with
  | nil => rfl
  | cons c cps ih =>
    rw [Utf8.flat_cons, ih (fun x hx => h x (List.mem_cons_of_mem _ hx)), utf8, if_pos (h c List.mem_cons_self)]
    rfl

theorem flat_not_ascii (cps : List Nat) (hg : Good cps) (h : ∀ c ∈ flat cps, c < 128) : ∀ c ∈ cps, c < 128 := by
  intro c hc
  apply Classical.byContradiction
  intro hn
  have ha := (hg c hc).1.1.1
  have key : ∃ b ∈ utf8 c, ¬ b < 128 := by
    have k : ∀ n : Nat, 128 ≤ n → n < 256 → ¬ UInt8.ofNat n < 128 := by
      intro n h1 h2 h3
      have : (UInt8.ofNat n).toNat < 128 := h3
      rw [Utf8.toNat_ofNat h2] at this
      omega
    unfold utf8
    rw [if_neg (by omega)]
    split
    · exact ⟨_, List.mem_cons_self, k _ (by omega) (by omega)⟩
    · split
      · exact ⟨_, List.mem_cons_self, k _ (by omega) (by omega)⟩
      · exact ⟨_, List.mem_cons_self, k _ (by omega) (by omega)⟩
  obtain ⟨b, hb, hb'⟩ := key
  exact hb' (h b (List.mem_flatMap.2 ⟨c, hc, hb⟩))

/-! ### C50 -/

/-- **C50**, for texts that are not too long.  Encoding a text of `n` characters up to `U+B` succeeds if `(B - 127) (n + 1) < 2^32`, the
result is ASCII, and decoding it gives the text back.  Missing: longer texts, which need not come back (`puny_long_fails`). -/
theorem puny_roundtrip_partial (cps : List Nat) (hg : Good cps) (B : Nat) (hB : ∀ c ∈ cps, c ≤ B) (hfit : (B - 127) * (cps.length + 1) < 2 ^ 32) :
    ∃ e, encode (flat cps) = some (.success, e) ∧ (∀ c ∈ e, c < 128) ∧ decode e = some (.success, flat cps) := by
  have hdec : ∀ e : List UInt8, (∀ c ∈ e, c < 128) → ¬ (e.any (· ≥ 128)) = true := by
    intro e h ha
    obtain ⟨c, h1, h2⟩ := List.any_eq_true.1 ha
    have h2 : 128 ≤ c := by simpa using h2
    exact absurd (h c h1) (UInt8.not_lt.2 h2)
  by_cases hasc : (flat cps).all (· < 128) = true
  · have hall : ∀ c ∈ flat cps ++ [45], c < 128 := by
      intro c hc
      rcases List.mem_append.1 hc with h | h
      · simpa using List.all_eq_true.1 hasc c h
      · rw [List.mem_singleton.1 h]; decide
    refine ⟨flat cps ++ [45], by rw [encode, if_pos hasc], hall, ?_⟩
    rw [decode, if_neg (hdec _ hall), cut_dash _ [] (by simp)]
    simp only [decLoop, Option.map_some]
    have : ∀ l : List UInt8, (l.map fun c => [c]).flatten = l := by
      intro l; induction l with
      | nil => rfl
      | cons c l ih => simp [ih]
    rw [this]
  · have hex : ∃ c ∈ cps, 128 ≤ c := by
      apply Classical.byContradiction
      intro hn
      apply hasc
      have h : ∀ c ∈ cps, c < 128 := fun c hc => Nat.lt_of_not_le fun h => hn ⟨c, hc, h⟩
      rw [List.all_eq_true]
      intro c hc
      rw [flat_ascii cps h] at hc
      obtain ⟨x, hx, he⟩ := List.mem_map.1 hc
      have : (UInt8.ofNat x).toNat < 128 := by rw [Utf8.toNat_ofNat (by have := h x hx; omega)]; exact h x hx
      rw [← he, decide_eq_true_iff]
      exact this
    -- the bound
    obtain ⟨c0, hc0, hc0'⟩ := hex
    have hB128 : 128 ≤ min B 0x10FFFF := by
      have h1 := hB c0 hc0
      have h2 := (hg c0 hc0).1.1.1
      omega
    have hM : M = 2 ^ 32 := by decide
    have hf : Fits (min B 0x10FFFF) cps.length := by
      refine ⟨hB128, Nat.min_le_right _ _, ?_⟩
      rw [hM]
      exact Nat.lt_of_le_of_lt (Nat.mul_le_mul_right _ (by omega)) hfit
    have hal : ∀ c ∈ cps, Allowed c ∧ c ≤ min B 0x10FFFF := by
      intro c hc
      have h1 := hB c hc
      have h2 := (hg c hc).1.1.1
      exact ⟨(hg c hc).1, by omega⟩
    have hlen : cps.length < M := by
      have : 1 * (cps.length + 1) ≤ (min B 0x10FFFF - 127) * (cps.length + 1) := Nat.mul_le_mul_right _ (by omega)
      have := hf.2.2
      omega
    have hfl := List.length_filter_le (fun x => decide (x < 0x80)) cps
    -- encoding
    have henc : encode (flat cps) = encCps cps := by
      rw [encode, if_neg hasc, isValid_flat cps hg]
      simp only [Option.bind_some]
      rw [if_neg (by simp), readCps_flat cps _ hg (by have := Utf8.flat_length cps; omega)]
      rfl
    obtain ⟨f1, f2⟩ := fold_set (cps.filter fun c => ¬ c < 0x80) [] List.Pairwise.nil
    have hms : ∀ x, x ∈ (cps.filter fun c => ¬ c < 0x80).foldl (fun l m => insertSet m l) [] ↔ x ∈ cps ∧ 128 ≤ x := by
      intro x
      rw [f2]
      simp
    rw [henc, encCps]
    have hmod : (cps.filter (· < 0x80)).length % M = (cps.filter (· < 0x80)).length := Nat.mod_eq_of_lt (by omega)
    simp only [hmod]
    generalize hout : (cps.filter (· < 0x80)).map UInt8.ofNat ++ (if (cps.filter (· < 0x80)).length ≠ 0 then [45] else []) = out
    have s0 : Sync (cps.filter (· < 0x80)).length 128 [] cps ⟨0, 72, (cps.filter (· < 0x80)).length, out⟩ ⟨0, 128, 72, (cps.filter (· < 0x80)).map utf8⟩ :=
      ⟨by simp, by simp, by simp, rfl, (by decide : 72 ≤ 215), Nat.le_refl _, Nat.le_refl _, by simp, Nat.le_refl _⟩
    obtain ⟨e', d', ds, q1, q2, q3, ⟨c, q4, q4'⟩, q5⟩ := encLoop_ok cps _ _ hf hal _ 128 _ _ s0 f1 hms
    rw [q1]
    simp only [Option.map_some]
    have h45 : 45 ∉ ds := fun h => (q3 45 h).1 rfl
    have hbasic : ∀ x ∈ (cps.filter (· < 0x80)).map UInt8.ofNat, x < 128 := by
      intro x hx
      obtain ⟨y, hy, rfl⟩ := List.mem_map.1 hx
      have hy : y < 128 := by simpa using (List.mem_filter.1 hy).2
      have : (UInt8.ofNat y).toNat < 128 := by rw [Utf8.toNat_ofNat (by omega)]; exact hy
      exact this
    have hplain : ∀ x ∈ e'.out, x < 128 := by
      rw [q2]
      intro x hx
      rcases List.mem_append.1 hx with h | h
      · simp only [] at h
        rw [← hout] at h
        rcases List.mem_append.1 h with h | h
        · exact hbasic x h
        · split at h
          · rw [List.mem_singleton.1 h]; decide
          · cases h
      · exact (q3 x h).2
    refine ⟨e'.out, rfl, hplain, ?_⟩
    have hcut : cut e'.out = ((cps.filter (· < 0x80)).map UInt8.ofNat, ds) := by
      rw [q2]
      simp only []
      rw [← hout]
      by_cases h0 : (cps.filter (· < 0x80)).length = 0
      · have h0' := List.length_eq_zero_iff.1 h0
        rw [h0']
        simp only [List.map_nil, List.length_nil, ne_eq, not_true_eq_false, if_false, List.append_nil, List.nil_append]
        rw [cut, if_neg h45]
      · rw [if_pos h0, List.append_assoc, List.cons_append, List.nil_append, cut_dash _ _ h45]
    have hl : ((cps.filter (· < 0x80)).map UInt8.ofNat).map (fun c => [c]) = (cps.filter (· < 0x80)).map utf8 := by
      rw [List.map_map]
      apply List.map_congr_left
      intro x hx
      have : x < 128 := by simpa using (List.mem_filter.1 hx).2
      rw [utf8, if_pos this]
      rfl
    have hlong : ds.length ≤ e'.out.length := by rw [q2, List.length_append]; omega
    rw [decode, if_neg (hdec _ hplain), hcut]
    simp only []
    rw [hl, show e'.out.length + 1 = (e'.out.length - c + 1) + c by omega]
    have := q4' [] (e'.out.length - c + 1)
    rw [List.append_nil] at this
    rw [this]
    simp only [decLoop, Option.map_some]
    rw [q5]
    rfl

/-- **C50** for every valid text of at most 3854 characters. -/
theorem puny_short (cps : List Nat) (hg : Good cps) (hl : cps.length ≤ 3854) :
    ∃ e, encode (flat cps) = some (.success, e) ∧ (∀ c ∈ e, c < 128) ∧ decode e = some (.success, flat cps) :=
  puny_roundtrip_partial cps hg 0x10FFFF (fun c hc => (hg c hc).1.1.1) (Nat.lt_of_le_of_lt (Nat.mul_le_mul_left _ (Nat.succ_le_succ hl)) (by decide))

/-- A text that is not UTF-8 is refused. -/
theorem puny_rejects (s : List UInt8) (h0 : 0 ∉ s) (hb : ¬ ∃ cps, Good cps ∧ s = flat cps) : encode s = some (.badInput, []) := by
  have hasc : ¬ s.all (· < 128) = true := by
    intro h
    refine hb ⟨s.map UInt8.toNat, ?_, ?_⟩
    · intro c hc
      obtain ⟨x, hx, rfl⟩ := List.mem_map.1 hc
      have h1 : x < 128 := by simpa using List.all_eq_true.1 h x hx
      have h2 : x.toNat < 128 := h1
      refine ⟨⟨⟨by omega, by omega⟩, ?_⟩, ?_⟩
      · intro ⟨h3, _⟩; unfold Utf8.NonChar at h3; omega
      · intro e
        apply h0
        have : x = 0 := UInt8.toNat_inj.1 e
        exact this ▸ hx
    · rw [flat_ascii _ (by
        intro c hc
        obtain ⟨x, hx, rfl⟩ := List.mem_map.1 hc
        have h1 : x < 128 := by simpa using List.all_eq_true.1 h x hx
        exact h1), List.map_map]
      have : UInt8.ofNat ∘ UInt8.toNat = id := by funext x; simp
      rw [this, List.map_id]
  rw [encode, if_neg hasc]
  obtain ⟨cps, e, g1, g2, g3⟩ := Utf8.is_valid_correct (s ++ [0]) (by simp)
  rcases g3 with ⟨g3, g4⟩ | ⟨g3, _⟩
  · exfalso
    refine hb ⟨cps, g1, ?_⟩
    cases e with
    | nil => simp at g4
    | cons x e =>
      have hx : x = 0 := by simpa using g4
      have he : e = [] := by
        rcases List.eq_nil_or_concat e with h | ⟨f, y, h⟩
        · exact h
        · exfalso
          rw [h, List.concat_eq_append] at g2
          have : s ++ [0] = (flat cps ++ x :: f) ++ [y] := by rw [g2]; simp
          have := (List.append_inj' this rfl).1
          exact h0 (by rw [this, hx]; simp)
      rw [he, hx] at g2
      exact (List.append_inj' g2 rfl).1
  · rw [g3]
    rfl

example : Good [98, 0xFC, 0x6F22] ∧ encode (flat [98, 0xFC, 0x6F22]) = some (.success, [98, 45, 101, 104, 97, 56, 48, 55, 53, 102]) := by
  refine ⟨?_, ?_⟩
  · intro c hc; revert hc; simp only [List.mem_cons, List.not_mem_nil, or_false]; rintro (rfl | rfl | rfl) <;> decide
  · decide +kernel

/-- Sample A of RFC 3492. -/
example : encode [217, 132, 217, 138, 217, 135, 217, 133, 216, 167, 216, 168, 216, 170, 217, 131, 217, 132, 217, 133, 217, 136, 216, 180, 216, 185, 216, 177, 216, 168, 217, 138, 216, 159] = some (.success, [101, 103, 98, 112, 100, 97, 106, 54, 98, 117, 52, 98, 120, 102, 103, 101, 104, 102, 118, 119, 120, 110]) := by decide +kernel

/-- A text of 4000 characters that is encoded, but whose encoding is refused by the decoder. -/
def longText : List UInt8 := List.replicate 3998 97 ++ [0xC2, 0x80, 0xF4, 0x86, 0x8B, 0x8D]

theorem puny_long_fails : ∃ e, encode longText = some (.success, e) ∧ decode e = some (.fail, []) :=
  ⟨List.replicate 3998 97 ++ [45] ++ ((encode longText).getD (.fail, [])).2.drop 3999, by decide +kernel⟩

end Verif.Textcodec.Puny
