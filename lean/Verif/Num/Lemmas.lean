import Verif.Num.Model
namespace Verif.Num
open Verif.Chr

/-- The digits in order. -/
def alphabet : List UInt8 :=
  [48, 49, 50, 51, 52, 53, 54, 55, 56, 57, 97, 98, 99, 100, 101, 102, 103, 104, 105, 106, 107, 108, 109, 110, 111, 112, 113,
    114, 115, 116, 117, 118, 119, 120, 121, 122]

/-- The value of a digit, regardless of case; 36 for any other character. -/
def digitVal (c : UInt8) : Nat := alphabet.idxOf (toLower c)

theorem digit_eq (c : UInt8) : digit c = digitVal c := by
  have h : ∀ n : Fin 256, digit (UInt8.ofNat n.val) = digitVal (UInt8.ofNat n.val) := by decide +kernel
  have := h ⟨c.toNat, c.toNat_lt⟩
  simpa using this

/-- The number denoted by a digit string, continuing from `a`. -/
def valueFrom (base a : Nat) (ds : List UInt8) : Nat := ds.foldl (fun a c => a * base + digitVal c) a

theorem valueFrom_ge {base : Nat} (hb : 1 ≤ base) (ds : List UInt8) : ∀ a, a ≤ valueFrom base a ds := by
  induction ds with
  | nil => intro a; simp [valueFrom]
  | cons c ds ih =>
    intro a
    have h1 := ih (a * base + digitVal c)
    have h2 : a ≤ a * base := Nat.le_mul_of_pos_right a hb
    simp only [valueFrom, List.foldl_cons] at h1 ⊢
    omega

theorem valueFrom_mod {base m : Nat} (ds : List UInt8) : ∀ a b, a % m = b % m → valueFrom base a ds % m = valueFrom base b ds % m := by
  induction ds with
  | nil => intro a b h; simpa [valueFrom] using h
  | cons c ds ih =>
    intro a b h
    simp only [valueFrom, List.foldl_cons]
    apply ih
    rw [Nat.add_mod, Nat.mul_mod, h, ← Nat.mul_mod, ← Nat.add_mod]

/-- The unread text is `u`; `n` is the remaining length. -/
structure Inv (u tail : List UInt8) (n : Nat) : Prop where
  nz : (0 : UInt8) ∉ u
  readable : tail ≠ []
  len : n = u.length ∨ (u.length ≤ n ∧ tail.head? = some 0)

theorem Inv.tl {c : UInt8} {u tail : List UInt8} {n : Nat} (h : Inv (c :: u) tail n) : Inv u tail (n - 1) ∧ n ≠ 0 ∧ c ≠ 0 := by
  obtain ⟨h1, h2, h3⟩ := h
  simp only [List.mem_cons, not_or] at h1
  simp only [List.length_cons] at h3
  refine ⟨⟨h1.2, h2, ?_⟩, by omega, fun e => h1.1 e.symm⟩
  rcases h3 with h3 | ⟨h3, h4⟩
  · left; omega
  · right; exact ⟨by omega, h4⟩

theorem isSpace_zero : isSpace 0 = false := by decide

theorem eatWs_spec {u tail : List UInt8} {n : Nat} (h : Inv u tail n) :
    ∃ n', eatWs (u ++ tail) n = some (u.dropWhile isSpace ++ tail, n') ∧ Inv (u.dropWhile isSpace) tail n' := by
  induction u generalizing n with
  | nil =>
    obtain ⟨c, t, rfl⟩ : ∃ c t, tail = c :: t := List.exists_cons_of_ne_nil h.readable
    refine ⟨n, ?_, h⟩
    simp only [List.nil_append, List.dropWhile_nil]
    rw [eatWs, if_neg]
    rintro ⟨h1, h2⟩
    rcases h.len with h3 | ⟨_, h3⟩
    · simp at h3; omega
    · simp at h3; subst h3; simp [isSpace_zero] at h1
  | cons c u ih =>
    obtain ⟨h1, h2, _⟩ := h.tl
    rw [List.cons_append, eatWs]
    by_cases hc : isSpace c
    · rw [if_pos ⟨hc, h2⟩, List.dropWhile_cons_of_pos hc]
      exact ih h1
    · rw [if_neg (fun k => hc k.1), List.dropWhile_cons_of_neg hc]
      exact ⟨n, rfl, h⟩

/-- The sign and the rest of a text. -/
def signOf : List UInt8 → Bool × List UInt8
  | [] => (false, [])
  | c :: u => if c = 45 then (true, u) else if c = 43 then (false, u) else (false, c :: u)

theorem sign_spec {u tail : List UInt8} {n : Nat} (h : Inv u tail n) :
    ∃ n', sign (u ++ tail) n = some ((signOf u).1, (signOf u).2 ++ tail, n') ∧ Inv (signOf u).2 tail n' := by
  unfold sign
  by_cases hn : n = 0
  · have : u = [] := by
      rcases h.len with h1 | ⟨h1, _⟩ <;> exact List.length_eq_zero_iff.1 (by omega)
    subst this
    rw [if_pos hn]
    exact ⟨n, rfl, h⟩
  · rw [if_neg hn]
    cases u with
    | nil =>
      obtain ⟨c, t, rfl⟩ : ∃ c t, tail = c :: t := List.exists_cons_of_ne_nil h.readable
      have : c = 0 := by
        rcases h.len with h3 | ⟨_, h3⟩
        · simp at h3; omega
        · simpa using h3
      subst this
      refine ⟨n, ?_, h⟩
      simp [signOf]
    | cons c u =>
      simp only [signOf, List.cons_append, List.getElem?_cons_zero, bind, Option.bind_some]
      by_cases h1 : c = 45
      · subst h1
        refine ⟨n - 1, ?_, h.tl.1⟩
        simp
      · by_cases h2 : c = 43
        · subst h2
          refine ⟨n - 1, ?_, h.tl.1⟩
          simp
        · refine ⟨n, ?_, ?_⟩
          · simp [h1, h2]
          · simpa [h1, h2] using h

/-- The comparison with the hex prefix is only ever true for the text consisting of just the prefix. -/
theorem caseEqMax_zeroX {u tail : List UInt8} {n : Nat} (h : Inv u tail n) (hn : 2 ≤ n) :
    caseEqMax (u ++ tail) zeroX n = some (decide (u.map toLower = [48, 120])) := by
  obtain ⟨c, t, rfl⟩ : ∃ c t, tail = c :: t := List.exists_cons_of_ne_nil h.readable
  obtain ⟨m, rfl⟩ : ∃ m, n = m + 2 := ⟨n - 2, by omega⟩
  have e1 : toLower 48 = 48 := by decide
  have e2 : toLower 120 = 120 := by decide
  have hz : ∀ x ∈ u, x ≠ 0 := fun x hx e => h.nz (e ▸ hx)
  have hl : u.length < m + 2 → c = 0 := by
    intro hlt
    rcases h.len with h3 | ⟨_, h3⟩
    · omega
    · simpa using h3
  unfold caseEqMax zeroX
  match u, hz, hl with
  | [], hz, hl =>
    have := hl (by simp)
    subst this
    simp [eqLoop]
  | [a], hz, hl =>
    have := hl (by simp)
    subst this
    have ha := hz a (by simp)
    simp only [eqLoop, List.cons_append, List.nil_append, List.getElem?_cons_zero, List.getElem?_cons_succ, bind, Option.bind_some, if_neg ha]
    by_cases hd : toLower a = 48 <;> simp [hd, e1]
  | [a, b], hz, hl =>
    have ha := hz a (by simp)
    have hb := hz b (by simp)
    cases m with
    | zero =>
      simp only [eqLoop, List.cons_append, List.nil_append, List.getElem?_cons_zero, List.getElem?_cons_succ, bind, Option.bind_some, if_neg ha,
        if_neg hb]
      by_cases hd : toLower a = 48 <;> by_cases hd' : toLower b = 120 <;> simp [hd, hd', e1, e2]
    | succ m =>
      have := hl (by simp)
      subst this
      simp only [eqLoop, List.cons_append, List.nil_append, List.getElem?_cons_zero, List.getElem?_cons_succ, bind, Option.bind_some, if_neg ha,
        if_neg hb]
      by_cases hd : toLower a = 48 <;> by_cases hd' : toLower b = 120 <;> simp [hd, hd', e1, e2]
  | a :: b :: d :: u, hz, hl =>
    have ha := hz a (by simp)
    have hb := hz b (by simp)
    have hd0 := hz d (by simp)
    have hm : ∃ k, m = k + 1 := by
      have := h.len
      simp only [List.length_cons] at this
      exact ⟨m - 1, by omega⟩
    obtain ⟨k, rfl⟩ := hm
    simp only [eqLoop, List.cons_append, List.getElem?_cons_zero, List.getElem?_cons_succ, bind, Option.bind_some, if_neg ha,
        if_neg hb, if_neg hd0]
    by_cases hd : toLower a = 48 <;> by_cases hd' : toLower b = 120 <;> simp [hd, hd', e1, e2, hd0]

theorem w64_pos : 0 < w64 := by decide

theorem u64Loop_spec {base : Nat} (hb : 2 ≤ base ∧ base ≤ 36) (u tail : List UInt8) : ∀ (n ret : Nat) (ov : Bool), Inv u tail n → ret < w64 →
    ∃ ov', u64Loop base (u ++ tail) n ret ov =
        some (valueFrom base ret (u.takeWhile fun c => decide (digitVal c < base)) % w64, ov',
          (u.dropWhile fun c => decide (digitVal c < base)) ++ tail) ∧
      (ov = true → ov' = true) ∧
      (ov' = true → ov = true ∨ w64 ≤ valueFrom base ret (u.takeWhile fun c => decide (digitVal c < base))) := by
  induction u with
  | nil =>
    intro n ret ov h hr
    obtain ⟨c, t, rfl⟩ : ∃ c t, tail = c :: t := List.exists_cons_of_ne_nil h.readable
    refine ⟨ov, ?_, id, fun k => Or.inl k⟩
    simp only [List.nil_append, List.takeWhile_nil, List.dropWhile_nil, valueFrom, List.foldl_nil]
    rw [Nat.mod_eq_of_lt hr]
    cases n with
    | zero => rfl
    | succ n =>
      have : c = 0 := by
        rcases h.len with h3 | ⟨_, h3⟩
        · simp at h3
        · simpa using h3
      rw [u64Loop, if_pos this]
  | cons c u ih =>
    intro n ret ov h hr
    obtain ⟨h1, h2, h3⟩ := h.tl
    obtain ⟨m, rfl⟩ : ∃ m, n = m + 1 := ⟨n - 1, by omega⟩
    rw [List.cons_append, u64Loop, if_neg h3, digit_eq]
    by_cases hd : digitVal c < base
    · rw [if_neg (by omega), List.takeWhile_cons_of_pos (by simpa using hd), List.dropWhile_cons_of_pos (by simpa using hd)]
      simp only
      obtain ⟨ov', k1, k2, k3⟩ := ih m ((ret * base + digitVal c) % w64) (ov || decide ((ret * base + digitVal c) % w64 < ret)) h1
        (Nat.mod_lt _ w64_pos)
      have hv : valueFrom base ret (c :: u.takeWhile fun c => decide (digitVal c < base)) =
          valueFrom base (ret * base + digitVal c) (u.takeWhile fun c => decide (digitVal c < base)) := rfl
      have hmod := valueFrom_mod (base := base) (m := w64) (u.takeWhile fun c => decide (digitVal c < base))
        ((ret * base + digitVal c) % w64) (ret * base + digitVal c) (Nat.mod_mod _ _)
      refine ⟨ov', ?_, ?_, ?_⟩
      · rw [k1, hv, hmod]
      · intro ho; exact k2 (by simp [ho])
      · intro ho
        rw [hv]
        have hge := valueFrom_ge (base := base) (by omega) (u.takeWhile fun c => decide (digitVal c < base)) (ret * base + digitVal c)
        by_cases hlt : ret * base + digitVal c < w64
        · rw [Nat.mod_eq_of_lt hlt] at k3
          rcases k3 ho with k | k
          · left
            have : ret ≤ ret * base := Nat.le_mul_of_pos_right ret (by omega)
            have hf : ¬ (ret * base + digitVal c < ret) := by omega
            simpa [hf] using k
          · right; exact k
        · right; omega
    · rw [if_pos (by omega), List.takeWhile_cons_of_neg (by simpa using hd), List.dropWhile_cons_of_neg (by simpa using hd)]
      refine ⟨ov, ?_, id, fun k => Or.inl k⟩
      simp only [valueFrom, List.foldl_nil]
      rw [Nat.mod_eq_of_lt hr]
      rfl

/-- The digits read and what follows them. -/
def digitsOf (base : Nat) (u : List UInt8) : List UInt8 := u.takeWhile fun c => decide (digitVal c < base)
def afterDigits (base : Nat) (u : List UInt8) : List UInt8 := u.dropWhile fun c => decide (digitVal c < base)

theorem toUint64Int_spec {base : Nat} (hb : 2 ≤ base ∧ base ≤ 36) {u tail : List UInt8} {n : Nat} (h : Inv u tail n) :
    ∃ rv, toUint64Int (u ++ tail) n base =
        some (rv, valueFrom base 0 (digitsOf base u) % w64, afterDigits base u ++ tail) ∧
      (rv = .overflow → w64 ≤ valueFrom base 0 (digitsOf base u)) ∧
      (rv ≠ .overflow → rv = if digitsOf base u = [] then .invalid else .success) := by
  obtain ⟨ov, h1, _, h2⟩ := u64Loop_spec hb u tail n 0 false h w64_pos
  unfold toUint64Int
  rw [if_neg (by omega), h1]
  simp only [bind, Option.bind_some]
  cases ov with
  | true => exact ⟨.overflow, by simp [digitsOf, afterDigits], fun _ => by simpa [digitsOf] using h2 rfl, by simp⟩
  | false =>
    have hl : (digitsOf base u).length + (afterDigits base u).length = u.length := by
      rw [← List.length_append]
      unfold digitsOf afterDigits
      rw [List.takeWhile_append_dropWhile]
    by_cases he : digitsOf base u = []
    · refine ⟨.invalid, ?_, by simp, by simp [he]⟩
      rw [if_neg (by simp), if_pos]
      · simp [digitsOf, afterDigits]
      · simp only [he, List.length_nil] at hl
        rw [List.length_append, List.length_append]
        unfold afterDigits at hl
        omega
    · refine ⟨.success, ?_, by simp, by simp [he]⟩
      have : 0 < (digitsOf base u).length := List.length_pos_iff.2 he
      rw [if_neg (by simp), if_neg]
      · simp [digitsOf, afterDigits]
      · rw [List.length_append, List.length_append]
        unfold afterDigits at hl
        omega

/-- The base in effect. -/
def baseOf (base : Nat) (u : List UInt8) : Nat := if base = 0 then if u.head? = some 48 then 8 else 10 else base

theorem hexPrefix_false {u tail : List UInt8} {n : Nat} (h : Inv u tail n) (hx : u.map toLower ≠ [48, 120]) :
    hexPrefix (u ++ tail) n = some false := by
  unfold hexPrefix
  split
  next k => rw [caseEqMax_zeroX h k, decide_eq_false hx]
  · rfl

theorem autoBase_spec {u tail : List UInt8} {n : Nat} (h : Inv u tail n) (hx : u.map toLower ≠ [48, 120]) (base : Nat) :
    autoBase (u ++ tail) n base = some (baseOf base u) := by
  unfold autoBase baseOf
  rw [hexPrefix_false h hx]
  by_cases hb : base = 0
  · rw [if_pos hb, if_pos hb]
    simp only [Option.bind_some, Bool.false_eq_true, if_false]
    cases u with
    | nil =>
      split
      next hn =>
        obtain ⟨c, t, rfl⟩ : ∃ c t, tail = c :: t := List.exists_cons_of_ne_nil h.readable
        have : c = 0 := by
          rcases h.len with h3 | ⟨_, h3⟩
          · simp at h3; omega
          · simpa using h3
        subst this
        simp
      · simp
    | cons c v =>
      have := h.tl.2.1
      rw [if_pos (by omega)]
      simp
  · rw [if_neg hb, if_neg hb]

theorem prep_spec {u tail : List UInt8} {n : Nat} (h : Inv u tail n)
    (hx : (signOf (u.dropWhile isSpace)).2.map toLower ≠ [48, 120]) :
    ∃ n', Inv (signOf (u.dropWhile isSpace)).2 tail n' ∧ ∀ base,
      prep (u ++ tail) n base = some ((signOf (u.dropWhile isSpace)).2 ++ tail, n', baseOf base (signOf (u.dropWhile isSpace)).2,
        (signOf (u.dropWhile isSpace)).1) := by
  obtain ⟨n1, e1, i1⟩ := eatWs_spec h
  obtain ⟨n2, e2, i2⟩ := sign_spec i1
  refine ⟨n2, i2, fun base => ?_⟩
  unfold prep
  rw [e1]
  simp only [bind, Option.bind_some]
  rw [e2]
  simp only [Option.bind_some]
  rw [autoBase_spec i2 hx]
  simp only [Option.bind_some]
  rw [hexPrefix_false i2 hx]
  split <;> simp

end Verif.Num
