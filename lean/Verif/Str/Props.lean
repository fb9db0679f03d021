import Verif.Str.Model
import Verif.Buf.Lemmas
/- Comparison, bounded copies, trimming and quoting of strings. -/
namespace Verif.Str
open Verif.Buf (wr rd wr_mid rd_mid)
open Verif.Chr (isSpace isUpper toLower)

/-! ### Comparison -/

/-- Two bytes a comparison treats alike: equal, or (ignoring case) the two cases of one ASCII letter. -/
def Same (ci : Bool) (x y : UInt8) : Prop := x = y ∨ (ci = true ∧ ((65 ≤ x ∧ x ≤ 90 ∧ y = x + 32) ∨ (65 ≤ y ∧ y ≤ 90 ∧ x = y + 32)))

/-- Strings of the same length whose bytes are alike. -/
inductive Alike (ci : Bool) : List UInt8 → List UInt8 → Prop
  | nil : Alike ci [] []
  | cons {x y : UInt8} {a b : List UInt8} (h : Same ci x y) (t : Alike ci a b) : Alike ci (x :: a) (y :: b)

theorem toLower_nat (x : UInt8) : (toLower x).toNat = if 65 ≤ x.toNat ∧ x.toNat ≤ 90 then x.toNat + 32 else x.toNat := by
  unfold toLower isUpper
  by_cases h : 65 ≤ x.toNat ∧ x.toNat ≤ 90
  · have h1 : (65 : UInt8) ≤ x := by rw [UInt8.le_iff_toNat_le]; exact h.1
    have h2 : x ≤ (90 : UInt8) := by rw [UInt8.le_iff_toNat_le]; exact h.2
    simp only [h1, h2, decide_true, Bool.and_self, if_true, h, and_self, UInt8.toNat_add]
    have : (32 : UInt8).toNat = 32 := rfl
    omega
  · rw [if_neg h]
    have : ¬ ((decide ((65 : UInt8) ≤ x) && decide (x ≤ (90 : UInt8))) = true) := by
      simp only [Bool.and_eq_true, decide_eq_true_eq, UInt8.le_iff_toNat_le]
      exact h
    rw [if_neg this]

theorem fold_iff (ci : Bool) (x y : UInt8) : ((if ci then toLower x else x) ^^^ (if ci then toLower y else y)) = 0 ↔ Same ci x y := by
  unfold Same
  rw [UInt8.xor_eq_zero_iff]
  cases ci
  · simp
  · simp only [if_true, true_and]
    rw [← UInt8.toNat_inj, toLower_nat, toLower_nat]
    have e (a b : UInt8) (hb : b.toNat ≤ 90) : a = b + 32 ↔ a.toNat = b.toNat + 32 := by
      rw [← UInt8.toNat_inj, UInt8.toNat_add]
      have : (32 : UInt8).toNat = 32 := rfl
      omega
    simp only [UInt8.le_iff_toNat_le, ← UInt8.toNat_inj]
    have h65 : (65 : UInt8).toNat = 65 := rfl
    have h90 : (90 : UInt8).toNat = 90 := rfl
    have h32 : (32 : UInt8).toNat = 32 := rfl
    simp only [UInt8.toNat_add, h65, h90, h32]
    have := x.toNat_lt
    have := y.toNat_lt
    split <;> split <;> omega

theorem eqLoop_iff (ci : Bool) (a : List UInt8) : ∀ (b : List UInt8) (n : Nat) (r : UInt8),
    ((eqLoop ci n r a b).1 = 0 ∧ ((eqLoop ci n r a b).2.1 = 0 ∨ ((eqLoop ci n r a b).2.2.1 = [] ↔ (eqLoop ci n r a b).2.2.2 = []))) ↔
      (r = 0 ∧ Alike ci (a.take n) (b.take n)) := by
  induction a with
  | nil =>
    intro b n r
    cases b with
    | nil =>
      cases n <;> simp [eqLoop, Alike.nil]
    | cons y b =>
      cases n with
      | zero => simp [eqLoop, Alike.nil]
      | succ n =>
        simp only [eqLoop, List.take_nil, List.take_succ_cons]
        constructor
        · rintro ⟨_, h | h⟩
          · cases h
          · simp at h
        · rintro ⟨_, h⟩; cases h
  | cons x a ih =>
    intro b n r
    cases n with
    | zero => cases b <;> simp [eqLoop, Alike.nil]
    | succ n =>
      cases b with
      | nil =>
        simp only [eqLoop, List.take_nil, List.take_succ_cons]
        constructor
        · rintro ⟨_, h | h⟩
          · cases h
          · simp at h
        · rintro ⟨_, h⟩; cases h
      | cons y b =>
        rw [eqLoop, ih, List.take_succ_cons, List.take_succ_cons, UInt8.or_eq_zero_iff, fold_iff]
        constructor
        · rintro ⟨⟨h1, h2⟩, h3⟩; exact ⟨h1, .cons h2 h3⟩
        · rintro ⟨h1, h2⟩
          cases h2 with
          | cons h t => exact ⟨⟨h1, h⟩, t⟩

/-- Comparison of at most `max` bytes: it succeeds exactly if the first `max` bytes (or the whole strings, if shorter) are
alike. -/
theorem eqMax_iff (ci : Bool) (a b : List UInt8) (max : Nat) : eqMaxInt ci a b max = true ↔ Alike ci (a.take max) (b.take max) := by
  have h := eqLoop_iff ci a b max 0
  simp only [true_and] at h
  rw [← h]
  unfold eqMaxInt
  generalize eqLoop ci max 0 a b = r
  obtain ⟨r1, r2, r3, r4⟩ := r
  dsimp only
  by_cases h1 : r1 = 0 <;> by_cases h2 : r2 = 0 <;> by_cases h3 : r3 = [] <;> by_cases h4 : r4 = [] <;> simp [h1, h2, h3, h4]

/-- Strings are reported equal exactly if they are alike. -/
theorem eq_iff (ci : Bool) (a b : List UInt8) (ha : a.length < Buf.W) (hb : b.length < Buf.W) : eq ci a b = true ↔ Alike ci a b := by
  unfold eq
  rw [eqMax_iff, List.take_of_length_le (by omega), List.take_of_length_le (by omega)]

theorem Alike.length {ci : Bool} {a b : List UInt8} (h : Alike ci a b) : a.length = b.length := by
  induction h with
  | nil => rfl
  | cons _ _ ih => simp [ih]

theorem alike_false (a b : List UInt8) : Alike false a b ↔ a = b := by
  constructor
  · intro h
    induction h with
    | nil => rfl
    | cons h _ ih => rcases h with h | h
                     · rw [h, ih]
                     · cases h.1
  · rintro rfl
    induction a with
    | nil => exact .nil
    | cons x a ih => exact .cons (Or.inl rfl) ih

/-- A case sensitive comparison is equality. -/
theorem eq_exact (a b : List UInt8) (ha : a.length < Buf.W) (hb : b.length < Buf.W) : eq false a b = true ↔ a = b := by
  rw [eq_iff false a b ha hb, alike_false]

/-- The first string starts with one like the second. -/
theorem eqStart_iff (ci : Bool) (a b : List UInt8) : eqStart ci a b = true ↔ ∃ p r, a = p ++ r ∧ Alike ci p b := by
  unfold eqStart
  rw [eqMax_iff, List.take_length]
  constructor
  · intro h; exact ⟨_, _, (List.take_append_drop b.length a).symm, h⟩
  · rintro ⟨p, r, rfl, h⟩
    rw [← h.length, List.take_left]; exact h

/-- The first string ends in one like the second. -/
theorem eqEnd_iff (ci : Bool) (a b : List UInt8) : eqEnd ci a b = true ↔ ∃ p r, a = p ++ r ∧ Alike ci r b := by
  unfold eqEnd
  by_cases hl : b.length > a.length
  · rw [if_pos hl]
    constructor
    · intro h; cases h
    · rintro ⟨p, r, rfl, h⟩
      have := h.length
      rw [List.length_append] at hl; omega
  · rw [if_neg hl, eqMax_iff, List.take_length, List.take_of_length_le (by rw [List.length_drop]; omega)]
    constructor
    · intro h; exact ⟨_, _, (List.take_append_drop (a.length - b.length) a).symm, h⟩
    · rintro ⟨p, r, rfl, h⟩
      rw [← h.length, List.length_append, Nat.add_sub_cancel, List.drop_left]; exact h

example : eq true [72, 105] [104, 73] = true ∧ eq false [72, 105] [104, 73] = false ∧ eq true [64] [96] = false ∧ eqStart true [72, 105, 33] [104, 73] = true ∧
    eqEnd false [72, 105, 33] [105, 33] = true ∧ eq false [72] [72, 105] = false := by decide +kernel

theorem casestr_loop (needle : List UInt8) : ∀ (hay : List UInt8) (i : Nat),
    match casestrLoop needle i hay with
    | some k => ∃ p q r, hay = p ++ q ++ r ∧ k = i + p.length ∧ Alike true q needle ∧ ∀ p' q' r', hay = p' ++ q' ++ r' → Alike true q' needle → p.length ≤ p'.length
    | none => hay = [] ∨ ∀ p q r, hay = p ++ q ++ r → ¬ Alike true q needle := by
  intro hay
  induction hay with
  | nil => intro i; exact Or.inl rfl
  | cons c cs ih =>
    intro i
    unfold casestrLoop
    by_cases h1 : needle.length > (c :: cs).length
    · rw [if_pos h1]
      refine Or.inr ?_
      intro p q r e h
      have := h.length
      rw [e, List.length_append, List.length_append] at h1; omega
    · rw [if_neg h1]
      by_cases h2 : eqMaxInt true (c :: cs) needle needle.length = true
      · rw [if_pos h2]
        obtain ⟨p, r, e, h⟩ := (eqStart_iff true (c :: cs) needle).1 h2
        exact ⟨[], p, r, e, rfl, h, fun _ _ _ _ _ => Nat.zero_le _⟩
      · rw [if_neg h2]
        have hno : ∀ q r, c :: cs = q ++ r → ¬ Alike true q needle := fun q r e h => h2 ((eqStart_iff true (c :: cs) needle).2 ⟨q, r, e, h⟩)
        have := ih (i + 1)
        split at this
        · rename_i k hk
          obtain ⟨p, q, r, e, hk, h, hm⟩ := this
          refine ⟨c :: p, q, r, by rw [e]; simp, by simp only [List.length_cons]; omega, h, ?_⟩
          intro p' q' r' e' h'
          cases p' with
          | nil => exact absurd h' (hno q' r' e')
          | cons d p' =>
            simp only [List.cons_append, List.cons.injEq] at e'
            exact Nat.succ_le_succ (hm p' q' r' e'.2 h')
        · rename_i hk
          refine Or.inr ?_
          intro p q r e h
          cases p with
          | nil => exact hno q r e h
          | cons d p =>
            simp only [List.cons_append, List.cons.injEq] at e
            rcases this with h0 | h0
            · rw [h0] at e
              have e2 := e.2.symm
              simp only [List.append_eq_nil_iff] at e2
              have : needle = [] := by
                have := h.length
                rw [e2.1.2] at this
                exact List.length_eq_zero_iff.1 this.symm
              rw [this] at hno
              exact hno [] (c :: cs) rfl .nil
            · exact h0 p q r e.2 h

/-- Case insensitive search: the index returned is that of the first part of the haystack like the needle; a failure
means there is no such part (or the haystack is empty). -/
theorem casestr_correct (hay needle : List UInt8) :
    match casestr hay needle with
    | some k => ∃ p q r, hay = p ++ q ++ r ∧ k = p.length ∧ Alike true q needle ∧ ∀ p' q' r', hay = p' ++ q' ++ r' → Alike true q' needle → p.length ≤ p'.length
    | none => hay = [] ∨ ∀ p q r, hay = p ++ q ++ r → ¬ Alike true q needle := by
  have := casestr_loop needle hay 0
  unfold casestr
  split at this
  · rename_i k hk; simpa using this
  · rename_i hk; exact this

/-- The empty string is not found in the empty string. -/
theorem casestr_empty : casestr [] [] = none := by decide

example : casestr [97, 66, 99, 98] [98, 67] = some 1 ∧ casestr [97, 66] [98, 67] = none := by decide +kernel

/-! ### Bounded copies -/

theorem strlen_str (s r : List UInt8) (h : 0 ∉ s) : strlen (s ++ 0 :: r) = some s.length := by
  unfold strlen
  rw [if_pos (by simp), List.takeWhile_append_of_pos]
  · simp
  · intro x hx
    have : x ≠ 0 := fun e => h (e ▸ hx)
    simpa using this

/-- Copying the string at `src` into `dest`, which has room for `destLen` bytes: as much of the string as fits is copied,
it is terminated within the room, and nothing else changes. -/
theorem cpy_correct (dest s r : List UInt8) (destLen : Nat) (h0 : 0 < destLen) (hd : destLen ≤ dest.length) (hs : 0 ∉ s) :
    cpyMax dest destLen (s ++ 0 :: r) none = some (s.take (destLen - 1) ++ 0 :: dest.drop (min s.length (destLen - 1) + 1), true) := by
  unfold cpyMax
  rw [if_neg (by omega), strlen_str s r hs, Option.bind_some]
  have hl : (s.take (destLen - 1)).length = min s.length (destLen - 1) := by rw [List.length_take]; omega
  generalize hn : min s.length (destLen - 1) = n at *
  have e1 : rd (s ++ 0 :: r) 0 n = some (s.take (destLen - 1)) := by
    have : s ++ 0 :: r = [] ++ (s.take (destLen - 1) ++ (s.drop (destLen - 1) ++ 0 :: r)) := by
      rw [List.nil_append, ← List.append_assoc, List.take_append_drop]
    rw [this]; exact rd_mid _ _ _ _ _ rfl hl.symm
  rw [e1, Option.bind_some]
  have d1 : dest = [] ++ (dest.take n ++ dest.drop n) := by rw [List.nil_append, List.take_append_drop]
  have e2 : wr dest 0 (s.take (destLen - 1)) = some ([] ++ (s.take (destLen - 1) ++ dest.drop n)) := by
    conv => lhs; rw [d1]
    exact wr_mid _ _ _ _ _ rfl (by rw [hl, List.length_take]; omega)
  rw [e2, Option.bind_some, List.nil_append]
  have d2 : dest.drop n = (dest.drop n).take 1 ++ dest.drop (n + 1) := by
    rw [← List.drop_drop, List.take_append_drop]
  rw [d2, wr_mid _ _ _ [0] _ hl.symm (by rw [List.length_take, List.length_drop]; simp; omega)]
  rfl

/-- The same with a given number of source bytes. -/
theorem cpyMax_correct (dest src : List UInt8) (destLen n : Nat) (h0 : 0 < destLen) (hd : destLen ≤ dest.length) (hs : n ≤ src.length) :
    cpyMax dest destLen src (some n) = some (src.take (min n (destLen - 1)) ++ 0 :: dest.drop (min n (destLen - 1) + 1), true) := by
  unfold cpyMax
  rw [if_neg (by omega)]
  simp only [Option.bind_some]
  generalize hm : min n (destLen - 1) = m at *
  have hl : (src.take m).length = m := by rw [List.length_take]; omega
  have e1 : rd src 0 m = some (src.take m) := by
    have : src = [] ++ (src.take m ++ src.drop m) := by rw [List.nil_append, List.take_append_drop]
    conv => lhs; rw [this]
    exact rd_mid _ _ _ _ _ rfl hl.symm
  rw [e1, Option.bind_some]
  have d1 : dest = [] ++ (dest.take m ++ dest.drop m) := by rw [List.nil_append, List.take_append_drop]
  have e2 : wr dest 0 (src.take m) = some ([] ++ (src.take m ++ dest.drop m)) := by
    conv => lhs; rw [d1]
    exact wr_mid _ _ _ _ _ rfl (by rw [hl, List.length_take]; omega)
  rw [e2, Option.bind_some, List.nil_append]
  have d2 : dest.drop m = (dest.drop m).take 1 ++ dest.drop (m + 1) := by
    rw [← List.drop_drop, List.take_append_drop]
  rw [d2, wr_mid _ _ _ [0] _ hl.symm (by rw [List.length_take, List.length_drop]; simp; omega)]
  rfl

/-- Appending a string to the string in `dest`: it is appended whole and terminated if there is room, and otherwise nothing
changes. -/
theorem cat_correct (d rest s : List UInt8) (destLen : Nat) (hd : 0 ∉ d) (hr : destLen ≤ (d ++ 0 :: rest).length) :
    cat (d ++ 0 :: rest) destLen s = if d.length + s.length < destLen then some (d ++ s ++ 0 :: rest.drop s.length, true) else some (d ++ 0 :: rest, false) := by
  unfold cat
  by_cases h0 : destLen = 0
  · rw [if_pos h0, if_neg (by omega)]
  · rw [if_neg h0, strlen_str d rest hd, Option.bind_some]
    by_cases h1 : d.length + s.length < destLen
    · rw [if_neg (by omega), if_pos h1]
      simp only [List.length_append, List.length_cons] at hr
      have e1 : d ++ 0 :: rest = d ++ ((0 :: rest).take s.length ++ (0 :: rest).drop s.length) := by rw [List.take_append_drop]
      rw [e1, wr_mid d _ _ s _ rfl (by rw [List.length_take]; simp only [List.length_cons]; omega), Option.bind_some]
      have e2 : (0 :: rest).drop s.length = ((0 :: rest).drop s.length).take 1 ++ rest.drop s.length := by
        have : rest.drop s.length = ((0 :: rest).drop s.length).drop 1 := by rw [List.drop_drop]; simp
        rw [this, List.take_append_drop]
      rw [e2, ← List.append_assoc, wr_mid (d ++ s) _ _ [0] _ (by simp) (by rw [List.length_take, List.length_drop]; simp; omega)]
      rfl
    · rw [if_pos (by omega), if_neg h1]

example : cpyMax [1, 2, 3, 4] 3 [97, 98, 99, 0] none = some ([97, 98, 0, 4], true) ∧ cat [97, 0, 9, 9] 4 [98, 99] = some ([97, 98, 99, 0], true) ∧
    cat [97, 0, 9, 9] 3 [98, 99] = some ([97, 0, 9, 9], false) := by decide

/-! ### Trimming -/

/-- The ends of a string are no white space. -/
def NoOuter (s : List UInt8) : Prop := (∀ c t, s = c :: t → isSpace c = false) ∧ (∀ c t, s = t ++ [c] → isSpace c = false)

theorem dropWhile_split (p : UInt8 → Bool) (s : List UInt8) : ∃ a, s = a ++ s.dropWhile p ∧ (∀ x ∈ a, p x = true) ∧ ∀ c t, s.dropWhile p = c :: t → p c = false := by
  induction s with
  | nil => exact ⟨[], rfl, by simp, by simp⟩
  | cons c s ih =>
    rw [List.dropWhile_cons]
    by_cases h : p c = true
    · rw [if_pos h]
      obtain ⟨a, e, h1, h2⟩ := ih
      exact ⟨c :: a, by rw [List.cons_append, ← e], by simpa [h] using h1, h2⟩
    · rw [if_neg h]
      refine ⟨[], rfl, by simp, ?_⟩
      intro d t e
      simp only [List.cons.injEq] at e
      rw [← e.1]; simpa using h

theorem core_spec (s : List UInt8) : ∃ a b, s = a ++ ((s.dropWhile isSpace).reverse.dropWhile isSpace).reverse ++ b ∧ (∀ x ∈ a, isSpace x = true) ∧ (∀ x ∈ b, isSpace x = true) ∧
    NoOuter ((s.dropWhile isSpace).reverse.dropWhile isSpace).reverse := by
  obtain ⟨a, e1, h1, h2⟩ := dropWhile_split isSpace s
  generalize s.dropWhile isSpace = t at *
  obtain ⟨b, e3, h3, h4⟩ := dropWhile_split isSpace t.reverse
  generalize t.reverse.dropWhile isSpace = u at *
  have e5 : t = u.reverse ++ b.reverse := by
    have := congrArg List.reverse e3
    simpa using this
  refine ⟨a, b.reverse, by rw [e1, e5]; simp, h1, by simpa using h3, ?_, ?_⟩
  · intro c r e
    rw [e] at e5
    exact h2 c _ e5
  · intro c r e
    have e' : u = c :: r.reverse := by
      have := congrArg List.reverse e
      simpa using this
    exact h4 c _ e'

/-- Trimming takes away exactly the white space at both ends. -/
theorem trim_correct (s : List UInt8) : ∃ a b, s = a ++ trim s ++ b ∧ (∀ x ∈ a, isSpace x = true) ∧ (∀ x ∈ b, isSpace x = true) ∧ NoOuter (trim s) := by
  unfold trim trimMax
  simp only [List.take_length]
  by_cases h : s.length = 0
  · rw [if_pos h]
    have := List.length_eq_zero_iff.1 h
    subst this
    exact ⟨[], [], rfl, by simp, by simp, by simp [NoOuter]⟩
  · rw [if_neg h]
    by_cases h2 : s.dropWhile isSpace = []
    · rw [if_pos h2]
      have := core_spec s
      rw [h2] at this
      simpa using this
    · rw [if_neg h2]
      exact core_spec s

/-- There is only one way to take the white space off. -/
theorem trim_unique {s a b t : List UInt8} (e : s = a ++ t ++ b) (ha : ∀ x ∈ a, isSpace x = true) (hb : ∀ x ∈ b, isSpace x = true) (ht : NoOuter t) : trim s = t := by
  have hd (l r : List UInt8) (h : ∀ x ∈ l, isSpace x = true) : (l ++ r).dropWhile isSpace = r.dropWhile isSpace := by
    induction l with
    | nil => rfl
    | cons x l ih =>
      rw [List.cons_append, List.dropWhile_cons, if_pos (h x (by simp))]
      exact ih fun y hy => h y (by simp [hy])
  have core : ((s.dropWhile isSpace).reverse.dropWhile isSpace).reverse = t := by
    rw [e, List.append_assoc, hd a _ ha]
    cases ht' : t with
    | nil =>
      have := hd b [] hb
      rw [List.append_nil] at this
      rw [List.nil_append, this]; rfl
    | cons c r =>
      have hc := ht.1 c r ht'
      rw [List.cons_append, List.dropWhile_cons, if_neg (by simp [hc]), ← List.cons_append, List.reverse_append, hd _ _ (by simpa using hb), ← ht']
      cases hr : t.reverse with
      | nil => simp at hr; rw [hr] at ht'; cases ht'
      | cons d u =>
        have : t = u.reverse ++ [d] := by have := congrArg List.reverse hr; simpa using this
        have hd := ht.2 d _ this
        rw [List.dropWhile_cons, if_neg (by simp [hd]), ← hr, List.reverse_reverse]
  unfold trim trimMax
  simp only [List.take_length]
  by_cases h : s.length = 0
  · rw [if_pos h]
    have := List.length_eq_zero_iff.1 h
    rw [this] at e
    have e' := e.symm
    simp only [List.append_eq_nil_iff] at e'
    rw [this, e'.1.2]
  · rw [if_neg h]
    by_cases h2 : s.dropWhile isSpace = []
    · rw [if_pos h2]; rw [h2] at core; simpa using core
    · rw [if_neg h2]; exact core

theorem trim_eq {t : List UInt8} (ht : NoOuter t) : trim t = t :=
  trim_unique (a := []) (b := []) (by simp) (by simp) (by simp) ht

example : trim [32, 9, 97, 32, 98, 10] = [97, 32, 98] ∧ trim [32, 32] = [] := by decide +kernel

/-! ### Quoting -/

theorem quoteLoop_eq (q e : UInt8) (s : List UInt8) : ∀ pend out, quoteLoop q e s pend out = out ++ pend ++ escape q e s := by
  induction s with
  | nil => intro pend out; simp [quoteLoop, escape]
  | cons c s ih =>
    intro pend out
    unfold quoteLoop escape
    by_cases h : ceq c q = true ∨ ceq c e = true
    · rw [if_pos h, if_pos h, ih]; simp
    · rw [if_neg h, if_neg h, ih]; simp

theorem ceq_iff (c u : UInt8) (h : u < 128) : ceq c u = true ↔ c = u := by
  unfold ceq
  simp only [decide_eq_true_eq]
  constructor
  · exact fun h => h.1
  · rintro rfl; exact ⟨rfl, h⟩

theorem unescape_escape (q e : UInt8) (hq : q < 128) (he : e < 128) (s : List UInt8) : unescape q e (escape q e s) = s := by
  induction s with
  | nil => rfl
  | cons c s ih =>
    unfold escape
    by_cases h : ceq c q = true ∨ ceq c e = true
    · rw [if_pos h]
      unfold unescape
      rw [if_pos ⟨rfl, h.symm⟩, ih]
    · rw [if_neg h]
      have hc : c ≠ e := fun hce => h (Or.inr ((ceq_iff c e he).2 hce))
      cases hs : escape q e s with
      | nil =>
        rw [hs] at ih
        unfold unescape
        rw [← ih]; rfl
      | cons d r =>
        unfold unescape
        rw [if_neg (fun h => hc h.1), ← hs, ih]

/-- Taking the quotes off a string in quotes. -/
theorem unquote_enclosed (q e : UInt8) (hq : q < 128) (hs : isSpace q = false) (t : List UInt8) : unquote ([q] ++ t ++ [q]) q e = unescape q e t := by
  have hno : NoOuter ([q] ++ t ++ [q]) := by
    constructor
    · intro c r h
      simp only [List.singleton_append, List.cons_append, List.cons.injEq] at h
      rw [← h.1]; exact hs
    · intro c r h
      have := List.append_inj_right' h rfl
      simp only [List.cons.injEq, and_true] at this
      rw [← this]; exact hs
  have ht : trimMax ([q] ++ t ++ [q]) ([q] ++ t ++ [q]).length = [q] ++ t ++ [q] := trim_eq hno
  unfold unquote unquoteMax
  simp only [ht, List.take_length]
  rw [if_neg (by simp), if_neg (by simp)]
  have hg : ([q] ++ t ++ [q]).getLast? = some q := List.getLast?_concat
  have hh : ([q] ++ t ++ [q]).head? = some q := rfl
  have hc : ceq q q = true := (ceq_iff q q hq).2 rfl
  rw [hg, hh]
  simp only [Option.any_some, hc, Bool.and_self, Bool.true_eq_false, if_false]
  congr 1
  simp [List.take_append]

/-- Quoting a string and taking the quotes off again gives the string back (the part of it that was quoted). -/
theorem unquote_quoteMax (q e : UInt8) (hq : q < 128) (he : e < 128) (hs : isSpace q = false) (s : List UInt8) (max : Nat) :
    unquote (quoteMax s q e max) q e = s.take max := by
  unfold quoteMax
  by_cases h : s = []
  · rw [if_pos h, h, List.take_nil]; rfl
  · rw [if_neg h, quoteLoop_eq, List.append_nil, unquote_enclosed q e hq hs, unescape_escape q e hq he]

theorem unquote_quote (q e : UInt8) (hq : q < 128) (he : e < 128) (hs : isSpace q = false) (s : List UInt8) : unquote (quote s q e) q e = s := by
  unfold quote
  rw [unquote_quoteMax q e hq he hs, List.take_length]

/-- A quote or escape character above 127 is never recognised in the string, so it does not survive. -/
theorem quote_high_fails : unquote (quote [97, 200, 98] 200 200) 200 200 ≠ [97, 200, 98] := by decide +kernel

example : quote [97, 34, 92] 34 92 = [34, 97, 92, 34, 92, 92, 34] ∧ unquote [32, 34, 97, 34, 34, 34] 34 34 = [97, 34] := by decide +kernel

theorem escape_none (q e : UInt8) (s : List UInt8) (h : ∀ c ∈ s, ceq c q = false ∧ ceq c e = false) : escape q e s = s := by
  induction s with
  | nil => rfl
  | cons c s ih =>
    unfold escape
    have := h c (by simp)
    rw [if_neg (by simp [this]), ih fun x hx => h x (by simp [hx])]

/-- A string that does not begin with a quote is only trimmed. -/
theorem unquote_bare (q e : UInt8) (s : List UInt8) (h : ∀ c ∈ s, ceq c q = false) : unquote s q e = trim s := by
  have hm : ∀ c ∈ trim s, ceq c q = false := by
    obtain ⟨a, b, e1, _, _, _⟩ := trim_correct s
    intro c hc
    refine h c ?_
    rw [e1]; simp [hc]
  unfold unquote unquoteMax
  have e1 : trimMax s s.length = trim s := rfl
  simp only [e1]
  by_cases h0 : trim s = []
  · rw [if_pos h0]
  · rw [if_neg h0]
    by_cases h1 : ((trim s).take s.length).length = 1
    · rw [if_pos h1]
    · rw [if_neg h1]
      refine if_pos ?_
      cases ht : (trim s).take s.length with
      | nil => rfl
      | cons c r =>
        have : c ∈ trim s := List.mem_of_mem_take (i := s.length) (by rw [ht]; simp)
        simp [hm c this]

/-- `M_str_quote_if_necessary`: a string left alone holds neither quote nor delimiter, and what is returned reads back as
the string.  Missing for white space other than blanks at the ends, see `quoteIf_fails`. -/
theorem quoteIf_partial (q e d : UInt8) (hq : q < 128) (he : e < 128) (hd : d < 128) (hs : isSpace q = false) (s : List UInt8)
    (hw : ∀ c ∈ s, isSpace c = true → c = 32) :
    unquote ((quoteIf s q e d).getD s) q e = s ∧ (quoteIf s q e d = none → q ∉ s ∧ d ∉ s) := by
  unfold quoteIf
  by_cases h0 : s = []
  · rw [if_pos h0, h0]; exact ⟨rfl, by simp⟩
  · rw [if_neg h0]
    by_cases h1 : s.head? = some 32 ∨ s.getLast? = some 32
    · rw [if_pos h1]; exact ⟨unquote_quote q e hq he hs s, by simp⟩
    · rw [if_neg h1]
      by_cases h2 : (s.any fun c => ceq c q || ceq c d) = true
      · rw [if_pos h2]; exact ⟨unquote_quote q e hq he hs s, by simp⟩
      · rw [if_neg h2]
        have h3 : ∀ c ∈ s, ceq c q = false ∧ ceq c d = false := by
          intro c hc
          simp only [List.any_eq_true, not_exists, not_and] at h2
          have := h2 c hc
          simpa using this
        refine ⟨?_, fun _ => ⟨fun hm => ?_, fun hm => ?_⟩⟩
        · rw [Option.getD_none, unquote_bare q e s fun c hc => (h3 c hc).1]
          refine trim_eq ⟨?_, ?_⟩
          · intro c t hst
            by_cases hc : isSpace c = true
            · have := hw c (by simp [hst]) hc
              exact absurd (Or.inl (by rw [hst, this]; rfl)) h1
            · simpa using hc
          · intro c t hst
            by_cases hc : isSpace c = true
            · have := hw c (by simp [hst]) hc
              exact absurd (Or.inr (by rw [hst, this]; exact List.getLast?_concat)) h1
            · simpa using hc
        · have := (h3 q hm).1
          rw [(ceq_iff q q hq).2 rfl] at this; cases this
        · have := (h3 d hm).2
          rw [(ceq_iff d d hd).2 rfl] at this; cases this

/-- A leading tab is not thought to need quotes, but is taken off when the quotes are. -/
theorem quoteIf_fails : quoteIf [9, 97] 34 34 44 = none ∧ unquote [9, 97] 34 34 = [97] := by decide +kernel

end Verif.Str
