import Verif.Decimal.Text
import Verif.Decimal.Props
import Verif.Num.Props
/-! C69, C70: the text form of decimals. -/
namespace Verif.Decimal
open Verif.Num (digitVal value valueFrom valueFrom_eq w64)

/-- A decimal digit. -/
def Dig (c : UInt8) : Prop := 48 ≤ c ∧ c ≤ 57

instance (c : UInt8) : Decidable (Dig c) := inferInstanceAs (Decidable (_ ∧ _))

theorem dig_facts (c : UInt8) : (Dig c ↔ digitVal c < 10) ∧ (Dig c → c ≠ 0 ∧ Chr.isSpace c = false ∧ c ≠ 45 ∧ c ≠ 43 ∧ c ≠ 46 ∧
    Chr.toLower c ≠ 101) := by
  have h : ∀ n : Fin 256, (Dig (UInt8.ofNat n.val) ↔ digitVal (UInt8.ofNat n.val) < 10) ∧ (Dig (UInt8.ofNat n.val) → UInt8.ofNat n.val ≠ 0 ∧
    Chr.isSpace (UInt8.ofNat n.val) = false ∧ UInt8.ofNat n.val ≠ 45 ∧ UInt8.ofNat n.val ≠ 43 ∧ UInt8.ofNat n.val ≠ 46 ∧
    Chr.toLower (UInt8.ofNat n.val) ≠ 101) := by decide +kernel
  have := h ⟨c.toNat, c.toNat_lt⟩
  simpa only [UInt8.ofNat_toNat] using this

/-- The rest of the memory does not continue a number. -/
def Stops (rest : List UInt8) : Prop := ∃ c r, rest = c :: r ∧ ¬ Dig c

theorem u64Loop_digits (ds rest : List UInt8) (n : Nat) : ∀ ret, (∀ c ∈ ds, Dig c) → (n = ds.length ∨ ds.length ≤ n ∧ Stops rest) →
    valueFrom 10 ret ds < w64 → Num.u64Loop 10 (ds ++ rest) n ret false = some (valueFrom 10 ret ds, false, rest) := by
  induction ds generalizing n with
  | nil =>
    intro ret _ hn _
    cases n with
    | zero => cases rest <;> rfl
    | succ n =>
      rcases hn with hn | ⟨_, c, r, rfl, hc⟩
      · simp at hn
      · rw [List.nil_append, Num.u64Loop]
        split
        · rfl
        · rw [if_pos]
          · rfl
          · rw [Num.digit_eq]
            have := (dig_facts c).1
            have := mt this.2 hc
            omega
  | cons c ds ih =>
    intro ret hd hn hv
    cases n with
    | zero => simp at hn
    | succ n =>
      have hc := hd c List.mem_cons_self
      have hc' := (dig_facts c).1.1 hc
      have hv' : valueFrom 10 (ret * 10 + digitVal c) ds < w64 := hv
      have hge := Num.valueFrom_ge (base := 10) (by decide) ds (ret * 10 + digitVal c)
      rw [List.cons_append, Num.u64Loop, if_neg ((dig_facts c).2 hc).1, Num.digit_eq, if_neg (by omega)]
      simp only []
      rw [Nat.mod_eq_of_lt (by omega), decide_eq_false (by omega), Bool.or_false]
      rw [ih n _ (fun x hx => hd x (List.mem_cons_of_mem _ hx)) (by simp only [List.length_cons] at hn; exact hn.imp (by omega) (fun h => ⟨by omega, h.2⟩)) hv']
      rfl

/-- The sign in front of a number. -/
def Sign (sg : List UInt8) (neg : Bool) : Prop := sg = [] ∧ neg = false ∨ sg = [45] ∧ neg = true

/-- Reading an integer in base ten. -/
theorem toInt64_any {sg ds rest : List UInt8} {neg : Bool} {n : Nat} (hs : Sign sg neg ∨ sg = [43] ∧ neg = false) (hd : ∀ c ∈ ds, Dig c) (hne : ds ≠ [])
    (hn : n = sg.length + ds.length ∨ sg.length + ds.length ≤ n ∧ Stops rest) (hv : value 10 ds < w64) :
    Num.toInt64Ex (sg ++ ds ++ rest) n 10 = if Fits (Num.signed neg (value 10 ds)) then some (.success, some (Num.signed neg (value 10 ds), rest))
      else some (.overflow, some (if neg then -9223372036854775808 else 9223372036854775807, rest)) := by
  obtain ⟨c, ds', rfl⟩ := List.exists_cons_of_ne_nil hne
  have hc := (dig_facts c).2 (hd c List.mem_cons_self)
  have hval : valueFrom 10 0 (c :: ds') = value 10 (c :: ds') := by rw [valueFrom_eq]; simp
  have hl : (c :: ds').length = ds'.length + 1 := rfl
  unfold Num.toInt64Ex
  rw [if_neg (by omega)]
  have hprep : Num.prep (sg ++ (c :: ds') ++ rest) n 10 = some (c :: ds' ++ rest, n - sg.length, 10, neg) := by
    unfold Num.prep
    rcases hs with (⟨rfl, rfl⟩ | ⟨rfl, rfl⟩) | ⟨rfl, rfl⟩
    · simp only [List.nil_append, List.cons_append]
      rw [Num.eatWs, if_neg (by simp [hc.2.1])]
      simp only [bind, Option.bind_some]
      rw [Num.sign, if_neg (by omega)]
      simp [hc.2.2.1, hc.2.2.2.1, Num.autoBase]
    · simp only [List.cons_append, List.nil_append]
      rw [Num.eatWs, if_neg (fun h => absurd h.1 (by decide))]
      simp only [bind, Option.bind_some]
      rw [Num.sign, if_neg (by omega)]
      simp [Num.autoBase]
    · simp only [List.cons_append, List.nil_append]
      rw [Num.eatWs, if_neg (fun h => absurd h.1 (by decide))]
      simp only [bind, Option.bind_some]
      rw [Num.sign, if_neg (by omega)]
      simp [Num.autoBase]
  rw [hprep]
  simp only [bind, Option.bind_some]
  rw [Num.toUint64Int, if_neg (by decide), u64Loop_digits (c :: ds') rest (n - sg.length) 0 hd (hn.imp (by omega) (fun h => ⟨by omega, h.2⟩)) (by rw [hval]; exact hv)]
  simp only [bind, Option.bind_some]
  rw [if_neg (by decide), if_neg (by simp only [List.cons_append, List.length_cons, List.length_append]; omega), hval]
  simp only [Option.bind_some]
  cases neg
  · by_cases h : value 10 (c :: ds') > 9223372036854775807
    · have hn : ¬ Fits (Num.signed false (value 10 (c :: ds'))) := by unfold Fits Num.signed; simp; omega
      simp [h, hn]
    · have hn : Fits (Num.signed false (value 10 (c :: ds'))) := by unfold Fits Num.signed; simp; omega
      rw [if_pos hn]
      simp [h, Num.signed]
  · by_cases h : value 10 (c :: ds') > 9223372036854775807 + 1
    · have hn : ¬ Fits (Num.signed true (value 10 (c :: ds'))) := by unfold Fits Num.signed; simp; omega
      simp [h, hn]
    · have hn : Fits (Num.signed true (value 10 (c :: ds'))) := by unfold Fits Num.signed; simp; omega
      rw [if_pos hn]
      simp [h, Num.signed]

theorem toInt64_digits {sg ds rest : List UInt8} {neg : Bool} {n : Nat} (hs : Sign sg neg ∨ sg = [43] ∧ neg = false) (hd : ∀ c ∈ ds, Dig c) (hne : ds ≠ [])
    (hn : n = sg.length + ds.length ∨ sg.length + ds.length ≤ n ∧ Stops rest) (hv : Fits (Num.signed neg (value 10 ds))) :
    Num.toInt64Ex (sg ++ ds ++ rest) n 10 = some (.success, some (Num.signed neg (value 10 ds), rest)) := by
  rw [toInt64_any hs hd hne hn, if_pos hv]
  have : (Num.signed neg (value 10 ds)).natAbs = value 10 ds := by unfold Num.signed; split <;> simp
  unfold Fits at hv
  rw [w64]
  omega

theorem signed_add (neg : Bool) (a b : Nat) : Num.signed neg (a + b) = Num.signed neg a + Num.signed neg b := by
  unfold Num.signed; split <;> omega

theorem signed_mul (neg : Bool) (a b : Nat) : Num.signed neg (a * b) = Num.signed neg a * (b : Int) := by
  unfold Num.signed; split
  · rw [Int.natCast_mul, Int.neg_mul]
  · rw [Int.natCast_mul]

theorem value_append (ds fs : List UInt8) : value 10 (ds ++ fs) = value 10 ds * 10 ^ fs.length + value 10 fs := by
  induction ds with
  | nil => simp [value]
  | cons c ds ih => rw [List.cons_append, value, value, ih, List.length_append, Nat.pow_add, Nat.add_mul, Nat.mul_assoc, Nat.add_assoc]

theorem value_lt (ds : List UInt8) (h : ∀ c ∈ ds, Dig c) : value 10 ds < 10 ^ ds.length := by
  induction ds with
  | nil => simp [value]
  | cons c ds ih =>
    have h1 := (dig_facts c).1.1 (h c List.mem_cons_self)
    have h2 := ih (fun x hx => h x (List.mem_cons_of_mem _ hx))
    rw [value, List.length_cons, Nat.pow_succ]
    have h3 : digitVal c * 10 ^ ds.length ≤ 9 * 10 ^ ds.length := Nat.mul_le_mul_right _ (by omega)
    omega

/-- The character after a number: not a digit, a decimal point or the start of an exponent. -/
def Ends (rest : List UInt8) : Prop := ∃ c r, rest = c :: r ∧ ¬ Dig c ∧ c ≠ 46 ∧ Chr.toLower c ≠ 101

/-- The character after the digits: not a digit or a decimal point. -/
def Soft (rest : List UInt8) : Prop := ∃ c r, rest = c :: r ∧ ¬ Dig c ∧ c ≠ 46

theorem Ends.soft {rest : List UInt8} (h : Ends rest) : Soft rest := by
  obtain ⟨c, r, h1, h2, h3, _⟩ := h
  exact ⟨c, r, h1, h2, h3⟩

theorem expPart_stop (s : List UInt8) (len : Nat) (v : Dec) {rest : List UInt8} (h : Ends rest) :
    expPart s len v false (some rest) = some (.success, v, some rest) := by
  obtain ⟨c, r, rfl, _, _, h3⟩ := h
  unfold expPart
  simp [h3]

theorem reduceLoop_scale (n : Int) (k : Nat) : reduceLoop (n * 10 ^ k) k = ⟨n, 0⟩ := by
  induction k with
  | zero => simp [reduceLoop]
  | succ k ih =>
    have e : n * 10 ^ (k + 1) = n * 10 ^ k * 10 := by rw [Int.pow_succ, Int.mul_assoc]
    rw [reduceLoop, e, if_neg (by rw [Int.mul_tmod_left]; simp), Int.mul_tdiv_cancel _ (by decide), ih]

theorem fromStr_int_soft {sg ds rest : List UInt8} {neg : Bool} {len : Nat} (hs : Sign sg neg) (hd : ∀ c ∈ ds, Dig c) (hne : ds ≠ [])
    (he : Soft rest) (hl : sg.length + ds.length ≤ len) (hv : Fits (Num.signed neg (value 10 ds))) :
    fromStr (sg ++ ds ++ rest) len = expPart (sg ++ ds ++ rest) len ⟨Num.signed neg (value 10 ds), 0⟩ false (some rest) := by
  obtain ⟨c, ds', rfl⟩ := List.exists_cons_of_ne_nil hne
  have hc := (dig_facts c).2 (hd c List.mem_cons_self)
  have hhead : ∃ x r, sg ++ (c :: ds') ++ rest = x :: r ∧ x ≠ 46 := by
    rcases hs with ⟨rfl, _⟩ | ⟨rfl, _⟩
    · exact ⟨c, ds' ++ rest, rfl, hc.2.2.2.2.1⟩
    · exact ⟨45, c :: ds' ++ rest, rfl, by decide⟩
  have hint := toInt64_digits (n := len) (rest := rest) (Or.inl hs) hd hne (Or.inr ⟨hl, by obtain ⟨x, r, h1, h2, _⟩ := he; exact ⟨x, r, h1, h2⟩⟩) hv
  obtain ⟨x, r, hx, hx'⟩ := hhead
  unfold fromStr
  rw [hint, if_neg (by simp only [List.length_cons] at hl; omega), hx]
  simp only [List.getElem?_cons_zero, Option.bind_some]
  rw [if_neg hx', ← hx]
  unfold afterInt
  have hp : (if (sg ++ (c :: ds') ++ rest).length - rest.length < len then rest[0]?.map fun c => c == 46 else some false) = some false := by
    split
    · obtain ⟨y, r, rfl, _, h3⟩ := he
      simp [h3]
    · rfl
  simp only [hp, Option.bind_some, Bool.false_eq_true, if_false]
  rfl

/-- An integer is read exactly. -/
theorem fromStr_int {sg ds rest : List UInt8} {neg : Bool} {len : Nat} (hs : Sign sg neg) (hd : ∀ c ∈ ds, Dig c) (hne : ds ≠ [])
    (he : Ends rest) (hl : sg.length + ds.length ≤ len) (hv : Fits (Num.signed neg (value 10 ds))) :
    fromStr (sg ++ ds ++ rest) len = some (.success, ⟨Num.signed neg (value 10 ds), 0⟩, some rest) := by
  rw [fromStr_int_soft hs hd hne he.soft hl hv, expPart_stop _ _ _ he]

theorem fitDigits_exact {num ad : Int} {n : Nat} (hn : Fits num) (h1 : Fits (num * 10 ^ n)) (h2 : Fits (num * 10 ^ n + ad)) (ha : Fits ad)
    (hk : n ≤ 18 ∨ num = 0 ∧ n ≤ 255) (h0 : n ≠ 0) (tr : Bool) : fitDigits num n ad tr = (num * 10 ^ n + ad, n, tr) := by
  obtain ⟨m, rfl⟩ : ∃ m, n = m + 1 := ⟨n - 1, by omega⟩
  rw [fitDigits]
  have hm : multInt64 num (expInt64 10 ((m + 1) % 256)).2 = (.success, num * 10 ^ (m + 1)) := by
    rcases hk with hk | ⟨hk, hk'⟩
    · rw [Nat.mod_eq_of_lt (by omega), expInt64_le hk]
      simp only []
      rw [multInt64_spec _ _ hn (fits_pow.2 hk), if_pos h1, wrap_fits h1]
    · rw [hk]
      unfold multInt64
      simp only [Int.zero_mul]
      have e1 : i64min.tdiv (expInt64 10 ((m + 1) % 256)).2 ≤ 0 ∨ ¬ (expInt64 10 ((m + 1) % 256)).2 > 0 := by
        by_cases hp : (expInt64 10 ((m + 1) % 256)).2 > 0
        · left
          rw [show i64min = -9223372036854775808 from rfl, Int.neg_tdiv]
          have := Int.tdiv_nonneg (a := 9223372036854775808) (b := (expInt64 10 ((m + 1) % 256)).2) (by decide) (by omega)
          omega
        · right; exact hp
      rw [if_neg (by decide : ¬ (0 : Int) > 0)]
      have hz : wrap 0 = 0 := by decide
      rw [hz]
      split
      · rename_i h
        rw [decide_eq_false (by omega)]
        rfl
      · rw [decide_eq_false (by simp)]
        rfl
  rw [hm]
  simp only [ne_eq, reduceCtorEq, not_false_eq_true, if_true]
  unfold addInt64 i64max i64min
  unfold Fits at *
  rw [if_neg (by omega)]

theorem fromStr_frac_soft {sg ds fs rest : List UInt8} {neg : Bool} {len : Nat} (hs : Sign sg neg) (hd : ∀ c ∈ ds, Dig c) (hne : ds ≠ [])
    (hf : ∀ c ∈ fs, Dig c) (hfne : fs ≠ []) (he : Soft rest) (hl : sg.length + ds.length + 1 + fs.length ≤ len)
    (hk : fs.length ≤ 18 ∨ value 10 ds = 0 ∧ fs.length ≤ 255 ∧ value 10 fs ≤ 9223372036854775807) (hv : Fits (Num.signed neg (value 10 (ds ++ fs)))) :
    fromStr (sg ++ ds ++ (46 :: (fs ++ rest))) len =
      expPart (sg ++ ds ++ (46 :: (fs ++ rest))) len (reduce ⟨Num.signed neg (value 10 (ds ++ fs)), fs.length⟩) false (some rest) := by
  have hfv : value 10 fs ≤ 9223372036854775807 := by
    rcases hk with hk | ⟨_, _, hk⟩
    · have h1 := value_lt fs hf
      have h2 : (10 : Nat) ^ fs.length ≤ 10 ^ 18 := Nat.pow_le_pow_right (by decide) hk
      have h3 : (10 : Nat) ^ 18 = 1000000000000000000 := by decide
      omega
    · exact hk
  rw [value_append] at hv
  have hpos : 0 < 10 ^ fs.length := Nat.pow_pos (by decide)
  have habs : ∀ v, (Num.signed neg v).natAbs = v := by intro v; unfold Num.signed; split <;> simp
  have mono : ∀ a b, a ≤ b → Fits (Num.signed neg b) → Fits (Num.signed neg a) := by
    intro a b hab h
    unfold Fits Num.signed at *
    split <;> rename_i hn <;> simp only [hn] at h <;> simp at h <;> omega
  have hmul : Fits (Num.signed neg (value 10 ds * 10 ^ fs.length)) := mono _ _ (Nat.le_add_right _ _) hv
  have hnum : Fits (Num.signed neg (value 10 ds)) := mono _ _ (Nat.le_mul_of_pos_right _ hpos) hmul
  obtain ⟨c, ds', rfl⟩ := List.exists_cons_of_ne_nil hne
  have hc := (dig_facts c).2 (hd c List.mem_cons_self)
  have hhead : ∃ x r, sg ++ (c :: ds') ++ (46 :: (fs ++ rest)) = x :: r ∧ x ≠ 46 ∧ (x = 45 ↔ neg = true) := by
    rcases hs with ⟨rfl, rfl⟩ | ⟨rfl, rfl⟩
    · exact ⟨c, ds' ++ _, rfl, hc.2.2.2.2.1, by simp [hc.2.2.1]⟩
    · exact ⟨45, c :: ds' ++ _, rfl, by decide, by simp⟩
  have hint := toInt64_digits (n := len) (rest := 46 :: (fs ++ rest)) (Or.inl hs) hd hne (Or.inr ⟨by omega, 46, _, rfl, by decide⟩) hnum
  have hfint := toInt64_digits (n := len - (sg.length + (c :: ds').length + 1)) (rest := rest) (sg := []) (neg := false) (Or.inl (Or.inl ⟨rfl, rfl⟩)) hf hfne
    (Or.inr ⟨by simp only [List.length_nil]; omega, by obtain ⟨x, r, h1, h2, _⟩ := he; exact ⟨x, r, h1, h2⟩⟩) (by unfold Fits Num.signed; simp; omega)
  rw [List.nil_append] at hfint
  obtain ⟨x, r, hx, hx', hxn⟩ := hhead
  unfold fromStr
  rw [hint, if_neg (by simp only [List.length_cons] at hl; omega), hx]
  simp only [List.getElem?_cons_zero, Option.bind_some]
  rw [if_neg hx', ← hx]
  unfold afterInt
  have hlen : (sg ++ (c :: ds') ++ (46 :: (fs ++ rest))).length - (46 :: (fs ++ rest)).length = sg.length + (c :: ds').length := by
    simp only [List.length_append, List.length_cons]; omega
  have h0 : (sg ++ (c :: ds') ++ (46 :: (fs ++ rest)))[0]? = some x := by rw [hx]; rfl
  obtain ⟨k, hk0⟩ : ∃ k, len - (sg.length + (c :: ds').length + 1) = k + 1 := by
    have : fs.length ≠ 0 := fun h => hfne (List.length_eq_zero_iff.1 h)
    exact ⟨len - (sg.length + (c :: ds').length + 1) - 1, by omega⟩
  rw [hk0] at hfint
  simp only [hlen, h0, List.getElem?_cons_zero, Option.map_some, List.drop_succ_cons, List.drop_zero]
  rw [if_pos (by omega)]
  simp only [Option.bind_some, beq_self_eq_true, if_true]
  rw [hk0, fracLoop, hfint]
  simp only [Option.bind_some, reduceCtorEq, if_false]
  have e1 : Num.signed false (value 10 fs) = (value 10 fs : Int) := rfl
  have hsgn : (if ((some x == some 45) = true ∨ Num.signed neg (value 10 (c :: ds')) < 0) then -Num.signed false (value 10 fs) else Num.signed false (value 10 fs)) =
      Num.signed neg (value 10 fs) := by
    unfold Num.signed
    cases neg
    · have : x ≠ 45 := by simpa using hxn
      simp [this]
      omega
    · have : x = 45 := by simpa using hxn
      simp [this]
  rw [if_neg (by rw [e1]; omega), hsgn, value_append, signed_add, signed_mul]
  have hcast : ((10 ^ fs.length : Nat) : Int) = 10 ^ fs.length := by simp
  rw [hcast]
  by_cases hz : value 10 fs = 0
  · have hz' : Num.signed neg (value 10 fs) = 0 := by rw [hz]; unfold Num.signed; simp
    rw [hz']
    simp only [if_true, Option.bind_some, fitDigits]
    rw [Int.add_zero]
    have : reduce ⟨Num.signed neg (value 10 (c :: ds')) * 10 ^ fs.length, fs.length⟩ = ⟨Num.signed neg (value 10 (c :: ds')), 0⟩ := reduceLoop_scale _ _
    rw [this]
    rfl
  · have hz' : Num.signed neg (value 10 fs) ≠ 0 := by
      intro h
      have := habs (value 10 fs)
      rw [h] at this
      exact hz this.symm
    rw [if_neg hz']
    simp only [Option.map_some, Option.bind_some]
    have hll : (fs ++ rest).length - rest.length = fs.length := by simp
    rw [hll]
    rw [signed_add, signed_mul, hcast] at hv
    rw [signed_mul, hcast] at hmul
    rw [fitDigits_exact hnum hmul hv (by unfold Fits Num.signed; split <;> omega) (by
        rcases hk with h | ⟨h, h', _⟩
        · exact Or.inl h
        · refine Or.inr ⟨by rw [h]; unfold Num.signed; simp, h'⟩) (fun h => hfne (List.length_eq_zero_iff.1 h))]
    simp only []
    rw [Nat.mod_eq_of_lt (by omega)]

/-- A number with decimals is read exactly, if it fits. -/
theorem fromStr_frac {sg ds fs rest : List UInt8} {neg : Bool} {len : Nat} (hs : Sign sg neg) (hd : ∀ c ∈ ds, Dig c) (hne : ds ≠ [])
    (hf : ∀ c ∈ fs, Dig c) (hfne : fs ≠ []) (he : Ends rest) (hl : sg.length + ds.length + 1 + fs.length ≤ len)
    (hk : fs.length ≤ 18 ∨ value 10 ds = 0 ∧ fs.length ≤ 255 ∧ value 10 fs ≤ 9223372036854775807) (hv : Fits (Num.signed neg (value 10 (ds ++ fs)))) :
    fromStr (sg ++ ds ++ (46 :: (fs ++ rest))) len =
      some (.success, reduce ⟨Num.signed neg (value 10 (ds ++ fs)), fs.length⟩, some rest) := by
  rw [fromStr_frac_soft hs hd hne hf hfne he.soft hl hk hv, expPart_stop _ _ _ he]

/-! ### Writing -/

theorem ofNat_dig {n : Nat} (h : n < 10) : Dig (UInt8.ofNat (48 + n)) ∧ digitVal (UInt8.ofNat (48 + n)) = n := by
  have : ∀ k : Fin 10, Dig (UInt8.ofNat (48 + k.val)) ∧ digitVal (UInt8.ofNat (48 + k.val)) = k.val := by decide +kernel
  exact this ⟨n, h⟩

theorem decStr_spec (n : Nat) : (∀ c ∈ decStr n, Dig c) ∧ value 10 (decStr n) = n ∧ (decStr n).length = countDigits n ∧ decStr n ≠ [] ∧
    ((decStr n).head? = some 48 → decStr n = [48]) := by
  induction n using Nat.strongRecOn with
  | ind n ih =>
    rw [decStr, countDigits]
    by_cases h : n < 10
    · rw [if_pos h, if_pos (by omega)]
      have h1 := ofNat_dig h
      refine ⟨by intro c hc; rw [List.mem_singleton.1 hc]; exact h1.1, by rw [value, value, h1.2]; simp, rfl, by simp, ?_⟩
      intro h; simp only [List.head?_cons, Option.some.injEq] at h; rw [h]
    · rw [if_neg h, if_neg (by omega)]
      obtain ⟨h1, h2, h3, h4, h5⟩ := ih (n / 10) (by omega)
      have hm := ofNat_dig (n := n % 10) (by omega)
      refine ⟨?_, ?_, by simp [h3], by simp, ?_⟩
      · intro c hc
        rcases List.mem_append.1 hc with hc | hc
        · exact h1 c hc
        · rw [List.mem_singleton.1 hc]; exact hm.1
      · rw [value_append, h2]
        rw [value, value, hm.2]
        simp only [List.length_cons, List.length_nil, Nat.pow_zero, Nat.pow_one, Nat.zero_add]
        omega
      · intro hh
        obtain ⟨a, l, hal⟩ := List.exists_cons_of_ne_nil h4
        rw [hal] at hh h5
        simp only [List.cons_append, List.head?_cons] at hh h5
        have := h5 hh
        rw [hal, this] at h2
        have hz : value 10 [48] = 0 := by decide
        omega

theorem countDigits_le (n : Nat) : ∀ k, countDigits n ≤ k ↔ 1 ≤ k ∧ n < 10 ^ k := by
  induction n using Nat.strongRecOn with
  | ind n ih =>
    intro k
    rw [countDigits]
    cases k with
    | zero => split <;> simp
    | succ k =>
      have hp : (10 : Nat) ^ (k + 1) = 10 ^ k * 10 := Nat.pow_succ ..
      have hpos : 0 < (10 : Nat) ^ k := Nat.pow_pos (by decide)
      split
      · constructor
        · intro _; omega
        · omega
      · rw [Nat.succ_le_succ_iff, ih (n / 10) (by omega) k]
        cases k with
        | zero => simp; omega
        | succ k =>
          rw [Nat.div_lt_iff_lt_mul (by decide), hp]
          omega

theorem uexp_eq (e : Nat) (h : e ≤ 19) : uexp 10 e = 10 ^ e := by
  have : ∀ k : Fin 20, uexp 10 k.val = 10 ^ k.val := by decide +kernel
  exact this ⟨e, by omega⟩

theorem value_zeros (k : Nat) (ds : List UInt8) : value 10 (List.replicate k 48 ++ ds) = value 10 ds := by
  rw [value_append]
  have : value 10 (List.replicate k 48) = 0 := by
    induction k with
    | zero => rfl
    | succ k ih =>
      rw [List.replicate_succ, value, ih]
      have : digitVal 48 = 0 := by decide
      rw [this]; omega
  rw [this]; omega

theorem decPad_spec {w n : Nat} (hw : 1 ≤ w) (h : n < 10 ^ w) : (∀ c ∈ decPad w n, Dig c) ∧ value 10 (decPad w n) = n ∧ (decPad w n).length = w := by
  obtain ⟨h1, h2, h3, _⟩ := decStr_spec n
  have hl := (countDigits_le n w).2 ⟨hw, h⟩
  unfold decPad
  refine ⟨?_, by rw [value_zeros, h2], by simp; omega⟩
  intro c hc
  rcases List.mem_append.1 hc with hc | hc
  · rw [(List.mem_replicate.1 hc).2]; decide
  · exact h1 c hc

/-- `t` is the decimal notation of `num / 10^nd`: a minus sign for negative numbers, the digits before the decimal point without
superfluous zeros, and all `nd` digits after it. -/
structure Notation (num : Int) (nd : Nat) (sg ds fs : List UInt8) : Prop where
  sign : sg = if num < 0 then [45] else []
  int : ∀ c ∈ ds, Dig c
  frac : ∀ c ∈ fs, Dig c
  nonempty : ds ≠ []
  zeros : ds.head? = some 48 → ds = [48]
  places : fs.length = nd
  value : value 10 (ds ++ fs) = num.natAbs

/-- The text of a notation. -/
def written (sg ds fs : List UInt8) : List UInt8 := sg ++ ds ++ if fs = [] then [] else 46 :: fs

/-- **C69**, for at most 19 decimal places.  `M_decimal_to_str` writes the decimal notation of the number if it fits the buffer
with its terminator, and otherwise refuses.  Missing: more decimal places (`toStr_many_fails`). -/
theorem toStr_correct_partial (d : Dec) (hnd : d.nd ≤ 19) : ∃ sg ds fs, Notation d.num d.nd sg ds fs ∧
    ∀ bufLen, toStr d bufLen = some (if (written sg ds fs).length < bufLen then some (written sg ds fs) else none) := by
  have he := uexp_eq d.nd hnd
  have hpos : 0 < 10 ^ d.nd := Nat.pow_pos (by decide)
  obtain ⟨i1, i2, i3, i4, i5⟩ := decStr_spec (d.num.natAbs / 10 ^ d.nd)
  have hint : (if d.nd ≥ countDigits d.num.natAbs then some [48] else if uexp 10 d.nd = 0 then none else some (decStr (d.num.natAbs / uexp 10 d.nd))) =
      some (decStr (d.num.natAbs / 10 ^ d.nd)) := by
    rw [he]
    split
    · rename_i h
      have := (countDigits_le _ _).1 h
      rw [Nat.div_eq_of_lt this.2, decStr]
      rfl
    · rw [if_neg (by omega)]
  -- the size
  have hsize : ∀ fs : List UInt8, fs.length = d.nd →
      (written (if d.num < 0 then [45] else []) (decStr (d.num.natAbs / 10 ^ d.nd)) fs).length + 1 = requiredSize d := by
    intro fs hfs
    unfold written requiredSize
    have hnil : fs = [] ↔ d.nd = 0 := by rw [← hfs, List.length_eq_zero_iff]
    have hcd : d.nd < countDigits d.num.natAbs → countDigits (d.num.natAbs / 10 ^ d.nd) = countDigits d.num.natAbs - d.nd := by
      have key : ∀ nd n, nd < countDigits n → countDigits (n / 10 ^ nd) = countDigits n - nd := by
        intro nd
        induction nd with
        | zero => intro n _; simp
        | succ nd ih =>
          intro n h
          have e : n / 10 ^ (nd + 1) = n / 10 / 10 ^ nd := by rw [Nat.pow_succ, Nat.mul_comm, Nat.div_div_eq_div_mul]
          rw [e]
          have h' : countDigits n = countDigits (n / 10) + 1 := by
            rw [countDigits] at h
            conv => lhs; rw [countDigits]
            split at h
            · omega
            · rename_i hz; rw [if_neg hz]
          rw [ih (n / 10) (by omega), h']
          omega
      exact key d.nd d.num.natAbs
    simp only [List.length_append, i3]
    have hsg : (if d.num < 0 then [45] else ([] : List UInt8)).length = if d.num < 0 then 1 else 0 := by split <;> rfl
    have hfl : (if fs = [] then [] else (46 : UInt8) :: fs).length = if d.nd = 0 then 0 else d.nd + 1 := by
      by_cases h : d.nd = 0
      · rw [if_pos (hnil.2 h), if_pos h]; rfl
      · rw [if_neg (fun h' => h (hnil.1 h')), if_neg h, List.length_cons, hfs]
    rw [hsg, hfl]
    by_cases hge : countDigits d.num.natAbs ≤ d.nd
    · have hlt := (countDigits_le _ _).1 hge
      rw [Nat.div_eq_of_lt hlt.2]
      have h0 : countDigits 0 = 1 := by rw [countDigits]; simp
      rw [h0]
      simp only [ge_iff_le, gt_iff_lt]
      have hz : d.nd ≠ 0 := by omega
      simp only [hge, hz, if_true, if_false, ne_eq, not_false_eq_true]
      split <;> split <;> omega
    · rw [hcd (by omega)]
      simp only [ge_iff_le, gt_iff_lt]
      rw [if_neg hge, if_neg (show ¬ countDigits d.num.natAbs < d.nd by omega)]
      by_cases h : d.nd = 0
      · simp only [h, if_true, if_false, ne_eq, not_true_eq_false]; omega
      · simp only [h, if_true, if_false, ne_eq, not_false_eq_true]; omega
  by_cases h0 : d.nd = 0
  · refine ⟨_, _, [], ⟨rfl, i1, by simp, i4, i5, h0.symm, ?_⟩, ?_⟩
    · rw [List.append_nil, i2, h0]; simp
    · intro bufLen
      have hs := hsize [] h0.symm
      have hl : 1 ≤ (decStr (d.num.natAbs / 10 ^ d.nd)).length := by
        have : (decStr (d.num.natAbs / 10 ^ d.nd)).length ≠ 0 := fun h => i4 (List.length_eq_zero_iff.1 h)
        omega
      have hw : 1 ≤ (written (if d.num < 0 then [45] else []) (decStr (d.num.natAbs / 10 ^ d.nd)) []).length := by
        unfold written; simp only [List.length_append]; omega
      unfold toStr
      simp only [hint, Option.bind_some]
      by_cases hb : (written (if d.num < 0 then [45] else []) (decStr (d.num.natAbs / 10 ^ d.nd)) []).length < bufLen
      · rw [if_pos hb, if_neg (by omega), if_neg (by omega), if_pos h0]
        simp [written]
      · rw [if_neg hb]
        by_cases h2 : bufLen < 2
        · rw [if_pos h2]
        · rw [if_neg h2, if_pos (by omega)]
  · obtain ⟨p1, p2, p3⟩ := decPad_spec (w := d.nd) (n := d.num.natAbs % 10 ^ d.nd) (by omega) (Nat.mod_lt _ hpos)
    have hne : decPad d.nd (d.num.natAbs % 10 ^ d.nd) ≠ [] := by intro h; rw [h] at p3; exact h0 p3.symm
    refine ⟨_, _, decPad d.nd (d.num.natAbs % 10 ^ d.nd), ⟨rfl, i1, p1, i4, i5, p3, ?_⟩, ?_⟩
    · rw [value_append, i2, p2, p3, Nat.mul_comm]
      exact Nat.div_add_mod _ _
    · intro bufLen
      have hs := hsize _ p3
      have hw : 1 ≤ (written (if d.num < 0 then [45] else []) (decStr (d.num.natAbs / 10 ^ d.nd)) (decPad d.nd (d.num.natAbs % 10 ^ d.nd))).length := by
        have : (decStr (d.num.natAbs / 10 ^ d.nd)).length ≠ 0 := fun h => i4 (List.length_eq_zero_iff.1 h)
        unfold written; simp only [List.length_append]; omega
      unfold toStr
      simp only [hint, Option.bind_some]
      by_cases hb : (written (if d.num < 0 then [45] else []) (decStr (d.num.natAbs / 10 ^ d.nd)) (decPad d.nd (d.num.natAbs % 10 ^ d.nd))).length < bufLen
      · rw [if_pos hb, if_neg (by omega), if_neg (by omega), if_neg h0, he, if_neg (by omega), written, if_neg hne]
        simp
      · rw [if_neg hb]
        by_cases h2 : bufLen < 2
        · rw [if_pos h2]
        · rw [if_neg h2, if_pos (by omega)]

/-- **C69**: the text of a decimal reads back as the same number with trailing zeros removed.  Missing: more than 19 decimal
places (`toStr_many_fails`), and the smallest number with 19 (`roundtrip_min_fails`). -/
theorem text_roundtrip_partial (d : Dec) (hf : Fits d.num) (hnd : d.nd ≤ 19) (hmin : d.nd = 19 → d.num ≠ -9223372036854775808) (bufLen : Nat) (t junk : List UInt8)
    (h : toStr d bufLen = some (some t)) : fromStr (t ++ 0 :: junk) t.length = some (.success, reduce d, some (0 :: junk)) := by
  obtain ⟨sg, ds, fs, hn, hw⟩ := toStr_correct_partial d hnd
  rw [hw] at h
  have ht : t = written sg ds fs := by
    split at h
    · simp only [Option.some.injEq] at h; exact h.symm
    · simp at h
  have hends : Ends (0 :: junk) := ⟨0, junk, rfl, by decide, by decide, by decide⟩
  have hsgn : Sign sg (decide (d.num < 0)) := by
    rw [hn.sign]
    by_cases h : d.num < 0
    · right; simp [h]
    · left; simp [h]
  have hval : Num.signed (decide (d.num < 0)) (value 10 (ds ++ fs)) = d.num := by
    rw [hn.value]
    unfold Num.signed
    by_cases h : d.num < 0
    · simp only [h, decide_true, if_true]; omega
    · simp only [h, decide_false, Bool.false_eq_true, if_false]; omega
  by_cases h0 : fs = []
  · have hnd0 : d.nd = 0 := by rw [← hn.places, h0]; rfl
    rw [h0, List.append_nil] at hval
    rw [ht, written, if_pos h0, List.append_nil, fromStr_int hsgn hn.int hn.nonempty hends (by simp) (by rw [hval]; exact hf), hval]
    unfold reduce
    rw [hnd0]
    rfl
  · rw [ht, written, if_neg h0]
    have e : sg ++ ds ++ 46 :: fs ++ 0 :: junk = sg ++ ds ++ (46 :: (fs ++ 0 :: junk)) := by simp
    rw [e, fromStr_frac hsgn hn.int hn.nonempty hn.frac h0 hends (by simp; omega) ?_ (by rw [hval]; exact hf), hval, hn.places]
    rw [hn.places]
    by_cases h19 : d.nd = 19
    · right
      have hv := hn.value
      rw [value_append, hn.places, h19] at hv
      have h10 : (10 : Nat) ^ 19 = 10000000000000000000 := by decide
      have := hmin h19
      unfold Fits at hf
      refine ⟨by omega, by omega, by omega⟩
    · left; omega

example : Fits (-1205) ∧ toStr ⟨-1205, 2⟩ 7 = some (some [45, 49, 50, 46, 48, 53]) ∧ toStr ⟨-1205, 2⟩ 6 = some none := by decide +kernel

/-- Writing a number with 20 decimal places gives another number; with 64 it divides by zero. -/
theorem toStr_many_fails : toStr ⟨9000000000000000000, 20⟩ 256 =
    some (some [48, 46, 48, 49, 50, 51, 51, 55, 50, 48, 51, 54, 56, 53, 52, 55, 55, 53, 56, 48, 56, 48]) ∧ toStr ⟨5, 64⟩ 256 = none := by decide +kernel

/-- The smallest number with 19 decimal places comes back truncated. -/
theorem roundtrip_min_fails : ∃ t, toStr ⟨-9223372036854775808, 19⟩ 256 = some (some t) ∧
    fromStr (t ++ [0]) t.length = some (.truncation, ⟨-92233720368547758, 17⟩, some [0]) :=
  ⟨[45, 48, 46, 57, 50, 50, 51, 51, 55, 50, 48, 51, 54, 56, 53, 52, 55, 55, 53, 56, 48, 56], by decide +kernel⟩

/-! ### Reading -/

/-- **C70**.  A number in decimal notation, with at most 18 decimals and fitting 64 bits when its decimals are counted, is read
exactly, up to the first character that does not belong to it.  Missing: more decimals (`fromStr_many_fails`) and exponents
(`fromStr_exp_partial`). -/
theorem fromStr_exact_partial {sg ds fs rest : List UInt8} {neg : Bool} {len : Nat} (hs : Sign sg neg) (hd : ∀ c ∈ ds, Dig c) (hne : ds ≠ [])
    (hf : ∀ c ∈ fs, Dig c) (he : Ends rest) (hl : (written sg ds fs).length ≤ len) (hk : fs.length ≤ 18) (hv : Fits (Num.signed neg (value 10 (ds ++ fs)))) :
    ∃ d, fromStr (written sg ds fs ++ rest) len = some (.success, d, some rest) ∧ val d = mkRat (Num.signed neg (value 10 (ds ++ fs))) (10 ^ fs.length) ∧
      (d.nd = 0 ∨ ¬ (10 : Int) ∣ d.num) := by
  unfold written at hl ⊢
  by_cases h0 : fs = []
  · subst h0
    simp only [if_true, List.append_nil, List.length_append] at hl hv ⊢
    refine ⟨_, fromStr_int hs hd hne he (by omega) hv, rfl, Or.inl rfl⟩
  · rw [if_neg h0] at hl ⊢
    have e : sg ++ ds ++ 46 :: fs ++ rest = sg ++ ds ++ (46 :: (fs ++ rest)) := by simp
    rw [e]
    refine ⟨_, fromStr_frac hs hd hne hf h0 he (by simp at hl; omega) (Or.inl hk) hv, (reduce_spec (d := ⟨_, _⟩) hv).1, (reduce_spec (d := ⟨_, _⟩) hv).2.2.2.2⟩

example : Fits (Num.signed true (value 10 ([49, 50] ++ [48, 53]))) ∧ written [45] [49, 50] [48, 53] = [45, 49, 50, 46, 48, 53] := by decide +kernel

/-- A text that starts with the decimal point is read as if it had a zero in front. -/
theorem fromStr_point_partial {fs rest : List UInt8} {len : Nat} (hf : ∀ c ∈ fs, Dig c) (hfne : fs ≠ []) (he : Ends rest) (hl : 1 + fs.length ≤ len)
    (hk : fs.length ≤ 18) : fromStr (46 :: (fs ++ rest)) len = some (.success, reduce ⟨(value 10 fs : Int), fs.length⟩, some rest) := by
  have hfv : value 10 fs ≤ 9223372036854775807 := by
    have h1 := value_lt fs hf
    have h2 : (10 : Nat) ^ fs.length ≤ 10 ^ 18 := Nat.pow_le_pow_right (by decide) hk
    have h3 : (10 : Nat) ^ 18 = 1000000000000000000 := by decide
    omega
  have hfits : Fits (value 10 fs : Int) := by unfold Fits; omega
  have hfint := toInt64_digits (n := len - 1) (rest := rest) (sg := []) (neg := false) (Or.inl (Or.inl ⟨rfl, rfl⟩)) hf hfne
    (Or.inr ⟨by simp only [List.length_nil]; omega, by obtain ⟨x, r, h1, h2, _⟩ := he; exact ⟨x, r, h1, h2⟩⟩) hfits
  rw [List.nil_append] at hfint
  obtain ⟨k, hk0⟩ : ∃ k, len - 1 = k + 1 := by
    have : fs.length ≠ 0 := fun h => hfne (List.length_eq_zero_iff.1 h)
    exact ⟨len - 2, by omega⟩
  rw [hk0] at hfint
  unfold fromStr afterInt
  rw [if_neg (by omega)]
  simp only [List.getElem?_cons_zero, Option.bind_some, if_true, Nat.sub_self, Option.map_some, List.drop_succ_cons, List.drop_zero, Nat.zero_add]
  rw [if_pos (by omega)]
  simp only [Option.bind_some, beq_self_eq_true, if_true]
  rw [hk0, fracLoop, hfint]
  have e1 : Num.signed false (value 10 fs) = (value 10 fs : Int) := rfl
  simp only [Option.bind_some, reduceCtorEq, if_false, e1]
  rw [if_neg (by omega)]
  have h45 : ¬ ((some (46 : UInt8) == some 45) = true ∨ (0 : Int) < 0) := by decide
  rw [if_neg h45]
  by_cases hz : value 10 fs = 0
  · simp only [hz, Int.ofNat_zero, if_true, Option.bind_some, fitDigits]
    have : reduce ⟨0 * 10 ^ fs.length, fs.length⟩ = ⟨0, 0⟩ := reduceLoop_scale _ _
    rw [Int.zero_mul] at this
    rw [this, ← expPart_stop (46 :: (fs ++ rest)) len ⟨0, 0⟩ he]
    rfl
  · rw [if_neg (by omega)]
    simp only [Option.map_some, Option.bind_some]
    have hll : (fs ++ rest).length - rest.length = fs.length := by simp
    rw [hll, fitDigits_exact (by unfold Fits; omega) (by rw [Int.zero_mul]; unfold Fits; omega) (by rw [Int.zero_mul, Int.zero_add]; exact hfits) hfits (Or.inl hk)
      (fun h => hfne (List.length_eq_zero_iff.1 h))]
    simp only [Int.zero_mul, Int.zero_add]
    rw [Nat.mod_eq_of_lt (by omega), expPart_stop _ _ _ he]

example : fromStr [46, 50, 53, 44, 0] 3 = some (.success, ⟨25, 2⟩, some [44, 0]) := by decide +kernel

/-- A number whose digits before the decimal point do not fit is refused.  Missing: numbers of at least `2^64`, which
`M_str_to_int64_ex` can take for a smaller number (`Num.int64_overflow_missed_fails`). -/
theorem fromStr_overflow_partial {sg ds rest : List UInt8} {neg : Bool} {len : Nat} (hs : Sign sg neg) (hd : ∀ c ∈ ds, Dig c) (hne : ds ≠ [])
    (he : Stops rest) (hl : sg.length + ds.length ≤ len) (h64 : value 10 ds < 2 ^ 64) (hv : ¬ Fits (Num.signed neg (value 10 ds))) :
    fromStr (sg ++ ds ++ rest) len = some (.overflow, ⟨0, 0⟩, none) := by
  have e64 : (2 : Nat) ^ 64 = w64 := by decide
  rw [e64] at h64
  obtain ⟨c, ds', rfl⟩ := List.exists_cons_of_ne_nil hne
  have hc := (dig_facts c).2 (hd c List.mem_cons_self)
  have hhead : ∃ x r, sg ++ (c :: ds') ++ rest = x :: r ∧ x ≠ 46 := by
    rcases hs with ⟨rfl, _⟩ | ⟨rfl, _⟩
    · exact ⟨c, ds' ++ rest, rfl, hc.2.2.2.2.1⟩
    · exact ⟨45, c :: ds' ++ rest, rfl, by decide⟩
  have hint := toInt64_any (n := len) (rest := rest) (Or.inl hs) hd hne (Or.inr ⟨hl, he⟩) h64
  rw [if_neg hv] at hint
  obtain ⟨x, r, hx, hx'⟩ := hhead
  unfold fromStr
  rw [hint, if_neg (by simp only [List.length_cons] at hl; omega), hx]
  simp only [List.getElem?_cons_zero, Option.bind_some]
  rw [if_neg hx']

example : ¬ Fits (Num.signed true (value 10 [57, 50, 50, 51, 51, 55, 50, 48, 51, 54, 56, 53, 52, 55, 55, 53, 56, 48, 57])) := by decide +kernel

theorem tolower_e {c : UInt8} (h : c = 101 ∨ c = 69) : Chr.toLower c = 101 ∧ ¬ Dig c ∧ c ≠ 46 := by
  rcases h with rfl | rfl <;> decide

/-- Numbers with an exponent.  If the multiplication of the mantissa by the power of ten reports success, the result is exact.
Missing: when it does not, the number is truncated or refused though it may fit (`fromStr_exp_trunc_fails`), or wrong
(`fromStr_exp_fails`). -/
theorem fromStr_exp_partial {sg ds fs xsg xs rest : List UInt8} {neg xneg : Bool} {ec : UInt8} {len : Nat} (hs : Sign sg neg) (hd : ∀ c ∈ ds, Dig c) (hne : ds ≠ [])
    (hf : ∀ c ∈ fs, Dig c) (hx : ∀ c ∈ xs, Dig c) (hxne : xs ≠ []) (hxs : Sign xsg xneg ∨ xsg = [43] ∧ xneg = false) (hec : ec = 101 ∨ ec = 69) (he : Stops rest)
    (hl : (written sg ds fs ++ ec :: (xsg ++ xs)).length ≤ len) (hl' : len < 2 ^ 64) (hk : fs.length ≤ 18) (hv : Fits (Num.signed neg (value 10 (ds ++ fs))))
    (hxv : value 10 xs ≤ if xneg then 127 else 18) {r : Dec}
    (hm : multiply (reduce ⟨Num.signed neg (value 10 (ds ++ fs)), fs.length⟩) (if xneg then ⟨1, value 10 xs⟩ else ⟨10 ^ value 10 xs, 0⟩) = some (.success, r)) :
    fromStr (written sg ds fs ++ (ec :: (xsg ++ xs ++ rest))) len = some (.success, reduce r, some rest) ∧
      val r = mkRat (Num.signed neg (value 10 (ds ++ fs))) (10 ^ fs.length) *
        (if xneg then mkRat 1 (10 ^ value 10 xs) else mkRat (10 ^ value 10 xs) 1) := by
  have hsoft : Soft (ec :: (xsg ++ xs ++ rest)) := ⟨ec, _, rfl, (tolower_e hec).2.1, (tolower_e hec).2.2⟩
  have hexp : ∀ s : List UInt8, s.length = (written sg ds fs).length + (ec :: (xsg ++ xs ++ rest)).length →
      expPart s len (reduce ⟨Num.signed neg (value 10 (ds ++ fs)), fs.length⟩) false (some (ec :: (xsg ++ xs ++ rest))) =
        some (.success, reduce r, some rest) := by
    intro s hs
    have hpos : s.length - (ec :: (xsg ++ xs ++ rest)).length = (written sg ds fs).length := by omega
    rw [List.length_append, List.length_cons, List.length_append] at hl
    unfold expPart
    simp only [hpos, List.getElem?_cons_zero, Option.bind_some, List.drop_succ_cons, List.drop_zero]
    have hw : w64 = 2 ^ 64 := by decide
    rw [if_pos (by omega), if_pos (tolower_e hec).1]
    have hmod : (len + w64 - ((written sg ds fs).length + 1)) % w64 = len - ((written sg ds fs).length + 1) := by
      rw [show len + w64 - ((written sg ds fs).length + 1) = (len - ((written sg ds fs).length + 1)) + w64 by omega, Nat.add_mod_right, Nat.mod_eq_of_lt (by omega)]
    have hle : value 10 xs ≤ 127 := by split at hxv <;> omega
    rw [hmod, toInt64_digits hxs hx hxne (Or.inr ⟨by omega, he⟩) (by unfold Fits Num.signed; split <;> omega)]
    simp only [Option.bind_some]
    unfold scale
    have hone : ∀ n, reduce ⟨1, n⟩ = ⟨1, n⟩ := by
      intro n
      cases n with
      | zero => rfl
      | succ n => unfold reduce; rw [reduceLoop, if_pos (by simp only []; decide)]
    cases xneg
    · simp only [Bool.false_eq_true, if_false] at hxv hm
      have e1 : Num.signed false (value 10 xs) = (value 10 xs : Int) := rfl
      rw [e1, if_pos (by omega)]
      simp only [Int.toNat_natCast]
      rw [if_neg (by rw [expInt64_le hxv]; simp; omega), expInt64_le hxv]
      simp only [Option.bind_some]
      have : reduce ⟨10 ^ value 10 xs, 0⟩ = ⟨10 ^ value 10 xs, 0⟩ := rfl
      rw [this, hm]
      rfl
    · simp only [if_true] at hxv hm
      by_cases h0 : value 10 xs = 0
      · have e1 : Num.signed true (value 10 xs) = 0 := by rw [h0]; rfl
        rw [h0] at hm
        rw [e1, if_pos (by omega)]
        simp only [Int.toNat_zero]
        have : expInt64 10 0 = (.success, 1) := rfl
        rw [this]
        simp only [reduceCtorEq, or_false]
        rw [if_neg (by decide)]
        simp only [Option.bind_some]
        rw [hone, hm]
        rfl
      · have e1 : Num.signed true (value 10 xs) = -(value 10 xs : Int) := rfl
        rw [e1, if_neg (by omega)]
        simp only [Int.neg_neg]
        rw [chk, if_pos (by unfold i64min i64max; omega)]
        simp only [Option.map_some, Option.bind_some]
        rw [if_neg (by omega), Int.toNat_natCast, hone]
        simp only []
        rw [hm]
        rfl
  constructor
  · by_cases h0 : fs = []
    · subst h0
      simp only [List.append_nil] at hv
      rw [← hexp (written sg ds [] ++ (ec :: (xsg ++ xs ++ rest))) (by rw [List.length_append])]
      simp only [List.append_nil, List.length_nil]
      unfold written at hl ⊢
      simp only [if_true, List.append_nil, List.length_append, List.length_cons] at hl ⊢
      rw [fromStr_int_soft hs hd hne hsoft (by omega) hv]
      rfl
    · rw [← hexp (written sg ds fs ++ (ec :: (xsg ++ xs ++ rest))) (by rw [List.length_append])]
      unfold written at hl ⊢
      rw [if_neg h0] at hl ⊢
      have e : sg ++ ds ++ 46 :: fs ++ (ec :: (xsg ++ xs ++ rest)) = sg ++ ds ++ (46 :: (fs ++ (ec :: (xsg ++ xs ++ rest)))) := by simp
      rw [e, fromStr_frac_soft hs hd hne hf h0 hsoft (by simp at hl; omega) (Or.inl hk) hv]
  · have hr := reduce_spec (d := ⟨Num.signed neg (value 10 (ds ++ fs)), fs.length⟩) hv
    have hn : (reduce ⟨Num.signed neg (value 10 (ds ++ fs)), fs.length⟩).nd ≤ 18 := Nat.le_trans hr.2.2.1 hk
    cases xneg
    · simp only [Bool.false_eq_true, if_false] at hxv hm ⊢
      rw [multiply_exact_partial hr.2.1 (fits_pow.2 hxv) (by omega) (by simp) hm, hr.1]
      rfl
    · simp only [if_true] at hxv hm ⊢
      rw [multiply_exact_partial hr.2.1 (by unfold Fits; simp) (by omega) (by simpa using hxv) hm, hr.1]
      rfl

example : multiply (reduce ⟨Num.signed false (value 10 ([49] ++ [53])), 1⟩) ⟨10 ^ value 10 [51], 0⟩ = some (.success, ⟨1500, 0⟩) := by decide +kernel

/-- 1.23456789012e5 is 123456.789012, but is truncated. -/
theorem fromStr_exp_trunc_fails : fromStr [49, 46, 50, 51, 52, 53, 54, 55, 56, 57, 48, 49, 50, 101, 53, 0] 15 =
    some (.truncation, ⟨1234568, 1⟩, some [0]) := by decide +kernel

/-- 1.00000000000000000005 is read as -0.08446744073709551611, without an error. -/
theorem fromStr_many_fails : fromStr [49, 46, 48, 48, 48, 48, 48, 48, 48, 48, 48, 48, 48, 48, 48, 48, 48, 48, 48, 48, 48, 53, 0] 22 =
    some (.success, ⟨-8446744073709551611, 20⟩, some [0]) := by decide +kernel

/-- `1. 5` is read as 1.05. -/
theorem fromStr_space_fails : fromStr [49, 46, 32, 53, 0] 4 = some (.success, ⟨105, 2⟩, some [0]) := by decide +kernel

/-- The text `1e5` limited to its first character is read as 100000. -/
theorem fromStr_len_fails : fromStr [49, 101, 53, 0] 1 = some (.success, ⟨100000, 0⟩, some [0]) := by decide +kernel

/-- `9223372036854775807e-20` is read as 9223372036854775807. -/
theorem fromStr_exp_fails : fromStr [57, 50, 50, 51, 51, 55, 50, 48, 51, 54, 56, 53, 52, 55, 55, 53, 56, 48, 55, 101, 45, 50, 48, 0] 23 =
    some (.success, ⟨9223372036854775807, 0⟩, some [0]) := by decide +kernel

end Verif.Decimal
