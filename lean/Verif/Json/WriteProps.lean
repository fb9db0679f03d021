import Verif.Json.ReadProps
/-! C47, C48: what the writer writes is JSON that the reader reads back. -/
namespace Verif.Json
open Verif.Num (digitVal value)
open Verif.Utf8 (utf8 Scalar Allowed flat)
open Verif.Decimal (Dec)

/-! ### What can be written -/

/-- Characters the writer can write in a string: in escaped form only those of the basic plane. -/
def OkChar (fl : WFlags) (cp : Nat) : Prop := Allowed cp ∧ cp ≠ 0 ∧ (fl.dontEncode = true ∨ cp ≤ 0xFFFF)

/-- Strings the writer can write. -/
def OkStr (fl : WFlags) (s : List UInt8) : Prop := ∃ cps, s = flat cps ∧ ∀ cp ∈ cps, OkChar fl cp

/-- Names of members the writer can write: none of their characters needs an escape. -/
def OkKey (k : List UInt8) : Prop := ∃ cps, k = flat cps ∧ cps ≠ [] ∧ ∀ cp ∈ cps, Scalar cp ∧ 32 ≤ cp ∧ cp ≠ 34 ∧ cp ≠ 92

/-- Integers the writer writes as numbers. -/
def OkInt (n : Int) : Prop := -9007199254740991 ≤ n ∧ n ≤ 9007199254740991

/-- Decimals in lowest terms the writer writes as numbers. -/
def OkDec (fl : WFlags) (d : Dec) : Prop := d.nd ≠ 0 ∧ ¬ (10 : Int) ∣ d.num ∧ d.num.natAbs < 9223372036854775808 ∧
  (fl.noCompat = true ∧ d.nd ≤ 18 ∨ d.nd ≤ 15 ∧ d.num.natAbs < 9007199254740991 * 10 ^ d.nd)

mutual

/-- Documents that survive writing and reading: strings and numbers as above, names without characters that need escapes, distinct
and not empty. -/
def OkJson (fl : WFlags) : Json → Prop
  | .null => True
  | .bool _ => True
  | .int n => OkInt n
  | .dec d => OkDec fl d
  | .str s => OkStr fl s
  | .arr l => OkElems fl l
  | .obj l => OkMembers fl l ∧ (l.map (·.1)).Nodup

def OkElems (fl : WFlags) : List Json → Prop
  | [] => True
  | v :: l => OkJson fl v ∧ OkElems fl l

def OkMembers (fl : WFlags) : List (List UInt8 × Json) → Prop
  | [] => True
  | (k, v) :: l => OkKey k ∧ OkJson fl v ∧ OkMembers fl l

end

/-! ### Strings -/

theorem hexDig_val {n : Nat} (h : n < 16) : digitVal (hexDig n) = n := by
  have : ∀ n : Fin 16, digitVal (hexDig n.val) = n.val := by decide +kernel
  exact this ⟨n, h⟩

theorem hex4_spec {n : Nat} (h : n < 65536) : Hex4 (hex4 n) n := by
  have z : digitVal 48 = 0 := by decide
  have key : ∀ a b c d : Nat, a < 16 → b < 16 → c < 16 → d < 16 → n = ((a * 16 + b) * 16 + c) * 16 + d → hex4 n = [hexDig a, hexDig b, hexDig c, hexDig d] → Hex4 (hex4 n) n := by
    intro a b c d ha hb hc hd hn e
    rw [e]
    refine ⟨rfl, ?_, ?_⟩
    · intro x hx
      simp only [List.mem_cons, List.not_mem_nil, or_false] at hx
      rcases hx with rfl | rfl | rfl | rfl
      · rw [hexDig_val ha]; exact ha
      · rw [hexDig_val hb]; exact hb
      · rw [hexDig_val hc]; exact hc
      · rw [hexDig_val hd]; exact hd
    · simp only [value, hexDig_val, ha, hb, hc, hd, List.length_cons, List.length_nil]
      omega
  have z' : hexDig 0 = 48 := by decide
  by_cases h1 : n < 16
  · refine key 0 0 0 n (by decide) (by decide) (by decide) h1 (by omega) ?_
    have : hexStr n = [hexDig n] := by rw [hexStr, if_pos h1]
    simp [hex4, this, z', List.replicate]
  · by_cases h2 : n < 256
    · refine key 0 0 (n / 16) (n % 16) (by decide) (by decide) (by omega) (by omega) (by omega) ?_
      have : hexStr n = [hexDig (n / 16), hexDig (n % 16)] := by rw [hexStr, if_neg h1, hexStr, if_pos (by omega)]; rfl
      simp [hex4, this, z', List.replicate]
    · by_cases h3 : n < 4096
      · refine key 0 (n / 16 / 16) (n / 16 % 16) (n % 16) (by decide) (by omega) (by omega) (by omega) (by omega) ?_
        have : hexStr n = [hexDig (n / 16 / 16), hexDig (n / 16 % 16), hexDig (n % 16)] := by
          rw [hexStr, if_neg h1, hexStr, if_neg (by omega), hexStr, if_pos (by omega)]; rfl
        simp [hex4, this, z', List.replicate]
      · refine key (n / 16 / 16 / 16) (n / 16 / 16 % 16) (n / 16 % 16) (n % 16) (by omega) (by omega) (by omega) (by omega) (by omega) ?_
        have : hexStr n = [hexDig (n / 16 / 16 / 16), hexDig (n / 16 / 16 % 16), hexDig (n / 16 % 16), hexDig (n % 16)] := by
          rw [hexStr, if_neg h1, hexStr, if_neg (by omega), hexStr, if_neg (by omega), hexStr, if_pos (by omega)]; rfl
        simp [hex4, this]

/-- The strings of the readable grammar. -/
abbrev Body := StrBody (fun cp => Allowed cp ∧ cp ≠ 0) False

theorem utf8_high {cp : Nat} (hs : Scalar cp) (h : 128 ≤ cp) : ∃ b t, utf8 cp = b :: t ∧ b > 127 := by
  have hle := hs.1
  have key : ∀ n, n < 256 → 128 ≤ n → UInt8.ofNat n > 127 := by
    have : ∀ n : Fin 256, 128 ≤ n.val → UInt8.ofNat n.val > 127 := by decide +kernel
    intro n hn
    exact this ⟨n, hn⟩
  unfold utf8
  rw [if_neg (by omega)]
  split
  · exact ⟨_, _, rfl, key _ (by omega) (by omega)⟩
  · split
    · exact ⟨_, _, rfl, key _ (by omega) (by omega)⟩
    · exact ⟨_, _, rfl, key _ (by omega) (by omega)⟩

/-- One character is written as a piece of a JSON string that stands for it. -/
theorem write_char {fl : WFlags} {cp : Nat} (h : OkChar fl cp) (fuel : Nat) (r acc : List UInt8) :
    ∃ u, wStrLoop fl (fuel + 1) (utf8 cp ++ r) acc = wStrLoop fl fuel r (acc ++ u) ∧ ∀ t s, Body t s → Body (u ++ t) (utf8 cp ++ s) := by
  obtain ⟨ha, h0, he⟩ := h
  by_cases hhi : 128 ≤ cp
  · obtain ⟨b, tl, e, hb⟩ := utf8_high ha.1 hhi
    have hcp := Utf8.getCp_utf8 ha h0 (r ++ [0])
    have hn : (utf8 cp ++ r ++ [0]).length - (r ++ [0]).length = (utf8 cp).length := by simp only [List.length_append]; omega
    refine ⟨if fl.dontEncode then utf8 cp else [92, 117] ++ hex4 cp, ?_, ?_⟩
    · have key : ∀ x : UInt8, x > 127 → x ≠ 8 ∧ x ≠ 12 ∧ x ≠ 10 ∧ x ≠ 13 ∧ x ≠ 9 ∧ x ≠ 47 ∧ x ≠ 34 ∧ x ≠ 92 ∧ ¬ x < 32 := by
        intro x
        have : ∀ n : Fin 256, UInt8.ofNat n.val > 127 → UInt8.ofNat n.val ≠ 8 ∧ UInt8.ofNat n.val ≠ 12 ∧ UInt8.ofNat n.val ≠ 10 ∧ UInt8.ofNat n.val ≠ 13 ∧
          UInt8.ofNat n.val ≠ 9 ∧ UInt8.ofNat n.val ≠ 47 ∧ UInt8.ofNat n.val ≠ 34 ∧ UInt8.ofNat n.val ≠ 92 ∧ ¬ UInt8.ofNat n.val < 32 := by decide +kernel
        have := this ⟨x.toNat, x.toNat_lt⟩
        simpa only [UInt8.ofNat_toNat] using this
      obtain ⟨k1, k2, k3, k4, k5, k6, k7, k8, k9⟩ := key b hb
      have hd : (utf8 cp ++ r).drop (utf8 cp).length = r := by simp
      have ht : (utf8 cp ++ r).take (utf8 cp).length = utf8 cp := by simp
      rw [← List.append_assoc] at hcp
      generalize utf8 cp = U at *
      subst e
      rw [List.cons_append] at *
      rw [wStrLoop.eq_def]
      simp only [k1, k2, k3, k4, k5, k6, k7, k8, k9, or_self, if_false, if_pos hb, hcp, Option.bind_some]
      rw [hn, hd, ht]
    · intro t s hts
      split
      · exact .plain ha.1 (by omega) (by omega) (by omega) hts
      · rename_i hne
        have hle : cp ≤ 0xFFFF := by
          rcases he with he | he
          · exact absurd he hne
          · exact he
        exact .uni (hex4_spec (by omega)) ha.1 ⟨ha, h0⟩ hts
  · have hu : utf8 cp = [UInt8.ofNat cp] := by unfold utf8; rw [if_pos (by omega)]
    have hlow : cp < 128 := by omega
    have hn : (UInt8.ofNat cp).toNat = cp := Utf8.toNat_ofNat (by omega)
    have hb0 : ∀ n : Fin 128, UInt8.ofNat n.val ≤ 127 ∧ (UInt8.ofNat n.val < 32 ↔ n.val < 32) ∧ (UInt8.ofNat n.val = 34 ↔ n.val = 34) ∧ (UInt8.ofNat n.val = 92 ↔ n.val = 92) := by
      decide +kernel
    obtain ⟨b1, b2, b3, b4⟩ := hb0 ⟨cp, hlow⟩
    rw [hu]
    have htwo : ∀ e b : UInt8, (e, b) ∈ escapes → ∀ t s, Body t s → Body ([92, e] ++ t) ([b] ++ s) := fun e b h t s hts => .two h hts
    rw [List.cons_append, List.nil_append, wStrLoop.eq_def]
    simp only [] at b1 b2 b3 b4
    generalize hc : UInt8.ofNat cp = c at *
    simp only []
    by_cases c1 : c = 8
    · subst c1; exact ⟨_, by rw [if_pos rfl], htwo _ _ (by decide)⟩
    · rw [if_neg c1]
      by_cases c2 : c = 12
      · subst c2; exact ⟨_, by rw [if_pos rfl], htwo _ _ (by decide)⟩
      · rw [if_neg c2]
        by_cases c3 : c = 10
        · subst c3; exact ⟨_, by rw [if_pos rfl], htwo _ _ (by decide)⟩
        · rw [if_neg c3]
          by_cases c4 : c = 13
          · subst c4; exact ⟨_, by rw [if_pos rfl], htwo _ _ (by decide)⟩
          · rw [if_neg c4]
            by_cases c5 : c = 9
            · subst c5; exact ⟨_, by rw [if_pos rfl], htwo _ _ (by decide)⟩
            · rw [if_neg c5]
              by_cases c6 : c = 47
              · subst c6; exact ⟨_, by rw [if_pos rfl], htwo _ _ (by decide)⟩
              · rw [if_neg c6]
                have hgt : ¬ c > 127 := UInt8.not_lt.2 b1
                by_cases c7 : c = 34
                · subst c7
                  refine ⟨[92, 34], ?_, htwo _ _ (by decide)⟩
                  simp
                · by_cases c8 : c = 92
                  · subst c8
                    refine ⟨[92, 92], ?_, htwo _ _ (by decide)⟩
                    simp
                  · simp only [c7, c8, or_self, if_false]
                    by_cases c9 : c < 32
                    · refine ⟨[92, 117] ++ hex4 cp, ?_, ?_⟩
                      · rw [if_pos c9, hn, List.append_assoc]
                      · intro t s hts
                        have := StrBody.uni (esc := fun cp => Allowed cp ∧ cp ≠ 0) (pairs := False) (hex4_spec (n := cp) (by omega)) ha.1 ⟨ha, h0⟩ hts
                        rw [hu] at this
                        exact this
                    · refine ⟨[c], ?_, ?_⟩
                      · rw [if_neg c9, if_neg hgt]
                      · intro t s hts
                        have := StrBody.plain (esc := fun cp => Allowed cp ∧ cp ≠ 0) (pairs := False) ha.1 (by have := mt b2.2 c9; omega) (fun h => c7 (b3.2 h)) (fun h => c8 (b4.2 h)) hts
                        rw [hu] at this
                        exact this

theorem wStrLoop_flat {fl : WFlags} (cps : List Nat) : ∀ fuel acc, (∀ cp ∈ cps, OkChar fl cp) → cps.length < fuel →
    ∃ t, wStrLoop fl fuel (flat cps) acc = some (some (acc ++ t)) ∧ Body t (flat cps) := by
  induction cps with
  | nil =>
    intro fuel acc _ hf
    obtain ⟨f, rfl⟩ : ∃ f, fuel = f + 1 := ⟨fuel - 1, by omega⟩
    exact ⟨[], by rw [flat, List.flatMap_nil, wStrLoop.eq_def]; simp, .nil⟩
  | cons cp cps ih =>
    intro fuel acc h hf
    simp only [List.length_cons] at hf
    obtain ⟨f, rfl⟩ : ∃ f, fuel = f + 1 := ⟨fuel - 1, by omega⟩
    obtain ⟨u, h1, h2⟩ := write_char (h cp List.mem_cons_self) f (flat cps) acc
    obtain ⟨t, h3, h4⟩ := ih f (acc ++ u) (fun c hc => h c (List.mem_cons_of_mem _ hc)) (by omega)
    exact ⟨u ++ t, by rw [Utf8.flat_cons, h1, h3, List.append_assoc], by rw [Utf8.flat_cons]; exact h2 _ _ h4⟩

theorem wStr_ok {fl : WFlags} {s : List UInt8} (h : OkStr fl s) : ∃ t, wStr fl s = some (some (34 :: (t ++ [34]))) ∧ Body t s := by
  obtain ⟨cps, rfl, h⟩ := h
  obtain ⟨t, h1, h2⟩ := wStrLoop_flat cps ((flat cps).length + 1) [34] h (by have := Utf8.flat_length cps; omega)
  exact ⟨t, by rw [wStr, h1]; simp, h2⟩

theorem key_body {k : List UInt8} (h : OkKey k) : Body k k ∧ k ≠ [] := by
  obtain ⟨cps, rfl, hne, h⟩ := h
  constructor
  · clear hne
    induction cps with
    | nil => exact .nil
    | cons cp cps ih =>
      obtain ⟨h1, h2, h3, h4⟩ := h cp List.mem_cons_self
      exact .plain h1 h2 h3 h4 (ih (fun c hc => h c (List.mem_cons_of_mem _ hc)))
  · obtain ⟨c, r, rfl⟩ := List.exists_cons_of_ne_nil hne
    rw [Utf8.flat_cons]
    simp [Utf8.utf8_ne_nil]

/-! ### Numbers -/

theorem wInt_ok (fl : WFlags) (rf : RFlags) {n : Int} (h : OkInt n) : (readable rf).num (wInt fl n) (.int n) := by
  unfold OkInt at h
  have hbig : ¬ (n < -jsMax ∨ n > jsMax) := by unfold jsMax; omega
  obtain ⟨h1, h2, _, h4, h5⟩ := Decimal.decStr_spec n.natAbs
  have hsig : Num.signed (decide (n < 0)) n.natAbs = n := by
    unfold Num.signed
    by_cases hn : n < 0
    · rw [if_pos (by simpa using hn)]; omega
    · rw [if_neg (by simpa using hn)]; omega
  refine ⟨⟨decide (n < 0), Decimal.decStr n.natAbs, [], none⟩, ⟨h4, h1, h5, by simp, by simp⟩, ?_, ?_, rfl, by simp, ?_⟩
  · unfold wInt NumParts.text intStr
    simp only [hbig, and_false, if_false]
    simp
  · simp only [IsNum, NumParts.val, List.append_nil, h2, hsig, List.length_nil]
    simp [Rat.mkRat_one]
  · simp only [List.append_nil, h2, hsig]
    unfold Decimal.Fits
    omega

theorem tdiv_bound {a b : Int} {n : Nat} (hb : 0 < b) (h : (a.natAbs : Int) < n * b) : (a.tdiv b).natAbs < n := by
  rw [Int.natAbs_tdiv]
  apply Nat.div_lt_of_lt_mul
  have : (b.natAbs : Int) = b := by omega
  have h2 : (a.natAbs : Int) < (b.natAbs : Int) * (n : Int) := by rw [this, Int.mul_comm]; exact h
  exact_mod_cast h2

/-- The rounding of a decimal to an integer is off by at most one. -/
theorem decToInt_ok {d : Dec} (h0 : d.nd ≠ 0) (h18 : d.nd ≤ 18) (hn : d.num.natAbs < 9223372036854775808) (hz : d.num ≠ 0) :
    ∃ i, decToInt d = some i ∧ (i = d.num.tdiv (10 ^ d.nd) ∨ i = d.num.tdiv (10 ^ d.nd) + 1 ∨ i = d.num.tdiv (10 ^ d.nd) - 1) := by
  have hpos : (0 : Int) < 10 ^ d.nd := Int.pow_pos (by decide)
  have hq : ((d.num.tdiv (10 ^ d.nd)).natAbs : Int) ≤ 922337203685477580 := by
    have : (d.num.tdiv (10 ^ d.nd)).natAbs < 922337203685477581 := by
      apply tdiv_bound hpos
      have e : d.nd = (d.nd - 1) + 1 := by omega
      have h1 : (1 : Int) ≤ 10 ^ (d.nd - 1) := by
        have : (0 : Int) < 10 ^ (d.nd - 1) := Int.pow_pos (by decide)
        omega
      rw [e, Int.pow_succ]
      omega
    omega
  have hround : ∃ i, Decimal.roundOut (d.num.tdiv (10 ^ d.nd)) d.num (10 ^ d.nd) .traditional = some i ∧
      (i = d.num.tdiv (10 ^ d.nd) ∨ i = d.num.tdiv (10 ^ d.nd) + 1 ∨ i = d.num.tdiv (10 ^ d.nd) - 1) := by
    unfold Decimal.roundOut
    rw [if_neg (by decide)]
    generalize hout : d.num.tdiv (10 ^ d.nd) = out at *
    simp only []
    split
    · exact ⟨_, rfl, Or.inl rfl⟩
    · have ha : ∃ a, Decimal.abs64 (d.num.tdiv ((10 ^ d.nd : Int).tdiv 10)) = some a := by
        unfold Decimal.abs64
        rw [if_neg]
        · exact ⟨_, rfl⟩
        · intro e
          have := Int.natAbs_tdiv_le_natAbs d.num ((10 ^ d.nd : Int).tdiv 10)
          rw [e] at this
          unfold Decimal.i64min at this
          omega
      obtain ⟨a, ha⟩ := ha
      rw [ha]
      simp only [bind, Option.bind_some, if_true]
      have c1 : Decimal.chk (out + 1) = some (out + 1) := by unfold Decimal.chk Decimal.i64min Decimal.i64max; rw [if_pos (by omega)]
      have c2 : Decimal.chk (out - 1) = some (out - 1) := by unfold Decimal.chk Decimal.i64min Decimal.i64max; rw [if_pos (by omega)]
      rw [c1, c2]
      repeat' split
      all_goals first | exact ⟨_, rfl, Or.inl rfl⟩ | exact ⟨_, rfl, Or.inr (Or.inl rfl)⟩ | exact ⟨_, rfl, Or.inr (Or.inr rfl)⟩
  obtain ⟨i, hi, hi'⟩ := hround
  refine ⟨i, ?_, hi'⟩
  unfold decToInt Decimal.transform
  rw [if_neg (by omega), if_neg (by omega), if_pos hz, Nat.sub_zero, Decimal.expInt64_le h18]
  simp only [reduceCtorEq, if_false]
  unfold Decimal.divInt64
  rw [if_neg (by omega), if_neg (by omega)]
  rw [hi]
  simp only [bind, Option.bind_some, Option.map_some]
  by_cases hm : d.num.tmod (10 ^ d.nd) = 0 <;> simp [hm]

theorem toStr_fits {d : Dec} (h18 : d.nd ≤ 18) (hn : d.num.natAbs < 9223372036854775808) : Decimal.toStr d 256 ≠ some none := by
  have hc : Decimal.countDigits d.num.natAbs ≤ 19 := (Decimal.countDigits_le _ 19).2 ⟨by decide, by omega⟩
  have hr : ¬ Decimal.requiredSize d > 256 := by
    unfold Decimal.requiredSize
    simp only []
    repeat' split
    all_goals omega
  unfold Decimal.toStr
  rw [if_neg (by decide), if_neg hr]
  simp only []
  intro h
  obtain ⟨x, _, h2⟩ := Option.bind_eq_some_iff.1 h
  split at h2
  · cases h2
  · split at h2 <;> cases h2

theorem wDec_ok {fl : WFlags} (rf : RFlags) {d : Dec} (h : OkDec fl d) : ∃ t, wDec fl d = some (some t) ∧ (readable rf).num t (.dec d) := by
  obtain ⟨h0, h10, hn, hk⟩ := h
  have h18 : d.nd ≤ 18 := by rcases hk with h | h <;> omega
  have hz : d.num ≠ 0 := fun e => h10 (e ▸ Int.dvd_zero _)
  obtain ⟨i, hi, hi'⟩ := decToInt_ok h0 h18 hn hz
  obtain ⟨sg, ds, fs, ⟨n1, n2, n3, n4, n5, n6, n7⟩, ht⟩ := Decimal.toStr_correct_partial d (by omega)
  have ht := ht 256
  have hfits := toStr_fits h18 hn
  have hlen : (Decimal.written sg ds fs).length < 256 := by
    apply Classical.byContradiction
    intro hc
    rw [if_neg hc] at ht
    exact hfits ht
  rw [if_pos hlen] at ht
  have hq : ¬ (fl.noCompat = false ∧ (d.nd > 15 ∨ i < -jsMax ∨ i > jsMax)) := by
    rintro ⟨hf, hq⟩
    rcases hk with hk | ⟨hk, hb⟩
    · rw [hf] at hk; exact absurd hk.1 (by decide)
    · have hpos : (0 : Int) < 10 ^ d.nd := Int.pow_pos (by decide)
      have : (d.num.tdiv (10 ^ d.nd)).natAbs < 9007199254740991 := by
        apply tdiv_bound hpos
        exact_mod_cast hb
      unfold jsMax at hq
      omega
  refine ⟨Decimal.written sg ds fs, ?_, ⟨decide (d.num < 0), ds, fs, none⟩, ⟨n4, n2, n5, n3, by simp⟩, ?_, ?_, rfl, by simp only []; omega, ?_⟩
  · unfold wDec
    rw [hi, ht]
    simp only [Option.bind_some, Option.map_some, if_neg hq]
    simp
  · unfold NumParts.text Decimal.written
    rw [n1]
    simp
  · have hsig : Num.signed (decide (d.num < 0)) d.num.natAbs = d.num := by
      unfold Num.signed
      by_cases hn : d.num < 0
      · rw [if_pos (by simpa using hn)]; omega
      · rw [if_neg (by simpa using hn)]; omega
    simp only [IsNum, NumParts.val, n7, n6, hsig]
    exact ⟨trivial, h0, h10⟩
  · simp only [n7]
    unfold Decimal.Fits Num.signed
    split <;> omega

/-! ### Documents -/

theorem blank_skip {w : List UInt8} (h : Blank w) (rf : RFlags) : (readable rf).skip w := by
  simp only [readable]
  split
  · exact h
  · induction h with
    | nil => exact .nil
    | cons h _ ih => exact .blank h ih

theorem blank_append {a b : List UInt8} (ha : Blank a) (hb : Blank b) : Blank (a ++ b) := by
  induction ha with
  | nil => exact hb
  | cons h _ ih => exact .cons h ih

theorem blank_replicate (n : Nat) {c : UInt8} (h : c = 32 ∨ c = 9 ∨ c = 10 ∨ c = 13) : Blank (List.replicate n c) := by
  induction n with
  | zero => exact .nil
  | succ n ih => exact .cons h ih

theorem blank_indent (fl : WFlags) (n : Nat) : Blank (indent fl n) := by
  unfold indent
  split
  · exact blank_replicate _ (by decide)
  · split
    · exact blank_replicate _ (by decide)
    · exact .nil

theorem blank_newline (fl : WFlags) : Blank (newline fl) := by
  unfold newline
  split
  · exact .nil
  · split
    · exact .cons (by decide) (.cons (by decide) .nil)
    · exact .cons (by decide) .nil

theorem seqW_some (a b : List UInt8) : seqW (some (some a)) (some (some b)) = some (some (a ++ b)) := rfl

mutual

/-- A document is written as a text of the grammar that stands for it. -/
theorem write_val (fl : WFlags) (rf : RFlags) : ∀ (depth : Nat) (v : Json), OkJson fl v → ∃ t, write fl depth v = some (some t) ∧ Val (readable rf) t v
  | _, .null, _ => ⟨_, by rw [write], .null⟩
  | _, .bool true, _ => ⟨_, by rw [write], .tru⟩
  | _, .bool false, _ => ⟨_, by rw [write], .fls⟩
  | _, .int n, h => ⟨_, by rw [write], .num (wInt_ok fl rf (by rwa [OkJson] at h))⟩
  | _, .dec d, h => by
    rw [OkJson] at h
    obtain ⟨t, h1, h2⟩ := wDec_ok rf h
    exact ⟨t, by rw [write, h1], .num h2⟩
  | _, .str s, h => by
    rw [OkJson] at h
    obtain ⟨t, h1, h2⟩ := wStr_ok h
    exact ⟨_, by rw [write, h1], .str h2⟩
  | depth, .arr l, h => by
    rw [OkJson] at h
    obtain ⟨t, h1, h0, h2⟩ := writeElems_val fl rf (depth + 1) l h
    refine ⟨91 :: ((newline fl ++ (t ++ indent fl depth)) ++ [93]), ?_, ?_⟩
    · rw [write, h1, seqW_some, seqW_some]; simp
    · by_cases hl : l = []
      · rw [hl, h0 hl]
        exact .arr0 (blank_skip (blank_append (blank_newline fl) (blank_indent fl _)) rf)
      · exact .arr (h2 hl _ _ (blank_newline fl) (blank_indent fl _))
  | depth, .obj l, h => by
    rw [OkJson] at h
    obtain ⟨t, h1, h0, h2, h3⟩ := writeMembers_val fl rf (depth + 1) l h.1
    refine ⟨123 :: ((newline fl ++ (t ++ indent fl depth)) ++ [125]), ?_, ?_⟩
    · rw [write, h1, seqW_some, seqW_some]; simp
    · by_cases hl : l = []
      · rw [hl, h0 hl]
        exact .obj0 (blank_skip (blank_append (blank_newline fl) (blank_indent fl _)) rf)
      · exact .obj (h2 hl _ _ (blank_newline fl) (blank_indent fl _)) ⟨rfl, h.2, h3⟩

theorem writeElems_val (fl : WFlags) (rf : RFlags) : ∀ (depth : Nat) (l : List Json), OkElems fl l → ∃ t, writeElems fl depth l = some (some t) ∧ (l = [] → t = []) ∧
    (l ≠ [] → ∀ a b, Blank a → Blank b → Elems (readable rf) (a ++ (t ++ b)) l)
  | _, [], _ => ⟨[], by rw [writeElems], fun _ => rfl, fun h => absurd rfl h⟩
  | depth, v :: l, h => by
    rw [OkElems] at h
    obtain ⟨tv, h1, h2⟩ := write_val fl rf depth v h.1
    obtain ⟨t, g1, g0, g2⟩ := writeElems_val fl rf depth l h.2
    refine ⟨indent fl depth ++ (tv ++ (((if l.isEmpty then [] else [44]) ++ newline fl) ++ t)), ?_, by simp, ?_⟩
    · rw [writeElems, h1, g1, seqW_some, seqW_some, seqW_some]
    · intro _ a b ha hb
      by_cases hl : l = []
      · subst hl
        rw [g0 rfl]
        have e : a ++ (indent fl depth ++ (tv ++ (((if ([] : List Json).isEmpty then [] else [44]) ++ newline fl) ++ [])) ++ b) =
          (a ++ indent fl depth) ++ (tv ++ (newline fl ++ b)) := by simp
        rw [e]
        exact .one (blank_skip (blank_append ha (blank_indent fl _)) rf) h2 (blank_skip (blank_append (blank_newline fl) hb) rf)
      · have hl' : l.isEmpty = false := by simpa using hl
        rw [hl']
        have e : a ++ (indent fl depth ++ (tv ++ (((if false = true then [] else [44]) ++ newline fl) ++ t)) ++ b) =
          (a ++ indent fl depth) ++ (tv ++ ([] ++ ([44] ++ (newline fl ++ (t ++ b))))) := by simp
        rw [e]
        exact .cons (blank_skip (blank_append ha (blank_indent fl _)) rf) h2 (blank_skip .nil rf) rfl (g2 hl _ _ (blank_newline fl) hb)

theorem writeMembers_val (fl : WFlags) (rf : RFlags) : ∀ (depth : Nat) (l : List (List UInt8 × Json)), OkMembers fl l → ∃ t, writeMembers fl depth l = some (some t) ∧
    (l = [] → t = []) ∧ (l ≠ [] → ∀ a b, Blank a → Blank b → Members (readable rf) (a ++ (t ++ b)) l) ∧ [] ∉ l.map (·.1)
  | _, [], _ => ⟨[], by rw [writeMembers], fun _ => rfl, fun h => absurd rfl h, by simp⟩
  | depth, (k, v) :: l, h => by
    rw [OkMembers] at h
    obtain ⟨tv, h1, h2⟩ := write_val fl rf depth v h.2.1
    obtain ⟨t, g1, g0, g2, g3⟩ := writeMembers_val fl rf depth l h.2.2
    obtain ⟨k1, k2⟩ := key_body h.1
    generalize hsp : (if fl.space || fl.tab then [32] else [] : List UInt8) = sp
    have hspb : Blank sp := by
      rw [← hsp]
      split
      · exact .cons (by decide) .nil
      · exact .nil
    refine ⟨(indent fl depth ++ [34] ++ k ++ [34] ++ sp ++ [58] ++ sp) ++ (tv ++ (((if l.isEmpty then [] else [44]) ++ newline fl) ++ t)), ?_, by simp, ?_, ?_⟩
    · rw [writeMembers, h1, g1, hsp, seqW_some, seqW_some, seqW_some]
    · intro _ a b ha hb
      by_cases hl : l = []
      · subst hl
        rw [g0 rfl]
        have e : a ++ ((indent fl depth ++ [34] ++ k ++ [34] ++ sp ++ [58] ++ sp) ++ (tv ++ (((if ([] : List (List UInt8 × Json)).isEmpty then [] else [44]) ++ newline fl) ++ [])) ++ b) =
          (a ++ indent fl depth) ++ 34 :: (k ++ 34 :: (sp ++ 58 :: (sp ++ (tv ++ (newline fl ++ b))))) := by simp
        rw [e]
        exact .one (blank_skip (blank_append ha (blank_indent fl _)) rf) k1 (blank_skip hspb rf) (blank_skip hspb rf) h2 (blank_skip (blank_append (blank_newline fl) hb) rf)
      · have hl' : l.isEmpty = false := by simpa using hl
        rw [hl']
        have e : a ++ ((indent fl depth ++ [34] ++ k ++ [34] ++ sp ++ [58] ++ sp) ++ (tv ++ (((if false = true then [] else [44]) ++ newline fl) ++ t)) ++ b) =
          (a ++ indent fl depth) ++ 34 :: (k ++ 34 :: (sp ++ 58 :: (sp ++ (tv ++ ([] ++ ([44] ++ (newline fl ++ (t ++ b)))))))) := by simp
        rw [e]
        exact .cons (blank_skip (blank_append ha (blank_indent fl _)) rf) k1 (blank_skip hspb rf) (blank_skip hspb rf) h2 (blank_skip .nil rf) rfl
          (g2 hl _ _ (blank_newline fl) hb)
    · simp only [List.map_cons, List.mem_cons, not_or]
      exact ⟨fun e => k2 e.symm, g3⟩

end

end Verif.Json
