import Verif.Crc.Lemmas
/-! C35: the table driven checksums are remainders of polynomial division. -/
namespace Verif.Crc

/-- `x^8 + x^2 + x + 1`, without the leading coefficient. -/
def g8 : List Bool := [false, false, false, false, false, true, true, true]
/-- `x^16 + x^12 + x^5 + 1`. -/
def g16 : List Bool := [false, false, false, true, false, false, false, false, false, false, true, false, false, false, false, true]
/-- `x^32 + x^26 + x^23 + x^22 + x^16 + x^12 + x^11 + x^10 + x^8 + x^7 + x^5 + x^4 + x^2 + x + 1`. -/
def g32 : List Bool := [false, false, false, false, false, true, false, false, true, true, false, false, false, false, false, true,
  false, false, false, true, true, true, false, true, true, false, true, true, false, true, true, true]

/-- The coefficients of a message, bytes most or least significant bit first. -/
def polyM (s : List (BitVec 8)) : List Bool := s.flatMap msb
def polyL (s : List (BitVec 8)) : List Bool := s.flatMap lsb

theorem lift {P : BitVec 8 → Prop} (h : ∀ x : Fin 256, P (BitVec.ofNat 8 x.val)) (x : BitVec 8) : P x := by
  have := h ⟨x.toNat, x.isLt⟩
  simpa using this

theorem fold_rep {w : Nat} (rep : BitVec w → List Bool) (brep : BitVec 8 → List Bool) (g : List Bool)
    (f : BitVec w → BitVec 8 → Option (BitVec w)) (hf : ∀ v b, ∃ v', f v b = some v' ∧ rep v' = (brep b).foldl (lstep g) (rep v))
    (s : List (BitVec 8)) (v : BitVec w) : ∃ v', s.foldlM f v = some v' ∧ rep v' = (s.flatMap brep).foldl (lstep g) (rep v) := by
  induction s generalizing v with
  | nil => exact ⟨v, rfl, rfl⟩
  | cons b s ih =>
    obtain ⟨v1, e1, r1⟩ := hf v b
    obtain ⟨v2, e2, r2⟩ := ih v1
    refine ⟨v2, ?_, ?_⟩
    · rw [List.foldlM_cons, e1]; exact e2
    · rw [r2, r1, List.flatMap_cons, List.foldl_append]

/-! CRC-8 -/

theorem table8 (x : BitVec 8) : t8[x.toNat]?.map (BitVec.ofNat 8) = some (iter (zm 0x07#8) 8 x) :=
  lift (P := fun x => t8[x.toNat]?.map (BitVec.ofNat 8) = some (iter (zm 0x07#8) 8 x)) (by decide +kernel) x

theorem step8 (v b : BitVec 8) : ∃ v', t8[(v ^^^ b).toNat]?.map (BitVec.ofNat 8) = some v' ∧ msb v' = (msb b).foldl (lstep g8) (msb v) := by
  refine ⟨_, table8 _, ?_⟩
  have hg : msb 0x07#8 = g8 := by decide
  rw [feed _ _ _ (by rw [msb_length, msb_length]; omega), ← msb_xor, msb_length, ← hg]
  exact iter_map (zm 0x07#8) (fun r => lstep (msb 0x07#8) r false) msb (msb_step _) 8 _

theorem crc8_fold (s : List (BitVec 8)) : ∃ v, crc8 s = some v ∧ msb v = (polyM s).foldl (lstep g8) (List.replicate 8 false) := by
  obtain ⟨v, e, r⟩ := fold_rep msb msb g8 _ step8 s 0
  have h0 : msb (0 : BitVec 8) = List.replicate 8 false := by decide
  rw [h0] at r
  refine ⟨v, ?_, r⟩
  unfold crc8
  cases s with
  | nil => rw [if_pos rfl]; exact e
  | cons b s => rw [if_neg (by simp)]; exact e

/-- CRC-8: the remainder of the message times `x^8`. -/
theorem crc8_correct (s : List (BitVec 8)) : ∃ v, crc8 s = some v ∧ msb v = rem g8 (polyM s ++ List.replicate 8 false) := by
  obtain ⟨v, e, r⟩ := crc8_fold s
  refine ⟨v, e, ?_⟩
  rw [r, ← rem_eq g8 (polyM s) (List.replicate 8 false) rfl]
  have : xorp (polyM s ++ List.replicate g8.length false) (List.replicate 8 false) = polyM s ++ List.replicate g8.length false :=
    xorp_false _ 8
  rw [this]
  rfl

/-! CRC-16 -/

theorem table16 (x : BitVec 8) : t16[x.toNat]?.map (BitVec.ofNat 16) = some (iter (zm 0x1021#16) 8 (x.setWidth 16 <<< 8)) :=
  lift (P := fun x => t16[x.toNat]?.map (BitVec.ofNat 16) = some (iter (zm 0x1021#16) 8 (x.setWidth 16 <<< 8))) (by decide +kernel) x

theorem low16 (x : BitVec 8) : iter (zm 0x1021#16) 8 (x.setWidth 16) = x.setWidth 16 <<< 8 :=
  lift (P := fun x => iter (zm 0x1021#16) 8 (x.setWidth 16) = x.setWidth 16 <<< 8) (by decide +kernel) x

theorem split16 (v : BitVec 16) : v = ((v >>> 8).setWidth 8).setWidth 16 <<< 8 ^^^ (v.setWidth 8).setWidth 16 := by
  apply BitVec.eq_of_getLsbD_eq
  intro i hi
  simp only [BitVec.getLsbD_xor, BitVec.getLsbD_shiftLeft, BitVec.getLsbD_setWidth, BitVec.getLsbD_ushiftRight]
  by_cases h : i < 8
  · simp [h, hi]
  · have : 8 + (i - 8) = i := by omega
    simp [h, hi, this, show i - 8 < 8 by omega, show i - 8 < 16 by omega]

theorem split16_shl (v : BitVec 16) : v <<< 8 = (v.setWidth 8).setWidth 16 <<< 8 := by
  apply BitVec.eq_of_getLsbD_eq
  intro i hi
  simp only [BitVec.getLsbD_shiftLeft, BitVec.getLsbD_setWidth]
  simp [show i - 8 < 16 by omega, show i - 8 < 8 by omega]

theorem split16_idx (v : BitVec 16) (b : BitVec 8) : ((v >>> 8) ^^^ b.setWidth 16).toNat = (((v >>> 8).setWidth 8) ^^^ b).toNat := by
  have h1 : (v >>> 8).toNat = ((v >>> 8).setWidth 8).toNat := by
    rw [BitVec.toNat_setWidth, BitVec.toNat_ushiftRight, Nat.shiftRight_eq_div_pow]
    have := v.isLt
    omega
  rw [BitVec.toNat_xor, BitVec.toNat_xor, h1, BitVec.toNat_setWidth 16 b, Nat.mod_eq_of_lt (a := b.toNat) (by have := b.isLt; omega)]

theorem msb_top (b : BitVec 8) : msb (b.setWidth 16 <<< 8) = msb b ++ List.replicate 8 false :=
  lift (P := fun b => msb (b.setWidth 16 <<< 8) = msb b ++ List.replicate 8 false) (by decide +kernel) b

theorem step16 (v : BitVec 16) (b : BitVec 8) : ∃ v', (t16[((v >>> 8) ^^^ b.setWidth 16).toNat]?.map fun t => BitVec.ofNat 16 t ^^^ (v <<< 8)) = some v' ∧
    msb v' = (msb b).foldl (lstep g16) (msb v) := by
  have ht := table16 (((v >>> 8).setWidth 8) ^^^ b)
  rw [← split16_idx] at ht
  obtain ⟨t, h1, h2⟩ := Option.map_eq_some_iff.1 ht
  rw [h1]
  refine ⟨_, rfl, ?_⟩
  simp only
  rw [h2]
  have hg : msb 0x1021#16 = g16 := by decide
  have hx : xorp (msb v) (msb b) = msb (v ^^^ (b.setWidth 16 <<< 8)) := by rw [msb_xor, msb_top, xorp_append_false]
  rw [feed _ _ _ (by rw [msb_length, msb_length]; omega), msb_length, hx, ← hg]
  rw [← iter_map (zm 0x1021#16) (fun r => lstep (msb 0x1021#16) r false) msb (msb_step _) 8 _]
  congr 1
  have e : v ^^^ (b.setWidth 16 <<< 8) = (((v >>> 8).setWidth 8 ^^^ b).setWidth 16 <<< 8) ^^^ (v.setWidth 8).setWidth 16 := by
    conv => lhs; rw [split16 v]
    rw [BitVec.setWidth_xor, BitVec.shiftLeft_xor_distrib, BitVec.xor_assoc, BitVec.xor_comm ((v.setWidth 8).setWidth 16), BitVec.xor_assoc]
  rw [e, iter_xor _ (zm_xor _), low16, split16_shl v]

theorem crc16_fold (s : List (BitVec 8)) (hs : s ≠ []) :
    ∃ v, crc16 s = some v ∧ msb v = (polyM s).foldl (lstep g16) (List.replicate 16 true) := by
  obtain ⟨v, e, r⟩ := fold_rep msb msb g16 _ step16 s 0xFFFF
  have h0 : msb (0xFFFF : BitVec 16) = List.replicate 16 true := by decide
  rw [h0] at r
  refine ⟨v, ?_, r⟩
  unfold crc16
  rw [if_neg hs]
  exact e

/-- CRC-16: the remainder of the message times `x^16`, with sixteen ones added to the leading coefficients.  Missing: the empty
message (`crc16_empty_fails`). -/
theorem crc16_correct_partial (s : List (BitVec 8)) (hs : s ≠ []) :
    ∃ v, crc16 s = some v ∧ msb v = rem g16 (xorp (polyM s ++ List.replicate 16 false) (List.replicate 16 true)) := by
  obtain ⟨v, e, r⟩ := crc16_fold s hs
  refine ⟨v, e, ?_⟩
  rw [r, ← rem_eq g16 (polyM s) (List.replicate 16 true) rfl]
  rfl

/-- The empty message has 0, not the sixteen ones of the division. -/
theorem crc16_empty_fails : crc16 [] = some 0 ∧ rem g16 (xorp (polyM [] ++ List.replicate 16 false) (List.replicate 16 true)) = List.replicate 16 true := by
  refine ⟨rfl, ?_⟩
  rw [show (16 : Nat) = g16.length from rfl, rem_eq g16 (polyM []) (List.replicate g16.length true) rfl]
  rfl

/-! CRC-32 -/

theorem table32 (x : BitVec 8) : t32[x.toNat]?.map (BitVec.ofNat 32) = some (iter (zl 0xEDB88320#32) 8 (x.setWidth 32)) :=
  lift (P := fun x => t32[x.toNat]?.map (BitVec.ofNat 32) = some (iter (zl 0xEDB88320#32) 8 (x.setWidth 32))) (by decide +kernel) x

theorem high32 (k : Nat) : ∀ v : BitVec 32, (∀ i, i < k → v.getLsbD i = false) → iter (zl 0xEDB88320#32) k v = v >>> k := by
  induction k with
  | zero => intro v _; simp [iter]
  | succ k ih =>
    intro v h
    have h0 : zl 0xEDB88320#32 v = v >>> 1 := by unfold zl; rw [h 0 (by omega)]; simp
    rw [iter, h0, ih _ (fun i hi => by rw [BitVec.getLsbD_ushiftRight]; exact h _ (by omega)), ← BitVec.shiftRight_add, Nat.add_comm 1 k]

theorem lsb_low (b : BitVec 8) : lsb (b.setWidth 32) = lsb b ++ List.replicate 24 false :=
  lift (P := fun b => lsb (b.setWidth 32) = lsb b ++ List.replicate 24 false) (by decide +kernel) b

theorem split32 (v : BitVec 32) : v = (v.setWidth 8).setWidth 32 ^^^ (v &&& 0xFFFFFF00#32) := by
  have hm : ∀ i : Fin 32, (0xFFFFFF00#32).getLsbD i = decide (8 ≤ i.val) := by decide
  apply BitVec.eq_of_getLsbD_eq
  intro i hi
  rw [BitVec.getLsbD_xor, BitVec.getLsbD_and, hm ⟨i, hi⟩, BitVec.getLsbD_setWidth, BitVec.getLsbD_setWidth]
  by_cases h : i < 8
  · simp [h, hi, show ¬ 8 ≤ i by omega]
  · simp [h, show 8 ≤ i by omega]

theorem split32_shr (v : BitVec 32) : (v &&& 0xFFFFFF00#32) >>> 8 = v >>> 8 := by
  have hm : ∀ i : Fin 32, (0xFFFFFF00#32).getLsbD i = decide (8 ≤ i.val) := by decide
  apply BitVec.eq_of_getLsbD_eq
  intro i hi
  rw [BitVec.getLsbD_ushiftRight, BitVec.getLsbD_ushiftRight, BitVec.getLsbD_and]
  by_cases h : 8 + i < 32
  · rw [hm ⟨8 + i, h⟩]; simp
  · rw [BitVec.getLsbD_of_ge v _ (by omega)]; simp

theorem split32_idx (v : BitVec 32) (b : BitVec 8) : ((v ^^^ b.setWidth 32) &&& 0xFF).toNat = (v.setWidth 8 ^^^ b).toNat := by
  have : (v ^^^ b.setWidth 32) &&& 0xFF = (v.setWidth 8 ^^^ b).setWidth 32 := by
    have hm : ∀ i : Fin 32, (0xFF#32).getLsbD i = decide (i.val < 8) := by decide
    apply BitVec.eq_of_getLsbD_eq
    intro i hi
    have := hm ⟨i, hi⟩
    rw [BitVec.getLsbD_and, BitVec.getLsbD_xor, BitVec.getLsbD_setWidth, BitVec.getLsbD_setWidth, BitVec.getLsbD_xor, BitVec.getLsbD_setWidth]
    rw [show (0xFF : BitVec 32).getLsbD i = decide (i < 8) from this]
    by_cases h : i < 8
    · simp [h, hi]
    · simp [h, BitVec.getLsbD_of_ge b i (by omega)]
  rw [this, BitVec.toNat_setWidth, Nat.mod_eq_of_lt]
  have := (v.setWidth 8 ^^^ b).isLt
  omega

theorem step32 (v : BitVec 32) (b : BitVec 8) :
    ∃ v', (t32[((v ^^^ b.setWidth 32) &&& 0xFF).toNat]?.map fun t => (v >>> 8) ^^^ BitVec.ofNat 32 t) = some v' ∧
    lsb v' = (lsb b).foldl (lstep (lsb 0xEDB88320#32)) (lsb v) := by
  have ht := table32 (v.setWidth 8 ^^^ b)
  rw [← split32_idx] at ht
  obtain ⟨t, h1, h2⟩ := Option.map_eq_some_iff.1 ht
  rw [h1]
  refine ⟨_, rfl, ?_⟩
  simp only
  rw [h2]
  have hx : xorp (lsb v) (lsb b) = lsb (v ^^^ b.setWidth 32) := by rw [lsb_xor, lsb_low, xorp_append_false]
  rw [feed _ _ _ (by rw [lsb_length, lsb_length]; omega), lsb_length, hx]
  rw [← iter_map (zl 0xEDB88320#32) (fun r => lstep (lsb 0xEDB88320#32) r false) lsb (lsb_step _) 8 _]
  congr 1
  have e : v ^^^ b.setWidth 32 = (v &&& 0xFFFFFF00#32) ^^^ (v.setWidth 8 ^^^ b).setWidth 32 := by
    conv => lhs; rw [split32 v]
    rw [BitVec.setWidth_xor, BitVec.xor_comm ((v.setWidth 8).setWidth 32), BitVec.xor_assoc]
  have hm : ∀ i : Fin 32, (0xFFFFFF00#32).getLsbD i = decide (8 ≤ i.val) := by decide
  rw [e, iter_xor _ (zl_xor _), high32 8 (v &&& 0xFFFFFF00#32) (fun i hi => by
    rw [BitVec.getLsbD_and, hm ⟨i, by omega⟩]; simp [show ¬ 8 ≤ i by omega]), split32_shr]

theorem g32_eq : lsb 0xEDB88320#32 = g32 := by decide

theorem crc32_fold (s : List (BitVec 8)) : ∃ v, crc32 s = some (~~~ v) ∧ lsb v = (polyL s).foldl (lstep g32) (List.replicate 32 true) := by
  obtain ⟨v, e, r⟩ := fold_rep lsb lsb _ _ step32 s 0xFFFFFFFF
  have h0 : lsb (0xFFFFFFFF : BitVec 32) = List.replicate 32 true := by decide
  rw [h0, g32_eq] at r
  refine ⟨v, ?_, r⟩
  unfold crc32
  cases s with
  | nil =>
    rw [if_pos rfl]
    have : v = 0xFFFFFFFF := (Option.some.inj e).symm
    rw [this]; decide
  | cons b s => rw [if_neg (by simp), e]; rfl

/-- CRC-32, least significant bits first: the complement of the remainder of the message times `x^32`, with 32 ones added to
the leading coefficients. -/
theorem crc32_correct (s : List (BitVec 8)) :
    ∃ v, crc32 s = some v ∧ (lsb v).map (! ·) = rem g32 (xorp (polyL s ++ List.replicate 32 false) (List.replicate 32 true)) := by
  obtain ⟨v, e, r⟩ := crc32_fold s
  refine ⟨~~~ v, e, ?_⟩
  have key := rem_eq g32 (polyL s) (List.replicate 32 true) rfl
  rw [show g32.length = 32 from rfl] at key
  rw [key, ← r]
  apply List.ext_getElem?
  intro i
  rw [List.getElem?_map, lsb_get, lsb_get]
  by_cases h : i < 32
  · simp [h]
  · simp [h]

/-- The check values of the published CRC catalogue, for `"123456789"`. -/
example : crc8 [49, 50, 51, 52, 53, 54, 55, 56, 57] = some 0xF4 ∧ crc16 [49, 50, 51, 52, 53, 54, 55, 56, 57] = some 0x29B1 ∧
    crc32 [49, 50, 51, 52, 53, 54, 55, 56, 57] = some 0xCBF43926 := by decide +kernel

/-! ### What the checksums detect -/

theorem flat_inj (rep : BitVec 8 → List Bool) (hl : ∀ b, (rep b).length = 8) (hi : ∀ a b, rep a = rep b → a = b) :
    ∀ s s' : List (BitVec 8), s.flatMap rep = s'.flatMap rep → s = s' := by
  intro s
  induction s with
  | nil =>
    intro s' e
    cases s' with
    | nil => rfl
    | cons b s' =>
      have := congrArg List.length e
      rw [List.flatMap_cons, List.length_append, hl] at this
      simp at this
      omega
  | cons a s ih =>
    intro s' e
    cases s' with
    | nil =>
      have := congrArg List.length e
      rw [List.flatMap_cons, List.length_append, hl] at this
      simp at this
    | cons b s' =>
      rw [List.flatMap_cons, List.flatMap_cons] at e
      have := List.append_inj e (by rw [hl, hl])
      rw [hi _ _ this.1, ih s' this.2]

theorem msb_inj {w : Nat} (a b : BitVec w) (h : msb a = msb b) : a = b := by
  apply BitVec.eq_of_getMsbD_eq
  intro i hi
  have := congrArg (fun l => l[i]?) h
  simpa only [msb_get, if_pos hi, Option.some.injEq] using this

theorem lsb_inj {w : Nat} (a b : BitVec w) (h : lsb a = lsb b) : a = b := by
  apply BitVec.eq_of_getLsbD_eq
  intro i hi
  have := congrArg (fun l => l[i]?) h
  simpa only [lsb_get, if_pos hi, Option.some.injEq] using this

/-- Messages differing only within eight consecutive bits have different CRC-8. -/
theorem crc8_burst (s s' : List (BitVec 8)) (p u u' q : List Bool) (hs : polyM s = p ++ u ++ q) (hs' : polyM s' = p ++ u' ++ q)
    (hu : u.length = u'.length) (hw : u.length ≤ 8) (e : crc8 s = crc8 s') : s = s' := by
  obtain ⟨v, e1, r⟩ := crc8_fold s
  obtain ⟨v', e1', r'⟩ := crc8_fold s'
  have hv : v = v' := Option.some.inj (by rw [← e1, ← e1', e])
  subst hv
  rw [r, hs, hs'] at r'
  have := burst [false, false, false, false, false, true, true] p u u' q _ (by decide) hu (by simpa using hw) r'
  exact flat_inj msb msb_length msb_inj _ _ (by unfold polyM at *; rw [hs, hs', this])

/-- Messages differing only within 16 consecutive bits have different CRC-16. -/
theorem crc16_burst (s s' : List (BitVec 8)) (p u u' q : List Bool) (hs : polyM s = p ++ u ++ q) (hs' : polyM s' = p ++ u' ++ q)
    (hu : u.length = u'.length) (hw : u.length ≤ 16) (e : crc16 s = crc16 s') : s = s' := by
  have hlen : s.length = s'.length := by
    have h : ∀ t : List (BitVec 8), (polyM t).length = 8 * t.length := by
      intro t
      induction t with
      | nil => rfl
      | cons b t ih => unfold polyM at *; rw [List.flatMap_cons, List.length_append, ih, msb_length, List.length_cons]; omega
    have h1 := congrArg List.length hs
    have h2 := congrArg List.length hs'
    rw [h, List.length_append, List.length_append] at h1 h2
    omega
  by_cases h0 : s = []
  · subst h0
    exact (List.length_eq_zero_iff.1 hlen.symm).symm
  · have h0' : s' ≠ [] := by
      intro h
      subst h
      exact h0 (List.length_eq_zero_iff.1 hlen)
    obtain ⟨v, e1, r⟩ := crc16_fold s h0
    obtain ⟨v', e1', r'⟩ := crc16_fold s' h0'
    have hv : v = v' := Option.some.inj (by rw [← e1, ← e1', e])
    subst hv
    rw [r, hs, hs'] at r'
    have := burst (g16.take 15) p u u' q _ (by decide) hu (by simpa [g16] using hw) r'
    exact flat_inj msb msb_length msb_inj _ _ (by unfold polyM at *; rw [hs, hs', this])

/-- Messages differing only within 32 consecutive bits have different CRC-32. -/
theorem crc32_burst (s s' : List (BitVec 8)) (p u u' q : List Bool) (hs : polyL s = p ++ u ++ q) (hs' : polyL s' = p ++ u' ++ q)
    (hu : u.length = u'.length) (hw : u.length ≤ 32) (e : crc32 s = crc32 s') : s = s' := by
  obtain ⟨v, e1, r⟩ := crc32_fold s
  obtain ⟨v', e1', r'⟩ := crc32_fold s'
  have hv : v = v' := by
    have h : ~~~ v = ~~~ v' := Option.some.inj (by rw [← e1, ← e1', e])
    rw [← BitVec.not_not (b := v), h, BitVec.not_not]
  subst hv
  rw [r, hs, hs'] at r'
  have := burst (g32.take 31) p u u' q _ (by decide) hu (by simpa [g32] using hw) r'
  exact flat_inj lsb lsb_length lsb_inj _ _ (by unfold polyL at *; rw [hs, hs', this])

/-- Two messages that differ in the second byte only. -/
example : polyL [1, 2, 3] = lsb 1#8 ++ lsb 2#8 ++ lsb 3#8 ∧ polyL [1, 7, 3] = lsb 1#8 ++ lsb 7#8 ++ lsb 3#8 ∧ crc32 [1, 2, 3] ≠ crc32 [1, 7, 3] := by
  decide +kernel

/-- The LRC is the sum of the bytes: changing one byte changes it by the difference. -/
theorem lrc_correct (s : List (BitVec 8)) (i : Nat) : (lrc s).getLsbD i = decide ((s.filter fun b => b.getLsbD i).length % 2 = 1) := by
  have key : ∀ (s : List (BitVec 8)) (v : BitVec 8), (s.foldl (fun v b => v ^^^ b) v).getLsbD i =
      (v.getLsbD i ^^ decide ((s.filter fun b => b.getLsbD i).length % 2 = 1)) := by
    intro s
    induction s with
    | nil => intro v; simp
    | cons b s ih =>
      intro v
      rw [List.foldl_cons, ih, BitVec.getLsbD_xor]
      by_cases hb : b.getLsbD i = true
      · rw [List.filter_cons_of_pos (by simpa using hb), hb, List.length_cons]
        rcases Nat.mod_two_eq_zero_or_one (s.filter fun b => b.getLsbD i).length with h | h
        · have h2 : ((s.filter fun b => b.getLsbD i).length + 1) % 2 = 1 := by omega
          simp [h, h2]
        · have h2 : ((s.filter fun b => b.getLsbD i).length + 1) % 2 = 0 := by omega
          simp [h, h2]
      · rw [List.filter_cons_of_neg (by simpa using hb)]
        simp only [Bool.not_eq_true] at hb
        rw [hb, Bool.xor_false]
  unfold lrc
  rw [key]
  simp

end Verif.Crc
