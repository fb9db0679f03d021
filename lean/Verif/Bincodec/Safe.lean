import Verif.Bincodec.Hex
namespace Verif.Bincodec

theorem dec_idx (c : UInt8) (h : b64Valid c = true) : c = 61 ∨ ∃ v, decTable[c.toNat - 43]? = some v := by
  have : ∀ k : Fin 256, b64Valid (UInt8.ofNat k) = true → UInt8.ofNat k = 61 ∨ (decTable[(UInt8.ofNat k).toNat - 43]?).isSome := by
    decide +kernel
  have h := this ⟨c.toNat, c.toNat_lt⟩
  simp only [UInt8.ofNat_toNat] at h
  rcases h ‹_› with h | h
  · exact Or.inl h
  · exact Or.inr (Option.isSome_iff_exists.1 h)

theorem b64Get_safe {inp : List UInt8} {inlen idx : Nat} (hin : inlen ≤ inp.length) :
    b64GetDecchar inp inlen idx = some none ∨
      ∃ v j, b64GetDecchar inp inlen idx = some (some (v, j)) ∧ idx < j ∧ j ≤ inlen := by
  unfold b64GetDecchar
  by_cases h0 : idx ≥ inlen
  · rw [if_pos h0]; exact Or.inl rfl
  · rw [if_neg h0]
    rcases skipWs_cases hin (inlen - idx) idx rfl with ⟨_, j, k1, k2⟩ | ⟨c', j, k1, k2, k3, k4, k5, k6⟩
    · rw [k1]
      simp only [bind, Option.bind_some]
      rw [if_pos k2]
      exact Or.inl rfl
    · rw [k1]
      simp only [bind, Option.bind_some]
      rw [if_neg (by omega), k4]
      simp only [Option.bind_some]
      by_cases hv : b64Valid c' = true
      · rw [if_neg (by simp [hv])]
        by_cases h61 : c' = 61
        · rw [if_pos h61]
          generalize (inlen + 2 ^ 64 - 2) % 2 ^ 64 = q
          by_cases hq : j < q
          · rw [if_pos hq]; exact Or.inl rfl
          · rw [if_neg hq]; exact Or.inr ⟨_, _, rfl, by omega, by omega⟩
        · rw [if_neg h61]
          split
          · exact Or.inl rfl
          · obtain ⟨v, hv⟩ := (dec_idx c' hv).resolve_left h61
            rw [hv]
            simp only [Option.bind_some]
            split
            · exact Or.inl rfl
            · exact Or.inr ⟨_, _, rfl, by omega, by omega⟩
      · rw [if_pos (by simpa using hv)]; exact Or.inl rfl

theorem b64DecLoop_safe {inp : List UInt8} {inlen cap : Nat} (hin : inlen ≤ inp.length) : ∀ (fuel i : Nat) (out : List UInt8),
    inlen - i < fuel → out.length ≤ cap → ∃ r, b64DecLoop cap inp inlen fuel i out = some r ∧ r.length ≤ cap := by
  intro fuel
  induction fuel with
  | zero => intro i out h; omega
  | succ fuel ih =>
    intro i out hf hc
    unfold b64DecLoop
    by_cases hi : i < inlen
    · rw [if_pos hi]
      rcases b64Get_safe (idx := i) hin with h | ⟨v1, j1, h, a1, b1⟩
      · rw [h]; exact ⟨[], rfl, by simp⟩
      rw [h]; simp only [Option.bind_some]
      rcases b64Get_safe (idx := j1) hin with h | ⟨v2, j2, h, a2, b2⟩
      · rw [h]; exact ⟨[], rfl, by simp⟩
      rw [h]; simp only [Option.bind_some]
      rcases b64Get_safe (idx := j2) hin with h | ⟨v3, j3, h, a3, b3⟩
      · rw [h]; exact ⟨[], rfl, by simp⟩
      rw [h]; simp only [Option.bind_some]
      rcases b64Get_safe (idx := j3) hin with h | ⟨v4, j4, h, a4, b4⟩
      · rw [h]; exact ⟨[], rfl, by simp⟩
      rw [h]; simp only [Option.bind_some]
      by_cases hc1 : out.length ≥ cap
      · rw [if_pos hc1]; exact ⟨[], rfl, by simp⟩
      rw [if_neg hc1]
      have hfl : ∀ q, q < inlen → ∃ b, (if j4 ≠ inlen then some true else inp[q]?.map fun x => x != 61) = some b := by
        intro q hq
        split
        · exact ⟨_, rfl⟩
        · rw [List.getElem?_eq_getElem (by omega)]; exact ⟨_, rfl⟩
      obtain ⟨w2, hw2⟩ := hfl (inlen - 2) (by omega)
      obtain ⟨w3, hw3⟩ := hfl (inlen - 1) (by omega)
      rw [hw2]; simp only [Option.bind_some]
      generalize v1 <<< 18 ||| v2 <<< 12 ||| v3 <<< 6 ||| v4 = tmp
      generalize hA : out ++ [UInt8.ofNat (tmp >>> 16 &&& 0xFF)] = out1
      have hl1 : out1.length = out.length + 1 := by rw [← hA]; simp
      by_cases hc2 : w2 = true ∧ out1.length ≥ cap
      · rw [if_pos hc2]; exact ⟨[], rfl, by simp⟩
      rw [if_neg hc2, hw3]; simp only [Option.bind_some]
      generalize hB : (if w2 = true then out1 ++ [UInt8.ofNat (tmp >>> 8 &&& 0xFF)] else out1) = out2
      have hl2 : out2.length ≤ cap := by
        rw [← hB]
        by_cases hw : w2 = true
        · rw [if_pos hw]
          have : ¬ out1.length ≥ cap := fun h => hc2 ⟨hw, h⟩
          simp; omega
        · rw [if_neg hw]; omega
      by_cases hc3 : w3 = true ∧ out2.length ≥ cap
      · rw [if_pos hc3]; exact ⟨[], rfl, by simp⟩
      rw [if_neg hc3]
      apply ih
      · omega
      · by_cases hw : w3 = true
        · rw [if_pos hw]
          have : ¬ out2.length ≥ cap := fun h => hc3 ⟨hw, h⟩
          simp; omega
        · rw [if_neg hw]; exact hl2
    · rw [if_neg hi]; exact ⟨out, rfl, hc⟩

theorem b32Skip_safe {inp : List UInt8} {z : Nat} (hz : inp[z]? = some 0) (n : Nat) : ∀ idx, z - idx = n → idx ≤ z →
    ∃ j c, b32Skip inp idx = some j ∧ idx ≤ j ∧ j ≤ z ∧ inp[j]? = some c := by
  have hzl := (List.getElem?_eq_some_iff.1 hz).1
  induction n with
  | zero =>
    intro idx h1 h2
    have : idx = z := by omega
    subst this
    refine ⟨idx, 0, ?_, Nat.le_refl _, Nat.le_refl _, hz⟩
    unfold b32Skip
    rw [dif_pos hzl, if_neg]
    rw [(List.getElem?_eq_some_iff.1 hz).2]; decide
  | succ n ih =>
    intro idx h1 h2
    unfold b32Skip
    rw [dif_pos (by omega)]
    by_cases hs : isSpace inp[idx] = true
    · rw [if_pos hs]
      obtain ⟨j, c, e1, e2, e3, e4⟩ := ih (idx + 1) (by omega) (by omega)
      exact ⟨j, c, e1, by omega, e3, e4⟩
    · rw [if_neg hs]
      exact ⟨idx, inp[idx], rfl, Nat.le_refl _, h2, List.getElem?_eq_getElem _⟩

theorem rev_idx (c : UInt8) : ∃ v, revCharset32[c.toNat]? = some v := by
  have : revCharset32.length = 256 := by decide +kernel
  have h := c.toNat_lt
  exact ⟨_, List.getElem?_eq_getElem (by rw [this]; omega)⟩

theorem b32Group_safe {inp : List UInt8} {z : Nat} (hz : inp[z]? = some 0) : ∀ l j idx n, idx ≤ z →
    b32Group inp l j idx n = some none ∨ ∃ n' i, b32Group inp l j idx n = some (some (n', i)) ∧ idx + l ≤ i ∧ i ≤ z := by
  intro l
  induction l with
  | zero => intro j idx n h; exact Or.inr ⟨n, idx, rfl, Nat.le_refl _, h⟩
  | succ l ih =>
    intro j idx n h
    obtain ⟨i, c, e1, e2, e3, e4⟩ := b32Skip_safe hz _ idx rfl h
    rw [b32Group, e1]
    simp only [bind, Option.bind_some, e4]
    by_cases h0 : c = 0
    · rw [if_pos h0]; exact Or.inl rfl
    · rw [if_neg h0]
      obtain ⟨v, hv⟩ := rev_idx c
      rw [hv]
      simp only [Option.bind_some]
      split
      · exact Or.inl rfl
      · have hi : i ≠ z := by
          intro h
          rw [h, hz] at e4
          simp only [Option.some.injEq] at e4
          exact h0 e4.symm
        rcases ih (j + 1) (i + 1) (n ||| v.toNat <<< (35 - j * 5)) (by omega) with h1 | ⟨n', i', h1, h2, h3⟩
        · exact Or.inl h1
        · exact Or.inr ⟨n', i', h1, by omega, h3⟩

theorem b32Write_safe {cap : Nat} {out : List UInt8} (n : Nat) (h : out.length + 5 ≤ cap) :
    ∃ r, b32Write cap out n = some r ∧ r.length = out.length + 5 := by
  simp only [b32Write, show List.range 5 = [0, 1, 2, 3, 4] from rfl, List.foldlM_cons, List.foldlM_nil, bind]
  rw [put_ok (by omega)]
  simp only [Option.bind_some]
  rw [put_ok (by simp; omega)]
  simp only [Option.bind_some]
  rw [put_ok (by simp; omega)]
  simp only [Option.bind_some]
  rw [put_ok (by simp; omega)]
  simp only [Option.bind_some]
  rw [put_ok (by simp; omega)]
  exact ⟨_, rfl, by simp⟩

theorem b32DecLoop_safe {inp : List UInt8} {z cap : Nat} (hz : inp[z]? = some 0) (hcap : z / 8 * 5 ≤ cap) :
    ∀ (fuel idx k : Nat) (out : List UInt8), z - idx < fuel → idx ≤ z → out.length = 5 * k → 8 * k ≤ idx →
      ∃ r, b32DecLoop cap inp fuel idx out = some r ∧ r.length ≤ cap := by
  have hzl := (List.getElem?_eq_some_iff.1 hz).1
  intro fuel
  induction fuel with
  | zero => intro idx k out h; omega
  | succ fuel ih =>
    intro idx k out hf hi hk hk2
    rw [b32DecLoop, List.getElem?_eq_getElem (by omega)]
    simp only [bind, Option.bind_some]
    split
    · exact ⟨out, rfl, by omega⟩
    · rcases b32Group_safe hz 8 0 idx 0 hi with h | ⟨n, i, h, h1, h2⟩
      · rw [h]; exact ⟨[], rfl, by simp⟩
      · rw [h]
        simp only [Option.bind_some]
        obtain ⟨r, hr, hrl⟩ := b32Write_safe (cap := cap) (out := out) n (by omega)
        rw [hr]
        simp only [Option.bind_some]
        exact ih i (k + 1) r (by omega) h2 (by omega) (by omega)

/-! ### Line breaks at the end of a wrapped text -/

theorem wrapS_snoc (w : Nat) (cs : List UInt8) (a b : UInt8) : ∀ len,
    wrapS w len (cs ++ [a, b]) =
      wrapS w len (cs ++ [a]) ++ (if w > 0 ∧ (len + cs.length + 1) % w = 0 then [10] else []) ++ [b] := by
  induction cs with
  | nil => intro len; simp [wrapS]
  | cons c cs ih =>
    intro len
    simp only [List.cons_append, wrapS, ih, List.length_cons]
    rw [show len + 1 + cs.length + 1 = len + (cs.length + 1) + 1 by omega]
    simp

theorem chars64_tail (x : List UInt8) (h : x.length % 3 = 1) : ∃ cs, chars64 x = cs ++ [61, 61] := by
  induction x using chars64.induct with
  | case1 a b c rest ih =>
    obtain ⟨cs, hcs⟩ := ih (by simp only [List.length_cons] at h; omega)
    exact ⟨_ ++ cs, by rw [chars64, hcs, List.append_assoc]⟩
  | case2 a b => simp at h
  | case3 a => exact ⟨[_, _], rfl⟩
  | case4 => simp at h

theorem wrapS_snoc1 (w : Nat) (cs : List UInt8) (a : UInt8) (len : Nat) : ∃ p, wrapS w len (cs ++ [a]) = p ++ [a] := by
  have h := wrapS_getLast w (cs ++ [a]) len
  rw [List.getLast?_append] at h
  simp only [List.getLast?_singleton, Option.some_or] at h
  rcases List.eq_nil_or_concat (wrapS w len (cs ++ [a])) with h0 | ⟨p, z, h0⟩
  · rw [h0] at h; cases h
  · rw [h0, List.concat_eq_append] at h
    simp at h
    exact ⟨p, by rw [h0, List.concat_eq_append, h]⟩

end Verif.Bincodec
