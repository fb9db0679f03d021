import Verif.Bincodec.Base32
namespace Verif.Bincodec

/-- The hex text of a byte string without line breaks. -/
def chars16 : List UInt8 → List UInt8
  | [] => []
  | b :: rest => hexDigits.getD (b.toNat / 16) 0 :: hexDigits.getD (b.toNat % 16) 0 :: chars16 rest

theorem chars16_length (x : List UInt8) : (chars16 x).length = 2 * x.length := by
  induction x with
  | nil => rfl
  | cons b x ih => simp only [chars16, List.length_cons, ih]; omega

theorem hexDigit_ok : ∀ k : Fin 16, isSpace (hexDigits.getD k 0) = false ∧ hexValid (hexDigits.getD k 0) = true ∧
    hex2dec (hexDigits.getD k 0) = k.val := by decide +kernel

theorem chars16_nonsp (x : List UInt8) : ∀ c ∈ chars16 x, isSpace c = false := by
  induction x with
  | nil => simp [chars16]
  | cons b x ih =>
    have hb := b.toNat_lt
    intro c hc
    simp only [chars16, List.mem_cons] at hc
    rcases hc with rfl | rfl | hc
    · exact (hexDigit_ok ⟨b.toNat / 16, by omega⟩).1
    · exact (hexDigit_ok ⟨b.toNat % 16, by omega⟩).1
    · exact ih c hc

theorem hexAdd_eq {cap wrap len : Nat} {out : List UInt8} (c : UInt8)
    (h : out.length + 1 + (if wrap > 0 ∧ (len + 1) % wrap = 0 then 1 else 0) ≤ cap) :
    hexAdd cap wrap (out, len % wrap) c =
      some (out ++ [c] ++ (if wrap > 0 ∧ (len + 1) % wrap = 0 then [10] else []), (len + 1) % wrap) := by
  unfold hexAdd
  rw [put_ok (by dsimp only; omega)]
  simp only [bind, Option.bind_some]
  by_cases hw : wrap = 0
  · subst hw
    rw [if_neg (by omega), if_neg (by omega)]
    simp
  · have hlt := Nat.mod_lt len (show wrap > 0 by omega)
    by_cases hz : len % wrap + 1 = wrap
    · have h0 : (len + 1) % wrap = 0 := by rw [← Nat.mod_add_mod, hz, Nat.mod_self]
      rw [if_pos ⟨by omega, h0⟩] at h
      rw [if_pos (by omega), if_pos ⟨by omega, h0⟩, put_ok (by simp; omega)]
      simp [h0]
    · have h0 : (len + 1) % wrap = len % wrap + 1 := by rw [← Nat.mod_add_mod, Nat.mod_eq_of_lt (by omega)]
      rw [if_neg (by omega), if_neg (by omega)]
      simp [h0]

theorem hexAdd_last {cap len : Nat} {out : List UInt8} (c : UInt8) (h : out.length + 1 ≤ cap) :
    hexAdd cap 0 (out, len) c = some (out ++ [c], len + 1) := by
  unfold hexAdd
  rw [put_ok (by dsimp only; omega)]
  simp

theorem hiNib (b : UInt8) : (0xf0 &&& b.toNat) >>> 4 = b.toNat / 16 := by
  have : ∀ k : Fin 256, (0xf0 &&& k.val) >>> 4 = k.val / 16 := by decide +kernel
  exact this ⟨b.toNat, b.toNat_lt⟩

theorem loNib (b : UInt8) : 0x0f &&& b.toNat = b.toNat % 16 := by
  have : ∀ k : Fin 256, 0x0f &&& k.val = k.val % 16 := by decide +kernel
  exact this ⟨b.toNat, b.toNat_lt⟩

theorem hexEncLoop_eq (cap wrap : Nat) (inp : List UInt8) : ∀ (out : List UInt8) (len : Nat), inp ≠ [] →
    out.length + (wrapS wrap len (chars16 inp)).length ≤ cap →
    ∃ l, hexEncLoop cap wrap inp (out, len % wrap) = some (out ++ wrapS wrap len (chars16 inp), l) := by
  induction inp with
  | nil => intro out len h; exact absurd rfl h
  | cons b rest ih =>
    intro out len _ hcap
    rw [hexEncLoop, hiNib, loNib]
    simp only [chars16] at hcap ⊢
    generalize hexDigits.getD (b.toNat / 16) 0 = c1 at *
    generalize hexDigits.getD (b.toNat % 16) 0 = c2 at *
    by_cases hr : rest = []
    · subst hr
      simp only [wrapS, chars16, ne_eq, reduceCtorEq, not_false_eq_true, and_true, List.length_cons, List.length_append,
        apply_ite List.length, List.length_nil, Nat.zero_add, not_true_eq_false, and_false, if_false, List.append_nil] at hcap ⊢
      rw [hexAdd_eq c1 (by omega)]
      simp only [bind, Option.bind_some, if_true]
      rw [hexAdd_last c2 (by simp only [List.length_append, apply_ite List.length, List.length_cons, List.length_nil, Nat.zero_add]; omega)]
      simp [hexEncLoop]
    · have hne : chars16 rest ≠ [] := by
        intro h
        have := chars16_length rest
        rw [h] at this
        exact hr (List.length_eq_zero_iff.1 (by simp at this; omega))
      simp only [wrapS, ne_eq, reduceCtorEq, not_false_eq_true, and_true, List.length_cons, List.length_append,
        apply_ite List.length, List.length_nil, Nat.zero_add, hne] at hcap ⊢
      rw [hexAdd_eq c1 (by omega)]
      simp only [bind, Option.bind_some, if_neg hr]
      rw [hexAdd_eq c2 (by simp only [List.length_append, apply_ite List.length, List.length_cons, List.length_nil, Nat.zero_add]; omega)]
      simp only [Option.bind_some]
      obtain ⟨l, hl⟩ := ih (out ++ [c1] ++ (if wrap > 0 ∧ (len + 1) % wrap = 0 then [10] else []) ++ [c2] ++
        (if wrap > 0 ∧ (len + 1 + 1) % wrap = 0 then [10] else [])) (len + 1 + 1) hr
        (by simp only [List.length_append, apply_ite List.length, List.length_cons, List.length_nil, Nat.zero_add]; omega)
      exact ⟨l, by rw [hl]; simp⟩

theorem hexEncode_eq {cap wrap : Nat} {inp : List UInt8} (hne : inp ≠ []) (hcap : hexEncodeSize inp.length wrap ≤ cap) :
    hexEncode cap inp wrap = some (wrapS wrap 0 (chars16 inp)) ∧
      (wrapS wrap 0 (chars16 inp)).length ≤ hexEncodeSize inp.length wrap := by
  have hlen : inp.length ≠ 0 := fun h => hne (List.length_eq_zero_iff.1 h)
  have hcl := chars16_length inp
  have hcne : chars16 inp ≠ [] := by intro h; rw [h] at hcl; simp at hcl; omega
  have hwl := wrapS_length wrap (chars16 inp) 0 hcne
  rw [Nat.zero_div, Nat.zero_add, Nat.add_zero, hcl] at hwl
  have hsz : (wrapS wrap 0 (chars16 inp)).length ≤ hexEncodeSize inp.length wrap := by
    unfold hexEncodeSize
    rw [if_neg hlen]
    split
    next h => subst h; rw [Nat.div_zero] at hwl; omega
    next h =>
      have : (2 * inp.length - 1) / wrap ≤ 2 * inp.length / wrap := Nat.div_le_div_right (by omega)
      rw [Nat.mul_comm inp.length 2]
      omega
  refine ⟨?_, hsz⟩
  unfold hexEncode
  rw [if_neg (by omega)]
  obtain ⟨l, hl⟩ := hexEncLoop_eq cap wrap inp [] 0 hne (by simp; omega)
  rw [Nat.zero_mod] at hl
  rw [hl]
  simp only [bind, Option.bind_some, List.nil_append]
  split
  next h => rw [put_ok h]; rfl
  next h => rfl

/-! Decoding -/

theorem hexGet_some {inp : List UInt8} {inlen idx : Nat} {c rest} (hin : inlen ≤ inp.length)
    (hl : left inp inlen idx = c :: rest) (hv : hexValid c = true) :
    ∃ j, hexGet inp inlen idx = some (some c, false, j) ∧ idx < j ∧ j ≤ inlen ∧ left inp inlen j = rest := by
  rcases skipWs_cases hin (inlen - idx) idx rfl with ⟨k1, _⟩ | ⟨c', j, k1, k2, k3, k4, k5, k6⟩
  · rw [k1] at hl; cases hl
  · rw [hl] at k6
    simp only [List.cons.injEq] at k6
    obtain ⟨rfl, k6⟩ := k6
    refine ⟨j + 1, ?_, by omega, by omega, k6.symm⟩
    unfold hexGet
    rw [k1]
    simp only [bind, Option.bind_some]
    rw [if_neg (by omega), k4]
    simp [hv]

theorem hexGet_bad {inp : List UInt8} {inlen idx : Nat} {c rest} (hin : inlen ≤ inp.length)
    (hl : left inp inlen idx = c :: rest) (hv : hexValid c = false) :
    ∃ j, hexGet inp inlen idx = some (none, true, j) := by
  rcases skipWs_cases hin (inlen - idx) idx rfl with ⟨k1, _⟩ | ⟨c', j, k1, k2, k3, k4, k5, k6⟩
  · rw [k1] at hl; cases hl
  · rw [hl] at k6
    simp only [List.cons.injEq] at k6
    obtain ⟨rfl, k6⟩ := k6
    refine ⟨j, ?_⟩
    unfold hexGet
    rw [k1]
    simp only [bind, Option.bind_some]
    rw [if_neg (by omega), k4]
    simp [hv]

theorem hexGet_end {inp : List UInt8} {inlen idx : Nat} (hin : inlen ≤ inp.length) (hl : left inp inlen idx = []) :
    ∃ j, hexGet inp inlen idx = some (none, false, j) := by
  rcases skipWs_cases hin (inlen - idx) idx rfl with ⟨_, j, k1, k2⟩ | ⟨c', j, k1, k2, k3, k4, k5, k6⟩
  · refine ⟨j, ?_⟩
    unfold hexGet
    rw [k1]
    simp only [bind, Option.bind_some]
    rw [if_pos k2]
  · rw [hl] at k6; cases k6

/-- The decoder as a function of the non-space characters. -/
def hexPairs : List UInt8 → List UInt8 → List UInt8
  | c1 :: c2 :: rest, out =>
    if hexValid c1 then (if hexValid c2 then hexPairs rest (out ++ [UInt8.ofNat (hex2dec c1 <<< 4 ||| hex2dec c2)]) else [])
    else []
  | [c], out => if hexValid c then out else []
  | [], out => out

theorem hexDecLoop_eq {inp : List UInt8} {inlen cap : Nat} (hin : inlen ≤ inp.length) (cs out : List UInt8) :
    ∀ (fuel idx : Nat), left inp inlen idx = cs → 2 * out.length + (inlen - idx) < 2 * cap + 2 → inlen - idx < fuel →
    hexDecLoop cap inp inlen fuel idx out = some (hexPairs cs out) := by
  induction cs, out using hexPairs.induct with
  | case1 c1 c2 rest out hv1 hv2 ih =>
    intro fuel idx hl hcap hf
    cases fuel with
    | zero => omega
    | succ fuel =>
    obtain ⟨j1, g1, i1, i1', l1⟩ := hexGet_some hin hl hv1
    obtain ⟨j2, g2, i2, i2', l2⟩ := hexGet_some hin l1 hv2
    rw [hexDecLoop, g1]
    simp only [Option.bind_some]
    rw [g2]
    simp only [Option.bind_some]
    rw [put_ok (by omega)]
    simp only [Option.bind_some]
    rw [ih fuel j2 l2 (by simp; omega) (by omega), hexPairs, if_pos hv1, if_pos hv2]
  | case2 c1 c2 rest out hv1 hv2 =>
    intro fuel idx hl hcap hf
    cases fuel with
    | zero => omega
    | succ fuel =>
    obtain ⟨j1, g1, i1, i1', l1⟩ := hexGet_some hin hl hv1
    obtain ⟨j2, g2⟩ := hexGet_bad hin l1 (by simpa using hv2)
    rw [hexDecLoop, g1]
    simp only [Option.bind_some]
    rw [g2]
    simp [hexPairs, hv1, hv2]
  | case3 c1 c2 rest out hv1 =>
    intro fuel idx hl hcap hf
    cases fuel with
    | zero => omega
    | succ fuel =>
    obtain ⟨j2, g2⟩ := hexGet_bad hin hl (by simpa using hv1)
    rw [hexDecLoop, g2]
    simp [hexPairs, hv1]
  | case4 c out hv1 =>
    intro fuel idx hl hcap hf
    cases fuel with
    | zero => omega
    | succ fuel =>
    obtain ⟨j1, g1, i1, i1', l1⟩ := hexGet_some hin hl hv1
    obtain ⟨j2, g2⟩ := hexGet_end hin l1
    rw [hexDecLoop, g1]
    simp only [Option.bind_some]
    rw [g2]
    simp [hexPairs, hv1]
  | case5 c out hv1 =>
    intro fuel idx hl hcap hf
    cases fuel with
    | zero => omega
    | succ fuel =>
    obtain ⟨j2, g2⟩ := hexGet_bad hin hl (by simpa using hv1)
    rw [hexDecLoop, g2]
    simp [hexPairs, hv1]
  | case6 out =>
    intro fuel idx hl hcap hf
    cases fuel with
    | zero => omega
    | succ fuel =>
    obtain ⟨j2, g2⟩ := hexGet_end hin hl
    rw [hexDecLoop, g2]
    simp [hexPairs]

/-- The value of one hex digit, stated separately. -/
def hexVal (c : UInt8) : Option Nat :=
  if 48 ≤ c.toNat ∧ c.toNat ≤ 57 then some (c.toNat - 48)
  else if 65 ≤ c.toNat ∧ c.toNat ≤ 70 then some (c.toNat - 55)
  else if 97 ≤ c.toNat ∧ c.toNat ≤ 102 then some (c.toNat - 87)
  else none

theorem hexVal_spec (c : UInt8) : (hexValid c = true ∧ hexVal c = some (hex2dec c) ∧ hex2dec c < 16) ∨
    (hexValid c = false ∧ hexVal c = none) := by
  have : ∀ k : Fin 256, (hexValid (UInt8.ofNat k) = true ∧ hexVal (UInt8.ofNat k) = some (hex2dec (UInt8.ofNat k)) ∧
      hex2dec (UInt8.ofNat k) < 16) ∨ (hexValid (UInt8.ofNat k) = false ∧ hexVal (UInt8.ofNat k) = none) := by decide +kernel
  have h := this ⟨c.toNat, c.toNat_lt⟩
  simpa using h

/-- The two digits of every byte. -/
def nibbles (x : List UInt8) : List Nat := x.flatMap fun b => [b.toNat / 16, b.toNat % 16]

theorem hexPairs_eq (x : List UInt8) : ∀ (cs out : List UInt8), cs.map hexVal = (nibbles x).map some →
    hexPairs cs out = out ++ x := by
  induction x with
  | nil =>
    intro cs out h
    cases cs with
    | nil => simp [hexPairs]
    | cons => simp [nibbles] at h
  | cons b x ih =>
    intro cs out h
    have hb := b.toNat_lt
    match cs with
    | [] => simp [nibbles] at h
    | [c] => simp [nibbles] at h
    | c1 :: c2 :: cs =>
      have h' : hexVal c1 = some (b.toNat / 16) ∧ hexVal c2 = some (b.toNat % 16) ∧ cs.map hexVal = (nibbles x).map some := by
        simpa [nibbles] using h
      obtain ⟨h1, h2, h3⟩ := h'
      rcases hexVal_spec c1 with ⟨v1, w1, _⟩ | ⟨_, w1⟩
      · rcases hexVal_spec c2 with ⟨v2, w2, _⟩ | ⟨_, w2⟩
        · rw [h1] at w1
          rw [h2] at w2
          simp only [Option.some.injEq] at w1 w2
          rw [hexPairs, if_pos v1, if_pos v2, ih cs _ h3, ← w1, ← w2]
          have e : (b.toNat / 16) <<< 4 ||| b.toNat % 16 = b.toNat := by
            rw [Nat.shiftLeft_eq, Nat.mul_comm, ← Nat.two_pow_add_eq_or_of_lt (by omega)]
            omega
          rw [e, UInt8.ofNat_toNat]
          simp
        · rw [h2] at w2; cases w2
      · rw [h1] at w1; cases w1

theorem hexPairs_bad (cs out : List UInt8) (h : ∃ c ∈ cs, hexVal c = none) : hexPairs cs out = [] := by
  induction cs, out using hexPairs.induct with
  | case1 c1 c2 rest out hv1 hv2 ih =>
    rw [hexPairs, if_pos hv1, if_pos hv2]
    apply ih
    obtain ⟨c, hc, hn⟩ := h
    simp only [List.mem_cons] at hc
    rcases hc with rfl | rfl | hc
    · rcases hexVal_spec c with ⟨_, w, _⟩ | ⟨w, _⟩
      · rw [hn] at w; cases w
      · rw [w] at hv1; cases hv1
    · rcases hexVal_spec c with ⟨_, w, _⟩ | ⟨w, _⟩
      · rw [hn] at w; cases w
      · rw [w] at hv2; cases hv2
    · exact ⟨c, hc, hn⟩
  | case2 c1 c2 rest out hv1 hv2 => rw [hexPairs, if_pos hv1, if_neg hv2]
  | case3 c1 c2 rest out hv1 => rw [hexPairs, if_neg hv1]
  | case4 c out hv1 =>
    obtain ⟨c', hc, hn⟩ := h
    simp only [List.mem_cons, List.not_mem_nil, or_false] at hc
    subst hc
    rcases hexVal_spec c' with ⟨_, w, _⟩ | ⟨w, _⟩
    · rw [hn] at w; cases w
    · rw [w] at hv1; cases hv1
  | case5 c out hv1 => rw [hexPairs, if_neg hv1]
  | case6 out => simp at h

theorem hexPairs_length (cs out : List UInt8) : (hexPairs cs out).length ≤ out.length + cs.length / 2 := by
  induction cs, out using hexPairs.induct with
  | case1 c1 c2 rest out hv1 hv2 ih =>
    rw [hexPairs, if_pos hv1, if_pos hv2]
    simp at ih ⊢; omega
  | case2 c1 c2 rest out hv1 hv2 => rw [hexPairs, if_pos hv1, if_neg hv2]; simp
  | case3 c1 c2 rest out hv1 => rw [hexPairs, if_neg hv1]; simp
  | case4 c out hv1 => rw [hexPairs, if_pos hv1]; simp
  | case5 c out hv1 => rw [hexPairs, if_neg hv1]; simp
  | case6 out => simp [hexPairs]

end Verif.Bincodec
