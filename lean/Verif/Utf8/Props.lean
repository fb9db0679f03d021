import Verif.ExceptDec
import Verif.Utf8.Lemmas
/-! C19, C20: UTF-8.

Specification: `utf8 cp` is the form of RFC 3629; `Allowed` is the set of code points the library documents as valid
(scalar values without noncharacters, up to the deviation shown in `noncharacter_fails`). -/
namespace Verif.Utf8

/-- The text of a sequence of code points. -/
def flat (cps : List Nat) : List UInt8 := cps.flatMap utf8

/-- Code points that can occur in a C string. -/
def Good (cps : List Nat) : Prop := ∀ cp ∈ cps, Allowed cp ∧ cp ≠ 0

/-! ### C19 -/

/-- Encoding writes the RFC form and nothing else, and only for allowed code points that fit. -/
theorem encode_correct (size cp : Nat) (bytes : List UInt8) :
    fromCp size cp = .ok bytes ↔ Allowed cp ∧ bytes = utf8 cp ∧ bytes.length ≤ size := by
  rw [fromCp_eq]
  by_cases ha : Allowed cp
  · by_cases hs : (utf8 cp).length ≤ size
    · rw [if_pos ha, if_pos hs]
      constructor
      · intro h; simp only [Except.ok.injEq] at h; subst h; exact ⟨ha, rfl, hs⟩
      · intro h; rw [h.2.1]
    · rw [if_pos ha, if_neg hs]
      constructor
      · intro h; cases h
      · intro h; rw [h.2.1] at h; exact absurd h.2.2 hs
  · rw [if_neg ha]
    constructor
    · intro h; cases h
    · intro h; exact absurd h.1 ha

example : fromCp 4 0x20AC = .ok [0xE2, 0x82, 0xAC] := by decide +kernel

/-- Decoding succeeds exactly on the shortest form of an allowed code point and consumes exactly that form. -/
theorem decode_correct (s rest : List UInt8) (cp : Nat) (hs : s[0]? ≠ some 0) :
    getCp s = some (.ok (cp, rest)) ↔ Allowed cp ∧ cp ≠ 0 ∧ s = utf8 cp ++ rest := by
  constructor
  · intro h; exact getCp_ok h hs
  · intro ⟨h1, h2, h3⟩; rw [h3]; exact getCp_utf8 h1 h2 rest

example : getCp [0xF0, 0x9F, 0x98, 0x80, 65, 0] = some (.ok (0x1F600, [65, 0])) := by decide +kernel

/-- Round trip.  Missing: code point 0, which is written as a terminator and not advanced over
(`roundtrip_nul_fails`). -/
theorem roundtrip_partial {size cp : Nat} {bytes : List UInt8} (h : fromCp size cp = .ok bytes) (h0 : cp ≠ 0) (rest : List UInt8) :
    getCp (bytes ++ rest) = some (.ok (cp, rest)) := by
  obtain ⟨h1, h2, _⟩ := (encode_correct size cp bytes).1 h
  rw [h2]
  exact getCp_utf8 h1 h0 rest

theorem roundtrip_nul_fails : ∃ bytes rest, fromCp 4 0 = .ok bytes ∧ getCp (bytes ++ rest) ≠ some (.ok (0, rest)) :=
  ⟨[0], [65], by decide +kernel⟩

/-- No decoding yields a surrogate, a value above 10FFFF or an overlong form. -/
theorem decode_rejects (s rest : List UInt8) (cp : Nat) (h : getCp s = some (.ok (cp, rest))) (hs : s[0]? ≠ some 0) :
    cp ≤ 0x10FFFF ∧ ¬ (0xD800 ≤ cp ∧ cp ≤ 0xDFFF) ∧ s.length - rest.length = (utf8 cp).length := by
  obtain ⟨h1, _, h3⟩ := (decode_correct s rest cp hs).1 h
  refine ⟨h1.1.1, h1.1.2, ?_⟩
  rw [h3, List.length_append]; omega

example : getCp [0xED, 0xA0, 0x80, 0] = some (.error .badCodePoint) ∧ getCp [0xE0, 0x80, 0x80, 0] = some (.error .overlong) ∧
    getCp [0xF4, 0x90, 0x80, 0x80, 0] = some (.error .badCodePoint) ∧ getCp [0xC0, 0x80, 0] = some (.error .badStart) := by
  decide +kernel

theorem checkCont_safe {s : List UInt8} {z : Nat} (hz : s[z]? = some 0) : ∀ n i, i ≤ z → checkCont s n i ≠ none := by
  have hl := (List.getElem?_eq_some_iff.1 hz).1
  intro n
  induction n with
  | zero => intro i _ h; cases h
  | succ n ih =>
    intro i hi h
    unfold checkCont at h
    rw [List.getElem?_eq_getElem (by omega)] at h
    simp only [bind, Option.bind_some] at h
    split at h
    · cases h
    next h0 =>
      split at h
      · cases h
      · have : i ≠ z := by
          intro e
          subst e
          exact h0 (List.getElem?_eq_some_iff.1 hz).2
        exact ih (i + 1) (by omega) h

/-- Decoding never reads past the terminator of a string. -/
theorem decode_safe (s : List UInt8) (h : (0 : UInt8) ∈ s) : getCp s ≠ none := by
  obtain ⟨z, hz⟩ := List.mem_iff_getElem?.1 h
  have hl := (List.getElem?_eq_some_iff.1 hz).1
  unfold getCp
  rw [List.getElem?_eq_getElem (by omega)]
  simp only [bind, Option.bind_some]
  split
  · simp
  · split
    · simp
    · split
      · simp
      next w0 w1 =>
        have hs := checkCont_safe hz (byteWidth s[0] - 1) 1 (by
          apply Classical.byContradiction
          intro hn
          have : z = 0 := by omega
          subst this
          have := (List.getElem?_eq_some_iff.1 hz).2
          contradiction)
        cases hcc : checkCont s (byteWidth s[0] - 1) 1 with
        | none => exact absurd hcc hs
        | some r =>
          simp only [Option.bind_some]
          cases r with
          | some e => simp
          | none =>
            have hk := checkCont_ok _ _ _ hcc
            have hw : byteWidth s[0] = 2 ∨ byteWidth s[0] = 3 ∨ byteWidth s[0] = 4 := by
              have hb := byteWidth_eq s[0]
              rw [hb] at w0 w1 ⊢
              repeat' split
              all_goals simp_all
            simp only
            rcases hw with w | w | w
            · obtain ⟨b1, g1, _⟩ := hk 1 (by omega) (by omega)
              simp only [w, g1, Option.bind_some, if_true]
              repeat' split
              all_goals simp
            · obtain ⟨b1, g1, _⟩ := hk 1 (by omega) (by omega)
              obtain ⟨b2, g2, _⟩ := hk 2 (by omega) (by omega)
              simp only [w, g1, g2, Option.bind_some, if_true, Nat.reduceEqDiff, if_false]
              repeat' split
              all_goals simp
            · obtain ⟨b1, g1, _⟩ := hk 1 (by omega) (by omega)
              obtain ⟨b2, g2, _⟩ := hk 2 (by omega) (by omega)
              obtain ⟨b3, g3, _⟩ := hk 3 (by omega) (by omega)
              simp only [w, g1, g2, g3, Option.bind_some, Nat.reduceEqDiff, if_false]
              repeat' split
              all_goals simp

example : (0 : UInt8) ∈ [0xF0, 0x9F, 0x98, 0] ∧ getCp [0xF0, 0x9F, 0x98, 0] = some (.error .truncated) := by decide +kernel

/-- The noncharacters of planes 10 to 15 are accepted although all the others are rejected. -/
theorem noncharacter_fails : ∃ cp bytes, NonChar cp ∧ fromCp 4 cp = .ok bytes ∧ fromCp 4 (cp - 0x10000) = .error .badCodePoint :=
  ⟨0xAFFFE, [0xF2, 0xAF, 0xBF, 0xBE], by decide +kernel⟩

/-! ### C20 -/

theorem utf8_ne_nil (cp : Nat) : utf8 cp ≠ [] := by
  unfold utf8
  repeat' split
  all_goals simp

theorem utf8_head {cp : Nat} (ha : Allowed cp) (h0 : cp ≠ 0) : ∃ b t, utf8 cp = b :: t ∧ b ≠ 0 ∧ isContinue b = false := by
  have hle := ha.1.1
  have key : ∀ n, n < 256 → n ≠ 0 → ¬ (0x80 ≤ n ∧ n ≤ 0xBF) → UInt8.ofNat n ≠ 0 ∧ isContinue (UInt8.ofNat n) = false := by
    intro n h1 h2 h3
    have t := toNat_ofNat h1
    constructor
    · intro h; rw [h] at t; exact h2 (by simpa using t.symm)
    · cases hc : isContinue (UInt8.ofNat n) with
      | false => rfl
      | true => rw [isContinue_iff, t] at hc; exact absurd hc h3
  unfold utf8
  split
  · have := key cp (by omega) h0 (by omega)
    exact ⟨_, _, rfl, this.1, this.2⟩
  · split
    · have := key (0xC0 + cp / 64) (by omega) (by omega) (by omega)
      exact ⟨_, _, rfl, this.1, this.2⟩
    · split
      · have := key (0xE0 + cp / 4096) (by omega) (by omega) (by omega)
        exact ⟨_, _, rfl, this.1, this.2⟩
      · have := key (0xF0 + cp / 262144) (by omega) (by omega) (by omega)
        exact ⟨_, _, rfl, this.1, this.2⟩

theorem flat_cons (cp : Nat) (cps : List Nat) : flat (cp :: cps) = utf8 cp ++ flat cps := rfl

theorem flat_head {cp : Nat} (ha : Allowed cp) (h0 : cp ≠ 0) (cps : List Nat) (r : List UInt8) :
    ∃ b, (flat (cp :: cps) ++ r)[0]? = some b ∧ b ≠ 0 := by
  obtain ⟨b, t, h1, h2, _⟩ := utf8_head ha h0
  exact ⟨b, by rw [flat_cons, h1]; rfl, h2⟩

theorem validateLoop_flat (cps : List Nat) (junk : List UInt8) : ∀ fuel len, Good cps → cps.length < fuel →
    validateLoop fuel (flat cps ++ 0 :: junk) len = some (true, 0 :: junk, len + cps.length) := by
  induction cps with
  | nil =>
    intro fuel len _ hf
    cases fuel with
    | zero => simp at hf
    | succ fuel => simp [validateLoop, flat]
  | cons cp cps ih =>
    intro fuel len hg hf
    have hcp := hg cp (by simp)
    obtain ⟨b, hb, hb0⟩ := flat_head hcp.1 hcp.2 cps (0 :: junk)
    cases fuel with
    | zero => simp at hf
    | succ fuel =>
      unfold validateLoop
      rw [hb]
      simp only [bind, Option.bind_some]
      rw [if_neg hb0, flat_cons, List.append_assoc, getCp_utf8 hcp.1 hcp.2]
      simp only [Option.bind_some]
      rw [ih fuel (len + 1) (fun c hc => hg c (by simp [hc])) (by simp at hf; omega)]
      simp; omega

/-- The loop in general: it stops at the first position that is not the form of an allowed code point. -/
theorem validateLoop_spec : ∀ fuel (s : List UInt8) len, (0 : UInt8) ∈ s → s.length < fuel →
    ∃ cps e, Good cps ∧ s = flat cps ++ e ∧
      ((validateLoop fuel s len = some (true, e, len + cps.length) ∧ e[0]? = some 0) ∨
       (validateLoop fuel s len = some (false, e, len + cps.length + 1) ∧ e[0]? ≠ some 0 ∧
          ∀ cp rest, Allowed cp → cp ≠ 0 → e ≠ utf8 cp ++ rest)) := by
  intro fuel
  induction fuel with
  | zero => intro s len _ h; omega
  | succ fuel ih =>
    intro s len hz hf
    have hpos : 0 < s.length := List.length_pos_of_mem hz
    have hget : s[0]? = some s[0] := List.getElem?_eq_getElem hpos
    by_cases h0 : s[0] = 0
    · refine ⟨[], s, by simp [Good], by simp [flat], Or.inl ⟨?_, by rw [hget, h0]⟩⟩
      unfold validateLoop
      rw [hget]
      simp [h0]
    · have hne : s[0]? ≠ some 0 := by rw [hget]; simpa using h0
      cases hg : getCp s with
      | none => exact absurd hg (decode_safe s hz)
      | some r =>
        cases r with
        | error e =>
          refine ⟨[], s, by simp [Good], by simp [flat], Or.inr ⟨?_, hne, ?_⟩⟩
          · unfold validateLoop
            rw [hget]
            simp only [bind, Option.bind_some]
            rw [if_neg h0, hg]
            rfl
          · intro cp rest h1 h2 h3
            rw [h3, getCp_utf8 h1 h2 rest] at hg
            simp at hg
        | ok p =>
          obtain ⟨cp, rest⟩ := p
          obtain ⟨h1, h2, h3⟩ := getCp_ok hg hne
          have hz' : (0 : UInt8) ∈ rest := by
            rw [h3, List.mem_append] at hz
            rcases hz with hz | hz
            · have : ∀ b ∈ utf8 cp, b ≠ 0 := by
                have hle := h1.1.1
                have key : ∀ n, n < 256 → n ≠ 0 → UInt8.ofNat n ≠ 0 := by
                  intro n k1 k2 k3
                  have t := toNat_ofNat k1
                  rw [k3] at t; exact k2 (by simpa using t.symm)
                intro b hb
                unfold utf8 at hb
                split at hb
                · simp only [List.mem_cons, List.not_mem_nil, or_false] at hb
                  subst hb; exact key _ (by omega) h2
                · split at hb
                  · simp only [List.mem_cons, List.not_mem_nil, or_false] at hb
                    rcases hb with rfl | rfl <;> exact key _ (by omega) (by omega)
                  · split at hb
                    · simp only [List.mem_cons, List.not_mem_nil, or_false] at hb
                      rcases hb with rfl | rfl | rfl <;> exact key _ (by omega) (by omega)
                    · simp only [List.mem_cons, List.not_mem_nil, or_false] at hb
                      rcases hb with rfl | rfl | rfl | rfl <;> exact key _ (by omega) (by omega)
              exact absurd rfl (this 0 hz)
            · exact hz
          have hlen : rest.length < fuel := by
            have := congrArg List.length h3
            rw [List.length_append] at this
            have := List.length_pos_iff.2 (utf8_ne_nil cp)
            omega
          obtain ⟨cps, e, k1, k2, k3⟩ := ih rest (len + 1) hz' hlen
          have hstep : validateLoop (fuel + 1) s len = validateLoop fuel rest (len + 1) := by
            rw [validateLoop, hget]
            simp only [bind, Option.bind_some]
            rw [if_neg h0, hg]
            rfl
          refine ⟨cp :: cps, e, ?_, by rw [h3, k2, flat_cons, List.append_assoc], ?_⟩
          · intro c hc
            simp only [List.mem_cons] at hc
            rcases hc with rfl | hc
            · exact ⟨h1, h2⟩
            · exact k1 c hc
          · rw [hstep, List.length_cons]
            rw [show len + (cps.length + 1) = len + 1 + cps.length by omega]
            exact k3

theorem flat_length (cps : List Nat) : cps.length ≤ (flat cps).length := by
  induction cps with
  | nil => simp
  | cons cp cps ih =>
    have := List.length_pos_iff.2 (utf8_ne_nil cp)
    rw [flat_cons, List.length_append, List.length_cons]; omega

/-- `M_utf8_is_valid` decides whether a string is the text of a sequence of allowed code points, and its end pointer
is the end of the longest such prefix: what follows does not begin with the form of an allowed code point. -/
theorem is_valid_correct (s : List UInt8) (hz : (0 : UInt8) ∈ s) :
    ∃ cps e, Good cps ∧ s = flat cps ++ e ∧
      ((isValid s = some (true, e) ∧ e[0]? = some 0) ∨
       (isValid s = some (false, e) ∧ e[0]? ≠ some 0 ∧ ∀ cp rest, Allowed cp → cp ≠ 0 → e ≠ utf8 cp ++ rest)) := by
  have hpos : 0 < s.length := List.length_pos_of_mem hz
  have hget : s[0]? = some s[0] := List.getElem?_eq_getElem hpos
  by_cases h0 : s[0] = 0
  · refine ⟨[], s, by simp [Good], by simp [flat], Or.inl ⟨?_, by rw [hget, h0]⟩⟩
    unfold isValid
    rw [hget]
    simp [h0]
  · obtain ⟨cps, e, h1, h2, h3⟩ := validateLoop_spec (s.length + 1) s 0 hz (by omega)
    refine ⟨cps, e, h1, h2, ?_⟩
    have hv : isValid s = (validateLoop (s.length + 1) s 0).bind fun (ok, e, _) => some (ok, e) := by
      unfold isValid validateInt
      rw [hget]
      simp only [bind, Option.bind_some]
      rw [if_neg h0, if_neg h0]
    rw [hv]
    rcases h3 with ⟨h3, h4⟩ | ⟨h3, h4⟩
    · rw [h3]; exact Or.inl ⟨rfl, h4⟩
    · rw [h3]; exact Or.inr ⟨rfl, h4⟩

example : isValid [65, 0xC3, 0xA9, 0xFF, 66, 0] = some (false, [0xFF, 66, 0]) := by decide +kernel

/-- `M_utf8_cnt` is the number of code points. -/
theorem cnt_correct (cps : List Nat) (junk : List UInt8) (hg : Good cps) : cnt (flat cps ++ 0 :: junk) = some cps.length := by
  unfold cnt validateInt
  cases cps with
  | nil => simp [flat]
  | cons cp cps =>
    have hcp := hg cp (by simp)
    obtain ⟨b, hb, hb0⟩ := flat_head hcp.1 hcp.2 cps (0 :: junk)
    rw [hb]
    simp only [bind, Option.bind_some]
    have := flat_length (cp :: cps)
    rw [if_neg hb0, validateLoop_flat _ _ _ _ hg (by rw [List.length_append]; omega)]
    simp

example : Good [65, 0xE9, 0x20AC] ∧ cnt (flat [65, 0xE9, 0x20AC] ++ [0]) = some 3 := by
  constructor
  · intro cp h
    simp at h
    rcases h with rfl | rfl | rfl <;> decide
  · decide +kernel

theorem cpAtLoop_flat (idx : Nat) (cps : List Nat) (junk : List UInt8) : ∀ fuel i cp0, Good cps → cps.length < fuel → i ≤ idx →
    cpAtLoop idx fuel (flat cps ++ 0 :: junk) i cp0 =
      some (.ok (if h : idx - i < cps.length then (cps[idx - i], idx) else (cps.getLastD cp0, i + cps.length))) := by
  induction cps with
  | nil =>
    intro fuel i cp0 _ hf _
    cases fuel with
    | zero => simp at hf
    | succ fuel => simp [cpAtLoop, flat]
  | cons cp cps ih =>
    intro fuel i cp0 hg hf hi
    have hcp := hg cp (by simp)
    obtain ⟨b, hb, hb0⟩ := flat_head hcp.1 hcp.2 cps (0 :: junk)
    cases fuel with
    | zero => simp at hf
    | succ fuel =>
      unfold cpAtLoop
      rw [hb]
      simp only [bind, Option.bind_some]
      rw [if_neg hb0, flat_cons, List.append_assoc, getCp_utf8 hcp.1 hcp.2]
      simp only [Option.bind_some]
      by_cases he : i = idx
      · subst he; simp
      · rw [if_neg he, ih fuel (i + 1) cp (fun c hc => hg c (by simp [hc])) (by simp at hf; omega) (by omega)]
        congr 2
        have e : idx - i = idx - (i + 1) + 1 := by omega
        by_cases hlt : idx - (i + 1) < cps.length
        · rw [dif_pos hlt, dif_pos (by rw [List.length_cons]; omega)]
          simp only [e, List.getElem_cons_succ]
        · rw [dif_neg hlt, dif_neg (by rw [List.length_cons]; omega), List.length_cons, List.getLastD_cons,
            show i + 1 + cps.length = i + (cps.length + 1) by omega]

/-- `M_utf8_cp_at` for an index smaller than the count returns that code point, for an index larger than the count it
reports an error.  Missing: the index equal to the count (`cp_at_count_fails`). -/
theorem cp_at_correct_partial (cps : List Nat) (junk : List UInt8) (idx : Nat) (hg : Good cps) :
    (∀ h : idx < cps.length, cpAt (flat cps ++ 0 :: junk) idx = some (.ok cps[idx])) ∧
    (cps.length < idx → cpAt (flat cps ++ 0 :: junk) idx = some (.error .invalidParam)) := by
  unfold cpAt
  cases cps with
  | nil => simp [flat]
  | cons cp cps =>
    have hcp := hg cp (by simp)
    obtain ⟨b, hb, hb0⟩ := flat_head hcp.1 hcp.2 cps (0 :: junk)
    rw [hb]
    simp only [bind, Option.bind_some]
    have := flat_length (cp :: cps)
    rw [if_neg hb0, cpAtLoop_flat idx (cp :: cps) junk _ 0 0 hg (by rw [List.length_append]; omega) (by omega)]
    simp only [Option.bind_some, Nat.sub_zero, Nat.zero_add]
    constructor
    · intro h
      rw [dif_pos h]
      simp
    · intro h
      rw [dif_neg (by omega)]
      simp only
      rw [if_pos (by omega)]

/-- At the index equal to the count the last code point is returned with success. -/
theorem cp_at_count_fails : ∃ cps : List Nat, Good cps ∧ cpAt (flat cps ++ [0]) cps.length = some (.ok 66) :=
  ⟨[65, 66], by
    constructor
    · intro cp h
      simp at h
      rcases h with rfl | rfl <;> decide
    · decide +kernel⟩

/-- `M_utf8_chr_at` returns the bytes of that code point. -/
theorem chr_at_correct_partial (cps : List Nat) (junk : List UInt8) (idx size : Nat) (hg : Good cps) (h : idx < cps.length)
    (hsize : 4 ≤ size) : chrAt (flat cps ++ 0 :: junk) size idx = some (.ok (utf8 cps[idx])) := by
  unfold chrAt
  rw [(cp_at_correct_partial cps junk idx hg).1 h]
  simp only [Option.bind_some]
  have ha := (hg cps[idx] (List.getElem_mem h)).1
  have hl : (utf8 cps[idx]).length ≤ 4 := by
    unfold utf8
    repeat' split
    all_goals simp
  rw [fromCp_eq, if_pos ha, if_pos (by omega)]

theorem skipCont_append (t r : List UInt8) (ht : ∀ b ∈ t, isContinue b = true) (hr : ∃ b r', r = b :: r' ∧ isContinue b = false) :
    skipCont (t ++ r) = some r := by
  induction t with
  | nil => obtain ⟨b, r', rfl, h⟩ := hr; simp [skipCont, h]
  | cons b t ih =>
    rw [List.cons_append, skipCont, if_pos (ht b (by simp))]
    exact ih (fun b hb => ht b (by simp [hb]))

/-- `M_utf8_next_chr` moves to the next code point. -/
theorem next_chr_correct (cp : Nat) (cps : List Nat) (junk : List UInt8) (hg : Good (cp :: cps)) :
    nextChr (flat (cp :: cps) ++ 0 :: junk) = some (some (flat cps ++ 0 :: junk)) := by
  have hcp := hg cp (by simp)
  have hle := hcp.1.1.1
  obtain ⟨b, hb, hb0⟩ := flat_head hcp.1 hcp.2 cps (0 :: junk)
  have htail : ∀ b ∈ (utf8 cp).drop 1, isContinue b = true := by
    have key : ∀ n, n < 64 → isContinue (UInt8.ofNat (0x80 + n)) = true := by
      intro n h
      rw [isContinue_iff, toNat_ofNat (by omega)]; omega
    intro b hb
    unfold utf8 at hb
    split at hb
    · simp only [List.drop_one, List.tail_cons, List.not_mem_nil] at hb
    · split at hb
      · simp only [List.drop_one, List.tail_cons, List.mem_cons, List.not_mem_nil, or_false] at hb
        subst hb; exact key _ (by omega)
      · split at hb
        · simp only [List.drop_one, List.tail_cons, List.mem_cons, List.not_mem_nil, or_false] at hb
          rcases hb with rfl | rfl <;> exact key _ (by omega)
        · simp only [List.drop_one, List.tail_cons, List.mem_cons, List.not_mem_nil, or_false] at hb
          rcases hb with rfl | rfl | rfl <;> exact key _ (by omega)
  have hnext : ∃ b r', flat cps ++ 0 :: junk = b :: r' ∧ isContinue b = false := by
    cases cps with
    | nil => exact ⟨0, junk, rfl, by decide⟩
    | cons c cps =>
      have hc := hg c (by simp)
      obtain ⟨b, t, h1, _, h3⟩ := utf8_head hc.1 hc.2
      exact ⟨b, t ++ (flat cps ++ 0 :: junk), by rw [flat_cons, h1]; simp, h3⟩
  unfold nextChr
  rw [hb]
  simp only [bind, Option.bind_some]
  rw [if_neg hb0, flat_cons, List.append_assoc]
  have hd : (utf8 cp ++ (flat cps ++ 0 :: junk)).drop 1 = (utf8 cp).drop 1 ++ (flat cps ++ 0 :: junk) := by
    cases h : utf8 cp with
    | nil => exact absurd h (utf8_ne_nil cp)
    | cons => rfl
  rw [hd, skipCont_append _ _ htail hnext]
  rfl

example : nextChr [0xE2, 0x82, 0xAC, 66, 0] = some (some [66, 0]) := by decide +kernel

end Verif.Utf8
