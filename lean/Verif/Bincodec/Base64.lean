import Verif.Bincodec.Lemmas
namespace Verif.Bincodec

/-- The characters of the base64 text of a byte string without line breaks (RFC 4648, section 4). -/
def chars64 : List UInt8 → List UInt8
  | a :: b :: c :: rest =>
    let n := a.toNat * 65536 + b.toNat * 256 + c.toNat
    [encChar (n / 262144), encChar (n / 4096 % 64), encChar (n / 64 % 64), encChar (n % 64)] ++ chars64 rest
  | [a, b] =>
    let n := a.toNat * 65536 + b.toNat * 256
    [encChar (n / 262144), encChar (n / 4096 % 64), encChar (n / 64 % 64), 61]
  | [a] =>
    let n := a.toNat * 65536
    [encChar (n / 262144), encChar (n / 4096 % 64), 61, 61]
  | [] => []

theorem or3 (a b c : UInt8) : a.toNat <<< 16 ||| b.toNat <<< 8 ||| c.toNat = a.toNat * 65536 + b.toNat * 256 + c.toNat := by
  have h1 := a.toNat_lt
  have h2 := b.toNat_lt
  have h3 := c.toNat_lt
  have e1 : a.toNat <<< 16 ||| b.toNat <<< 8 = 2 ^ 16 * a.toNat + b.toNat * 2 ^ 8 := by
    rw [Nat.shiftLeft_eq, Nat.shiftLeft_eq, Nat.mul_comm, Nat.two_pow_add_eq_or_of_lt (by omega)]
  rw [e1]
  have e2 : 2 ^ 16 * a.toNat + b.toNat * 2 ^ 8 = 2 ^ 8 * (2 ^ 8 * a.toNat + b.toNat) := by omega
  rw [e2, ← Nat.two_pow_add_eq_or_of_lt (by omega)]
  omega

theorem or2 (a b : UInt8) : a.toNat <<< 16 ||| b.toNat <<< 8 = a.toNat * 65536 + b.toNat * 256 := by
  have := or3 a b 0
  simpa using this

theorem mask (n k : Nat) : n >>> k &&& 63 = n / 2 ^ k % 64 := by
  rw [Nat.shiftRight_eq_div_pow, show 63 = 2 ^ 6 - 1 by rfl, Nat.and_two_pow_sub_one_eq_mod]

theorem mask0 (n : Nat) : n &&& 63 = n % 64 := by
  rw [show 63 = 2 ^ 6 - 1 by rfl, Nat.and_two_pow_sub_one_eq_mod]

theorem b64EncLoop_eq (cap wrap : Nat) (inp : List UInt8) : ∀ st,
    b64EncLoop cap wrap inp st = (chars64 inp).foldlM (b64Adder cap wrap) st := by
  induction inp using chars64.induct with
  | case1 a b c rest ih =>
    intro st
    have h1 := a.toNat_lt
    have h2 := b.toNat_lt
    have h3 := c.toNat_lt
    simp only [b64EncLoop, chars64, or3, Nat.shiftRight_eq_div_pow, mask0, List.cons_append, List.nil_append, List.foldlM_cons]
    rw [show (a.toNat * 65536 + b.toNat * 256 + c.toNat) / 2 ^ 18 % 64 = (a.toNat * 65536 + b.toNat * 256 + c.toNat) / 262144 by omega]
    simp only [ih]
  | case2 a b =>
    intro st
    have h1 := a.toNat_lt
    have h2 := b.toNat_lt
    simp only [b64EncLoop, chars64, or2, Nat.shiftRight_eq_div_pow, mask0, List.foldlM_cons]
    rw [show (a.toNat * 65536 + b.toNat * 256) / 2 ^ 18 % 64 = (a.toNat * 65536 + b.toNat * 256) / 262144 by omega]
    simp
  | case3 a =>
    intro st
    have h1 := a.toNat_lt
    simp only [b64EncLoop, chars64, Nat.shiftLeft_eq, Nat.shiftRight_eq_div_pow, mask0, List.foldlM_cons]
    rw [show (a.toNat * 2 ^ 16) / 2 ^ 18 % 64 = (a.toNat * 65536) / 262144 by omega]
    simp
  | case4 => intro st; rfl

theorem chars64_length (x : List UInt8) : (chars64 x).length = (x.length + 2) / 3 * 4 := by
  induction x using chars64.induct with
  | case1 a b c rest ih => simp only [chars64, List.length_append, List.length_cons, ih, List.length_nil]; omega
  | case2 a b => simp [chars64]
  | case3 a => simp [chars64]
  | case4 => rfl

theorem encChar_ok : ∀ k : Fin 64, isSpace (encChar k) = false ∧ b64Valid (encChar k) = true ∧ encChar k ≠ 61 ∧
    ¬ encChar k < 43 ∧ ¬ (encChar k).toNat - 43 > 4 * decTable.length ∧ decTable[(encChar k).toNat - 43]? = some (k.val : Int) := by
  decide +kernel

theorem encChar_ok' {k : Nat} (h : k < 64) : isSpace (encChar k) = false ∧ b64Valid (encChar k) = true ∧ encChar k ≠ 61 ∧
    ¬ encChar k < 43 ∧ ¬ (encChar k).toNat - 43 > 4 * decTable.length ∧ decTable[(encChar k).toNat - 43]? = some (k : Int) :=
  encChar_ok ⟨k, h⟩

theorem chars64_nonsp (x : List UInt8) : ∀ c ∈ chars64 x, isSpace c = false := by
  induction x using chars64.induct with
  | case1 a b c rest ih =>
    have h1 := a.toNat_lt
    have h2 := b.toNat_lt
    have h3 := c.toNat_lt
    intro d hd
    simp only [chars64, List.mem_append, List.mem_cons, List.not_mem_nil, or_false] at hd
    rcases hd with (rfl | rfl | rfl | rfl) | hd
    · exact (encChar_ok' (by omega)).1
    · exact (encChar_ok' (by omega)).1
    · exact (encChar_ok' (by omega)).1
    · exact (encChar_ok' (by omega)).1
    · exact ih d hd
  | case2 a b =>
    have h1 := a.toNat_lt
    have h2 := b.toNat_lt
    intro d hd
    simp only [chars64, List.mem_cons, List.not_mem_nil, or_false] at hd
    rcases hd with rfl | rfl | rfl | rfl
    · exact (encChar_ok' (by omega)).1
    · exact (encChar_ok' (by omega)).1
    · exact (encChar_ok' (by omega)).1
    · rfl
  | case3 a =>
    have h1 := a.toNat_lt
    intro d hd
    simp only [chars64, List.mem_cons, List.not_mem_nil, or_false] at hd
    rcases hd with rfl | rfl | rfl | rfl
    · exact (encChar_ok' (by omega)).1
    · exact (encChar_ok' (by omega)).1
    · rfl
    · rfl
  | case4 => simp [chars64]

/-- What the encoder writes. -/
theorem b64Encode_eq {cap wrap : Nat} {inp : List UInt8} (hne : inp ≠ []) (hcap : b64EncodeSize inp.length wrap ≤ cap) :
    b64Encode cap inp wrap = some (wrapS wrap 0 (chars64 inp)) ∧
      (wrapS wrap 0 (chars64 inp)).length + 1 ≤ b64EncodeSize inp.length wrap := by
  have hlen : inp.length ≠ 0 := fun h => hne (List.length_eq_zero_iff.1 h)
  have hcl := chars64_length inp
  have hcne : chars64 inp ≠ [] := by intro h; rw [h] at hcl; simp at hcl; omega
  have hwl := wrapS_length wrap (chars64 inp) 0 hcne
  rw [Nat.zero_div, Nat.zero_add, Nat.add_zero] at hwl
  have hsz : b64EncodeSize inp.length wrap = (chars64 inp).length + ((chars64 inp).length - 1) / wrap + 1 := by
    unfold b64EncodeSize
    rw [if_neg hlen]
    have e : (4 * inp.length / 3 + 3) / 4 * 4 = (chars64 inp).length := by rw [hcl]; omega
    simp only [e]
    generalize hm : (chars64 inp).length = m at *
    have hmpos : 0 < m := by omega
    by_cases hw : wrap = 0
    · subst hw; simp
    · rw [if_pos (by omega)]
      obtain ⟨m', rfl⟩ : ∃ m', m = m' + 1 := ⟨m - 1, by omega⟩
      have hs : (m' + 1) / wrap = m' / wrap + if (m' + 1) % wrap = 0 then 1 else 0 := by
        rw [Nat.succ_div]
        simp only [Nat.dvd_iff_mod_eq_zero]
      rw [hs]
      simp only [Nat.add_sub_cancel]
      by_cases hz : (m' + 1) % wrap = 0
      · simp [hz]
      · simp [hz]
  have hcap' : (wrapS wrap 0 (chars64 inp)).length + 1 ≤ cap := by omega
  refine ⟨?_, by omega⟩
  unfold b64Encode
  rw [if_neg (by omega), b64EncLoop_eq, b64Adder_run cap wrap _ [] 0 hcne]
  · simp only [bind, Option.bind_some, List.nil_append, Nat.zero_add]
    have hlast : (wrapS wrap 0 (chars64 inp)).getLast? ≠ some 10 := by
      rw [wrapS_getLast]
      intro h
      have := chars64_nonsp inp 10 (List.mem_of_getLast? h)
      exact absurd this (by decide)
    have hout : (if (wrapS wrap 0 (chars64 inp) ++ if wrap > 0 ∧ (chars64 inp).length % wrap = 0 then [10] else []).getLast? = some 10
        then (wrapS wrap 0 (chars64 inp) ++ if wrap > 0 ∧ (chars64 inp).length % wrap = 0 then [10] else []).dropLast
        else (wrapS wrap 0 (chars64 inp) ++ if wrap > 0 ∧ (chars64 inp).length % wrap = 0 then [10] else [])) =
        wrapS wrap 0 (chars64 inp) := by
      by_cases h : wrap > 0 ∧ (chars64 inp).length % wrap = 0
      · rw [if_pos h]; simp
      · rw [if_neg h, List.append_nil, if_neg hlast]
    rw [hout, put_ok (by omega)]
    rfl
  · simp only [List.length_nil, Nat.zero_add]
    split <;> omega

/-! ### Decoding -/

theorem left_suffix (inp : List UInt8) (inlen : Nat) {i j : Nat} (h : i ≤ j) : left inp inlen j <:+ left inp inlen i := by
  unfold left
  have : (inp.take inlen).drop j = ((inp.take inlen).drop i).drop (j - i) := by rw [List.drop_drop]; congr 1; omega
  rw [this]
  exact (List.drop_suffix _ _).filter _

theorem left_nil (inp : List UInt8) {inlen i : Nat} (h : inlen ≤ i) : left inp inlen i = [] := by
  unfold left; rw [List.drop_eq_nil_of_le (by simp; omega)]; rfl

theorem b64Get_char {inp : List UInt8} {inlen idx k : Nat} {rest} (hin : inlen ≤ inp.length) (hk : k < 64)
    (hl : left inp inlen idx = encChar k :: rest) :
    ∃ j, b64GetDecchar inp inlen idx = some (some (k, j)) ∧ idx < j ∧ j ≤ inlen ∧ left inp inlen j = rest := by
  obtain ⟨h1, h2, h3, h4, h5, h6⟩ := encChar_ok' hk
  rcases skipWs_cases hin (inlen - idx) idx rfl with ⟨k1, _⟩ | ⟨c, j, k1, k2, k3, k4, k5, k6⟩
  · rw [k1] at hl; cases hl
  · rw [hl] at k6
    simp only [List.cons.injEq] at k6
    obtain ⟨rfl, k6⟩ := k6
    refine ⟨j + 1, ?_, by omega, by omega, k6.symm⟩
    unfold b64GetDecchar
    rw [if_neg (by omega), k1]
    simp only [bind, Option.bind_some]
    rw [if_neg (by omega), k4]
    simp only [Option.bind_some]
    rw [if_neg (by simp [h2]), if_neg h3, if_neg (by simp only [not_or]; exact ⟨h4, h5⟩), h6]
    simp only [Option.bind_some]
    rw [if_neg (by omega)]
    simp

theorem b64Get_pad {inp : List UInt8} {inlen idx : Nat} {rest} (hin : inlen ≤ inp.length) (hsz : inp.length < 2 ^ 64)
    (h2 : 2 ≤ inlen) (hl : left inp inlen idx = 61 :: rest)
    (hpos : ∀ j, j < inlen → left inp inlen (j + 1) = rest → inp[j]? = some 61 → inlen - 2 ≤ j) :
    ∃ j, b64GetDecchar inp inlen idx = some (some (0, j)) ∧ idx < j ∧ j ≤ inlen ∧ left inp inlen j = rest := by
  rcases skipWs_cases hin (inlen - idx) idx rfl with ⟨k1, _⟩ | ⟨c, j, k1, k2, k3, k4, k5, k6⟩
  · rw [k1] at hl; cases hl
  · rw [hl] at k6
    simp only [List.cons.injEq] at k6
    obtain ⟨rfl, k6⟩ := k6
    refine ⟨j + 1, ?_, by omega, by omega, k6.symm⟩
    have := hpos j k3 k6.symm k4
    have e : (inlen + 2 ^ 64 - 2) % 2 ^ 64 = inlen - 2 := by omega
    have hv : b64Valid 61 = true := by decide
    have hj : ¬ j < inlen - 2 := by omega
    unfold b64GetDecchar
    rw [if_neg (by omega), k1, e]
    simp only [bind, Option.bind_some]
    rw [if_neg (by omega), k4]
    simp only [Option.bind_some, hv, hj, if_false, if_true]
    simp

theorem or4 {a b c d : Nat} (ha : a < 64) (hb : b < 64) (hc : c < 64) (hd : d < 64) :
    a <<< 18 ||| b <<< 12 ||| c <<< 6 ||| d = a * 262144 + b * 4096 + c * 64 + d := by
  have e1 : a <<< 18 ||| b <<< 12 = 2 ^ 18 * a + b * 2 ^ 12 := by
    rw [Nat.shiftLeft_eq, Nat.shiftLeft_eq, Nat.mul_comm, Nat.two_pow_add_eq_or_of_lt (by omega)]
  rw [e1, show 2 ^ 18 * a + b * 2 ^ 12 = 2 ^ 12 * (2 ^ 6 * a + b) by omega, Nat.shiftLeft_eq c,
    ← Nat.two_pow_add_eq_or_of_lt (by omega),
    show 2 ^ 12 * (2 ^ 6 * a + b) + c * 2 ^ 6 = 2 ^ 6 * (2 ^ 6 * (2 ^ 6 * a + b) + c) by omega,
    ← Nat.two_pow_add_eq_or_of_lt (by omega)]
  omega

theorem byteAt (n k : Nat) : n >>> k &&& 0xFF = n / 2 ^ k % 256 := by
  rw [Nat.shiftRight_eq_div_pow, show 0xFF = 2 ^ 8 - 1 by rfl, Nat.and_two_pow_sub_one_eq_mod]

theorem byteAt0 (n : Nat) : n &&& 0xFF = n % 256 := by
  rw [show 0xFF = 2 ^ 8 - 1 by rfl, Nat.and_two_pow_sub_one_eq_mod]

theorem ofNat_eq {n : Nat} {a : UInt8} (h : n = a.toNat) : UInt8.ofNat n = a := by rw [h, UInt8.ofNat_toNat]

/-- What holds at the end of the trimmed input. -/
structure End (inp : List UInt8) (inlen : Nat) (last : UInt8) : Prop where
  in_range : inlen ≤ inp.length
  pos : 0 < inlen
  get : inp[inlen - 1]? = some last
  nonsp : isSpace last = false

theorem End.left {inp : List UInt8} {inlen : Nat} {last} (e : End inp inlen last) : Bincodec.left inp inlen (inlen - 1) = [last] := by
  have h := e.pos
  rw [left_step (by omega) e.get, e.nonsp, left_nil inp (by omega)]
  rfl

theorem End.ne {inp : List UInt8} {inlen : Nat} {last} (e : End inp inlen last) {i : Nat} (h : i < inlen) :
    Bincodec.left inp inlen i ≠ [] := by
  intro hn
  have := left_suffix inp inlen (i := i) (j := inlen - 1) (by omega)
  rw [e.left, hn] at this
  simpa using this

theorem End.getLast {inp : List UInt8} {inlen : Nat} {last} (e : End inp inlen last) {i : Nat} (h : i < inlen) :
    (Bincodec.left inp inlen i).getLast? = some last := by
  obtain ⟨t, ht⟩ := left_suffix inp inlen (i := i) (j := inlen - 1) (by omega)
  rw [e.left] at ht
  rw [← ht]
  simp

/-- Enough characters left means enough room. -/
theorem left_room (inp : List UInt8) (inlen i : Nat) : (left inp inlen i).length ≤ inlen - i := by
  unfold left
  refine Nat.le_trans (List.length_filter_le _ _) ?_
  simp; omega

theorem b64DecLoop_eq {inp : List UInt8} {inlen cap : Nat} {last} (e : End inp inlen last) (hsz : inp.length < 2 ^ 64)
    (x : List UInt8) : ∀ (fuel i : Nat) (out : List UInt8), left inp inlen i = chars64 x →
    (x.length % 3 = 1 → inp[inlen - 2]? = some 61) → out.length + x.length ≤ cap → inlen - i < fuel → i ≤ inlen →
    b64DecLoop cap inp inlen fuel i out = some (out ++ x) := by
  have hin := e.in_range
  -- end of the input is reached exactly when nothing is left
  have hend : ∀ j, j ≤ inlen → left inp inlen j = [] → j = inlen := by
    intro j h1 h2
    apply Classical.byContradiction
    intro h3
    exact e.ne (by omega) h2
  induction x using chars64.induct with
  | case1 a b c rest ih =>
    intro fuel i out hl hp hcap hf hi
    have h1 := a.toNat_lt
    have h2 := b.toNat_lt
    have h3 := c.toNat_lt
    cases fuel with
    | zero => omega
    | succ fuel =>
    have hroom := left_room inp inlen i
    rw [hl] at hroom
    have hl' := hl
    simp only [chars64, List.cons_append, List.nil_append] at hl hroom
    simp only [List.length_cons] at hroom
    obtain ⟨j1, g1, i1, i1', l1⟩ := b64Get_char hin (by omega) hl
    obtain ⟨j2, g2, i2, i2', l2⟩ := b64Get_char hin (by omega) l1
    obtain ⟨j3, g3, i3, i3', l3⟩ := b64Get_char hin (by omega) l2
    obtain ⟨j4, g4, i4, i4', l4⟩ := b64Get_char hin (by omega) l3
    unfold b64DecLoop
    rw [if_pos (by omega)]
    simp only [g1, g2, g3, g4, Option.bind_some]
    simp only [List.length_cons] at hcap
    rw [or4 (by omega) (by omega) (by omega) (by omega)]
    simp only [byteAt, byteAt0]
    rw [if_neg (by omega)]
    -- neither of the last two characters of the input is a pad when this is the last group
    have hw : ∀ p, i ≤ p → p < inlen → rest = [] → inp[p]? ≠ some 61 := by
      intro p hp1 hp2 hr h61
      subst hr
      have hs := left_suffix inp inlen hp1
      rw [left_step hp2 h61, if_neg (by decide)] at hs
      have hm := hs.subset (List.mem_cons_self ..)
      rw [hl] at hm
      simp only [chars64, List.mem_cons, List.not_mem_nil, or_false] at hm
      rcases hm with hm | hm | hm | hm <;> exact (encChar_ok' (by omega)).2.2.1 hm.symm
    have hflag : ∀ q, q < inlen → i ≤ q →
        (if j4 ≠ inlen then some true else inp[q]?.map fun x => x != 61) = some true := by
      intro q hq1 hq2
      split
      · rfl
      next h =>
        have hr : rest = [] := by
          have : left inp inlen j4 = [] := by rw [show j4 = inlen by omega]; exact left_nil inp (Nat.le_refl _)
          rw [l4] at this
          have := congrArg List.length this
          rw [chars64_length] at this
          simp at this
          apply List.length_eq_zero_iff.1; omega
        have hne := hw q hq2 hq1 hr
        have hq3 : q < inp.length := by omega
        rw [List.getElem?_eq_getElem hq3] at hne ⊢
        simp at hne ⊢
        exact hne
    rw [hflag (inlen - 2) (by omega) (by omega), hflag (inlen - 1) (by omega) (by omega)]
    simp only [Option.bind_some, List.length_append, List.length_singleton, if_true, true_and]
    rw [if_neg (by omega), if_neg (by omega),
      ih fuel j4 _ l4 (fun h => hp (by simp only [List.length_cons]; omega)) (by simp; omega) (by omega) (by omega)]
    congr 1
    simp only [List.append_assoc, List.cons_append, List.nil_append, List.append_cancel_left_eq, List.cons.injEq, and_true]
    refine ⟨ofNat_eq ?_, ofNat_eq ?_, ofNat_eq ?_⟩ <;> omega
  | case2 a b =>
    intro fuel i out hl hp hcap hf hi
    have h1 := a.toNat_lt
    have h2 := b.toNat_lt
    cases fuel with
    | zero => omega
    | succ fuel =>
    have hroom := left_room inp inlen i
    rw [hl] at hroom
    simp only [chars64] at hl hroom
    simp only [List.length_cons] at hroom
    obtain ⟨j1, g1, i1, i1', l1⟩ := b64Get_char hin (by omega) hl
    obtain ⟨j2, g2, i2, i2', l2⟩ := b64Get_char hin (by omega) l1
    obtain ⟨j3, g3, i3, i3', l3⟩ := b64Get_char hin (by omega) l2
    obtain ⟨j4, g4, i4, i4', l4⟩ := b64Get_pad hin hsz (by omega) l3 (by
      intro j hj hj1 hj2
      have := hend (j + 1) (by omega) hj1
      omega)
    have hj4 := hend j4 i4' l4
    subst hj4
    unfold b64DecLoop
    rw [if_pos (by omega)]
    simp only [g1, g2, g3, g4, Option.bind_some]
    simp only [List.length_cons] at hcap
    rw [or4 (by omega) (by omega) (by omega) (by omega)]
    simp only [byteAt, byteAt0]
    rw [if_neg (by omega)]
    have hlast : last = 61 := by
      have := e.getLast (i := i) (by omega)
      rw [hl] at this
      simpa using this.symm
    have h61 : inp[j4 - 1]? = some 61 := by rw [e.get, hlast]
    have hnot : inp[j4 - 2]? ≠ some 61 := by
      intro h
      have hs := left_suffix inp j4 (i := i) (j := j4 - 2) (by omega)
      rw [left_step (by omega) h, if_neg (by decide), show j4 - 2 + 1 = j4 - 1 by omega, e.left, hlast, hl] at hs
      obtain ⟨t, ht⟩ := hs
      have hlen := congrArg List.length ht
      simp at hlen
      obtain ⟨t1, t2, rfl⟩ : ∃ t1 t2, t = [t1, t2] := by
        match t, hlen with
        | [t1, t2], _ => exact ⟨t1, t2, rfl⟩
      simp at ht
      exact (encChar_ok' (by omega)).2.2.1 ht.2.2.symm
    have hflag : (if j4 ≠ j4 then some true else inp[j4 - 2]?.map fun x => x != 61) = some true := by
      rw [if_neg (by simp)]
      have hq3 : j4 - 2 < inp.length := by omega
      rw [List.getElem?_eq_getElem hq3] at hnot ⊢
      simp at hnot ⊢
      exact hnot
    have hflag2 : (if j4 ≠ j4 then some true else inp[j4 - 1]?.map fun x => x != 61) = some false := by
      rw [if_neg (by simp), h61]
      rfl
    rw [hflag, hflag2]
    simp only [Option.bind_some, List.length_append, List.length_singleton, if_true, true_and]
    rw [if_neg (by omega), if_neg (by simp)]
    cases fuel with
    | zero => omega
    | succ fuel =>
    unfold b64DecLoop
    rw [if_neg (by omega)]
    simp only [if_neg Bool.false_ne_true]
    simp only [List.append_assoc, List.cons_append, List.nil_append, Option.some.injEq, List.append_cancel_left_eq, List.cons.injEq, and_true]
    refine ⟨ofNat_eq ?_, ofNat_eq ?_⟩ <;> omega
  | case3 a =>
    intro fuel i out hl hp hcap hf hi
    have h1 := a.toNat_lt
    cases fuel with
    | zero => omega
    | succ fuel =>
    have hroom := left_room inp inlen i
    rw [hl] at hroom
    simp only [chars64] at hl hroom
    simp only [List.length_cons] at hroom
    have hp := hp rfl
    have hlast : last = 61 := by
      have := e.getLast (i := i) (by omega)
      rw [hl] at this
      simpa using this.symm
    have h61 : inp[inlen - 1]? = some 61 := by rw [e.get, hlast]
    obtain ⟨j1, g1, i1, i1', l1⟩ := b64Get_char hin (by omega) hl
    obtain ⟨j2, g2, i2, i2', l2⟩ := b64Get_char hin (by omega) l1
    obtain ⟨j3, g3, i3, i3', l3⟩ := b64Get_pad hin hsz (by omega) l2 (by
      intro j hj hj1 hj2
      apply Classical.byContradiction
      intro hlt
      have hs := left_suffix inp inlen (i := j + 1) (j := inlen - 2) (by omega)
      rw [left_step (by omega) hp, if_neg (by decide), show inlen - 2 + 1 = inlen - 1 by omega, e.left, hj1] at hs
      have := hs.length_le
      simp at this)
    obtain ⟨j4, g4, i4, i4', l4⟩ := b64Get_pad hin hsz (by omega) l3 (by
      intro j hj hj1 hj2
      have := hend (j + 1) (by omega) hj1
      omega)
    have hj4 := hend j4 i4' l4
    subst hj4
    unfold b64DecLoop
    rw [if_pos (by omega)]
    simp only [g1, g2, g3, g4, Option.bind_some]
    simp only [List.length_cons] at hcap
    rw [or4 (by omega) (by omega) (by omega) (by omega)]
    simp only [byteAt, byteAt0]
    rw [if_neg (by omega)]
    have hflag : (if j4 ≠ j4 then some true else inp[j4 - 2]?.map fun x => x != 61) = some false := by
      rw [if_neg (by simp), hp]; rfl
    have hflag2 : (if j4 ≠ j4 then some true else inp[j4 - 1]?.map fun x => x != 61) = some false := by
      rw [if_neg (by simp), h61]
      rfl
    rw [hflag, hflag2]
    simp only [Option.bind_some, Bool.false_eq_true, false_and, if_false]
    cases fuel with
    | zero => omega
    | succ fuel =>
    unfold b64DecLoop
    rw [if_neg (by omega)]
    simp only [Option.some.injEq, List.append_cancel_left_eq, List.cons.injEq, and_true]
    exact ofNat_eq (by omega)
  | case4 =>
    intro fuel i out hl hp hcap hf hi
    have := hend i hi hl
    cases fuel with
    | zero => omega
    | succ fuel =>
    unfold b64DecLoop
    rw [if_neg (by omega), List.append_nil]

theorem b64Trim_spec (inp : List UInt8) (n : Nat) (hn : n ≤ inp.length) :
    (left inp n 0 = [] ∧ b64Trim inp n = none) ∨
    ∃ m last, b64Trim inp n = some m ∧ m ≤ n ∧ End inp m last ∧ left inp m 0 = left inp n 0 := by
  induction n with
  | zero => left; exact ⟨by simp [left], rfl⟩
  | succ n ih =>
    have hget : inp[n]? = some inp[n] := List.getElem?_eq_getElem (by omega)
    have hl : left inp (n + 1) 0 = left inp n 0 ++ (if isSpace inp[n] then [] else [inp[n]]) := by
      simp only [left, List.drop_zero]
      rw [List.take_succ_eq_append_getElem (by omega), List.filter_append]
      cases h : isSpace inp[n] <;> simp [h]
    cases hs : isSpace inp[n] with
    | true =>
      have hk : b64Trim inp (n + 1) = b64Trim inp n := by rw [b64Trim, hget]; simp only [hs]; rfl
      rw [hs] at hl
      simp only [if_true, List.append_nil] at hl
      rw [hk, hl]
      rcases ih (by omega) with h | ⟨m, last, h1, h2, h3, h4⟩
      · exact Or.inl h
      · exact Or.inr ⟨m, last, h1, by omega, h3, h4⟩
    | false =>
      right
      refine ⟨n + 1, inp[n], ?_, Nat.le_refl _, ⟨hn, by omega, hget, hs⟩, rfl⟩
      rw [b64Trim, hget]; simp only [hs]; rfl

end Verif.Bincodec
