import Verif.Bits.Lemmas
namespace Verif.Bits

/-- The parser reads the bits `src`. -/
structure PRep (p : BP) (src : List Bool) : Prop where
  len : p.nbits = src.length
  mem : (bits p.mem).take p.nbits = src
  room : p.nbits ≤ 8 * p.mem.length
  pos : p.offset ≤ p.nbits

/-- There is a readable byte after the last one; always so for an owning parser. -/
def Slack (p : BP) : Prop := p.nbits + 8 ≤ 8 * p.mem.length

theorem PRep.adv {p : BP} {src : List Bool} (h : PRep p src) {n : Nat} (hn : p.offset + n ≤ src.length) :
    PRep { p with offset := p.offset + n } src := ⟨h.len, h.mem, h.room, by have := h.len; simp only; omega⟩

theorem len_eq {p : BP} {src : List Bool} (h : PRep p src) : len p = (src.drop p.offset).length := by
  have := h.len
  unfold len
  rw [List.length_drop]
  split <;> omega

theorem peekNextBit_eq {p : BP} {src : List Bool} (h : PRep p src) (ho : p.offset < src.length) :
    peekNextBit p = some src[p.offset] := by
  have hl := h.len
  have hr := h.room
  have hk : p.offset / 8 < p.mem.length := by omega
  unfold peekNextBit
  rw [List.getElem?_eq_getElem hk]
  simp only
  have h1 := bits_get p.mem (p.offset / 8) (p.offset % 8) (by omega)
  rw [List.getElem?_eq_getElem hk, Option.bind_some, byte_test ⟨p.offset % 8, by omega⟩, show 8 * (p.offset / 8) + p.offset % 8 = p.offset by omega] at h1
  rw [← h1, ← List.getElem?_eq_getElem ho]
  conv => rhs; rw [← h.mem]
  rw [List.getElem?_take_of_lt (by omega)]

theorem peekBit_eq {p : BP} {src : List Bool} (h : PRep p src) : peekBit p = some (src.drop p.offset).head? := by
  have hl := h.len
  have hp := h.pos
  unfold peekBit
  split
  · rw [List.drop_eq_nil_of_le (by omega)]; rfl
  · rw [peekNextBit_eq h (by omega), List.drop_eq_getElem_cons (by omega)]; rfl

theorem readLoop_eq {p : BP} {src : List Bool} (h : PRep p src) (n : Nat) (hn : p.offset + n ≤ src.length) :
    readLoop p n = some ((src.drop p.offset).take n, { p with offset := p.offset + n }) := by
  induction n generalizing p with
  | zero => simp [readLoop]
  | succ n ih =>
    rw [readLoop, peekNextBit_eq h (by omega), Option.bind_some, ih (h.adv (n := 1) (by omega)) (by simp only; omega)]
    simp only [Option.map_some, Nat.add_assoc, Nat.add_comm 1 n]
    congr 2
    rw [List.drop_eq_getElem_cons (show p.offset < src.length by omega), List.take_succ_cons]

theorem zip_false (a b : List Bool) : List.zipWith (· || ·) (a ++ List.replicate b.length false) (List.replicate a.length false ++ b) = a ++ b := by
  rw [List.zipWith_append (by simp)]
  congr 1
  · induction a with
    | nil => rfl
    | cons x a ih => simp [List.replicate_succ, ih]
  · induction b with
    | nil => rfl
    | cons x b ih => simp [List.replicate_succ, ih]

theorem shift_byte (k : Nat) (hk : k < 8) (a b : UInt8) :
    byteBits (UInt8.ofNat ((a.toNat <<< k) ||| (b.toNat >>> (8 - k)))) = (byteBits a).drop k ++ (byteBits b).take k := by
  rw [ofNat_or, byteBits_or, byte_shl ⟨k, hk⟩, byte_shr ⟨k, hk⟩]
  have := zip_false ((byteBits a).drop k) ((byteBits b).take k)
  rw [List.length_drop, List.length_take, byteBits_length, byteBits_length, Nat.min_eq_left (by omega)] at this
  exact this

theorem shiftBytes_eq (k : Nat) (hk : k < 8) (src : List UInt8) (n : Nat) (h : n + 1 ≤ src.length) :
    ∃ d, shiftBytes k src n = some d ∧ d.length = n ∧ bits d = ((bits src).drop k).take (8 * n) := by
  induction n generalizing src with
  | zero => exact ⟨[], by cases src <;> simp [shiftBytes], rfl, by simp [bits]⟩
  | succ n ih =>
    match src, h with
    | a :: b :: rest, h =>
      obtain ⟨d, e1, e2, e3⟩ := ih (b :: rest) (by simpa using h)
      refine ⟨_, by rw [shiftBytes, e1]; rfl, by simp [e2], ?_⟩
      rw [bits_cons, shift_byte k hk, e3, bits_cons a, bits_cons b]
      rw [List.drop_append_of_le_length (l₁ := byteBits a) (by rw [byteBits_length]; omega)]
      rw [show 8 * (n + 1) = (8 - k) + (k + 8 * n) by omega, List.take_append, List.length_drop, byteBits_length]
      rw [List.take_of_length_le (l := List.drop k (byteBits a)) (by rw [List.length_drop, byteBits_length]; omega),
        show 8 - k + (k + 8 * n) - (8 - k) = k + 8 * n by omega, List.append_assoc]
      congr 1
      rw [List.take_add, List.take_append_of_le_length (by rw [byteBits_length]; omega)]
    | [a], h => simp at h
    | [], h => simp at h

theorem peekNextBytes_eq {p : BP} {src : List Bool} (h : PRep p src) (destlen n : Nat) (strict : Bool) (h0 : 0 < n)
    (hn : p.offset + n ≤ src.length) (hw : p.offset + n + 7 < w64) (hd : (n + 7) / 8 ≤ destlen) (hs : Slack p ∨ p.offset % 8 = 0) :
    ∃ d, peekNextBytes p destlen n strict = some d ∧ d.length = (n + 7) / 8 ∧ (bits d).take n = (src.drop p.offset).take n ∧
      (strict = true → bits d = (src.drop p.offset).take n ++ padTo n) := by
  have hl := h.len
  have hr := h.room
  unfold peekNextBytes
  rw [if_neg (by omega), Nat.mod_eq_of_lt (show p.offset + n < w64 by omega), if_neg (by omega), Nat.mod_eq_of_lt (show n + 7 < w64 by omega)]
  simp only
  rw [if_neg (by omega)]
  have base : ∃ d, (if p.offset % 8 = 0 then (if (p.mem.drop (p.offset / 8)).length < (n + 7) / 8 then none
        else some ((p.mem.drop (p.offset / 8)).take ((n + 7) / 8)))
      else shiftBytes (p.offset % 8) (p.mem.drop (p.offset / 8)) ((n + 7) / 8)) = some d ∧ d.length = (n + 7) / 8 ∧
      bits d = ((bits p.mem).drop p.offset).take (8 * ((n + 7) / 8)) := by
    by_cases h8 : p.offset % 8 = 0
    · rw [if_pos h8, if_neg (by rw [List.length_drop]; omega)]
      refine ⟨_, rfl, by rw [List.length_take, List.length_drop]; omega, ?_⟩
      rw [bits_take, bits_drop, show 8 * (p.offset / 8) = p.offset by omega]
    · rw [if_neg h8]
      obtain ⟨d, e1, e2, e3⟩ := shiftBytes_eq (p.offset % 8) (by omega) (p.mem.drop (p.offset / 8)) ((n + 7) / 8)
        (by rw [List.length_drop]; rcases hs with hs | hs
            · unfold Slack at hs; omega
            · omega)
      refine ⟨d, e1, e2, ?_⟩
      rw [e3, bits_drop, List.drop_drop, show 8 * (p.offset / 8) + p.offset % 8 = p.offset by omega]
  obtain ⟨d, e1, e2, e3⟩ := base
  rw [e1, Option.bind_some]
  have ht : (bits d).take n = (src.drop p.offset).take n := by
    rw [e3, List.take_take, Nat.min_eq_left (by omega), ← h.mem, List.drop_take, List.take_take, Nat.min_eq_left (by omega)]
  have hbl := bits_length d
  cases strict with
  | false => exact ⟨d, rfl, e2, ht, by simp⟩
  | true =>
    simp only [if_true]
    by_cases hp : n % 8 > 0
    · rw [if_pos hp]
      have hi : (n + 7) / 8 - 1 < d.length := by omega
      rw [List.getElem?_eq_getElem hi]
      have key : bits (d.set ((n + 7) / 8 - 1) (d[(n + 7) / 8 - 1] &&& ~~~UInt8.ofNat (1 <<< (8 - n % 8) - 1))) =
          (src.drop p.offset).take n ++ padTo n := by
        rw [List.set_eq_take_append_cons_drop, if_pos hi, List.drop_eq_nil_of_le (by omega), bits_append, bits_cons, bits_nil, List.append_nil,
          byte_mask' ⟨n % 8, by omega⟩ _ hp, bits_take, ← List.append_assoc, ← ht]
        congr 1
        · conv => rhs; rw [show n = 8 * ((n + 7) / 8 - 1) + n % 8 by omega, List.take_add]
          congr 1
          rw [← bits_drop, List.drop_eq_getElem_cons hi, bits_cons, List.take_append_of_le_length (by rw [byteBits_length]; omega)]
        · unfold padTo
          congr 1
          simp only
          omega
      refine ⟨_, rfl, by simp [e2], ?_, fun _ => key⟩
      rw [key, List.take_append_of_le_length (by simp; omega), List.take_take, Nat.min_self]
    · rw [if_neg hp]
      refine ⟨d, rfl, e2, ht, fun _ => ?_⟩
      rw [← ht, List.take_of_length_le (by omega)]
      unfold padTo
      rw [show (8 - n % 8) % 8 = 0 by omega]
      simp

/-! ### Numbers -/

theorem natOf_go (l : List Bool) (a : Nat) : l.foldl (fun n b => 2 * n + b.toNat) a = a * 2 ^ l.length + natOf l := by
  unfold natOf
  induction l generalizing a with
  | nil => simp
  | cons b l ih =>
    rw [List.foldl_cons, List.foldl_cons, ih, ih (2 * 0 + b.toNat), List.length_cons, Nat.pow_succ]
    grind

theorem natOf_append (a b : List Bool) : natOf (a ++ b) = natOf a * 2 ^ b.length + natOf b := by
  rw [natOf, List.foldl_append, natOf_go]; rfl

theorem natOf_cons (b : Bool) (l : List Bool) : natOf (b :: l) = b.toNat * 2 ^ l.length + natOf l := by
  rw [natOf, List.foldl_cons, natOf_go]; simp

theorem natOf_lt (l : List Bool) : natOf l < 2 ^ l.length := by
  induction l with
  | nil => simp [natOf]
  | cons b l ih =>
    rw [natOf_cons, List.length_cons, Nat.pow_succ]
    cases b <;> simp <;> omega

theorem fold_eq (d : List UInt8) (r : Nat) (h : (r + 1) * 2 ^ (8 * d.length) ≤ w64) :
    d.foldl (fun r a => (r <<< 8) % w64 ||| a.toNat) r = r * 2 ^ (8 * d.length) + natOf (bits d) := by
  induction d generalizing r with
  | nil => simp [bits, natOf]
  | cons a d ih =>
    have ha := a.toNat_lt
    rw [List.length_cons, show 8 * (d.length + 1) = 8 + 8 * d.length by omega, Nat.pow_add] at h
    have hp : 0 < 2 ^ (8 * d.length) := Nat.pow_pos (by omega)
    have hr : (r + 1) * 2 ^ 8 ≤ w64 := by
      calc (r + 1) * 2 ^ 8 = (r + 1) * 2 ^ 8 * 1 := by omega
        _ ≤ (r + 1) * 2 ^ 8 * 2 ^ (8 * d.length) := Nat.mul_le_mul_left _ hp
        _ ≤ w64 := by rw [Nat.mul_assoc]; exact h
    have e : (r <<< 8) % w64 ||| a.toNat = r * 256 + a.toNat := by
      rw [Nat.mod_eq_of_lt (by rw [Nat.shiftLeft_eq]; omega), ← Nat.shiftLeft_add_eq_or_of_lt (by omega), Nat.shiftLeft_eq]
    rw [List.foldl_cons, e, ih]
    · rw [bits_cons, natOf_append, byte_natOf, bits_length, List.length_cons, show 8 * (d.length + 1) = 8 + 8 * d.length by omega, Nat.pow_add]
      grind
    · refine Nat.le_trans (Nat.mul_le_mul_right _ (show r * 256 + a.toNat + 1 ≤ (r + 1) * 2 ^ 8 by omega)) ?_
      rw [Nat.mul_assoc]; exact h

theorem readUint_eq {p : BP} {src : List Bool} (h : PRep p src) (n : Nat) (h0 : 0 < n) (h64 : n ≤ 64) (hw : src.length + 7 < w64)
    (hs : Slack p ∨ p.offset % 8 = 0) (hn : p.offset + n ≤ src.length) :
    readUint p n = some (some (natOf ((src.drop p.offset).take n)), { p with offset := p.offset + n }) := by
  obtain ⟨d, e1, e2, e3, _⟩ := peekNextBytes_eq h 8 n false h0 hn (by omega) (by omega) hs
  unfold readUint
  rw [if_neg (by omega), if_neg (by rw [len_eq h, List.length_drop]; omega), e1]
  match d, e2 with
  | [], e2 => simp at e2; omega
  | x :: xs, e2 =>
    simp only [Option.map_some]
    rw [fold_eq _ _ ?_]
    · rw [Nat.zero_mul, Nat.zero_add]
      have hb : bits (x :: xs) = (src.drop p.offset).take n ++ (bits (x :: xs)).drop n := by
        rw [← e3, List.take_append_drop]
      have hdl : ((bits (x :: xs)).drop n).length = 8 * ((n + 7) / 8) - n := by
        rw [List.length_drop, bits_length, e2]
      have hv : natOf (bits (x :: xs)) = natOf ((src.drop p.offset).take n) * 2 ^ (8 * ((n + 7) / 8) - n) + natOf ((bits (x :: xs)).drop n) := by
        conv => lhs; rw [hb]
        rw [natOf_append, hdl]
      have hlt := natOf_lt ((bits (x :: xs)).drop n)
      rw [hdl] at hlt
      congr 3
      split
      · rw [Nat.shiftRight_eq_div_pow, hv, show 8 * ((n + 7) / 8) - n = 8 - n % 8 by omega] at *
        rw [Nat.mul_comm, Nat.mul_add_div (Nat.pow_pos (by omega)), Nat.div_eq_of_lt hlt, Nat.add_zero]
      · rw [show 8 * ((n + 7) / 8) - n = 0 by omega] at hv hlt
        omega
    · rw [e2, Nat.zero_add, Nat.one_mul]
      exact Nat.le_trans (Nat.pow_le_pow_right (by omega) (show 8 * ((n + 7) / 8) ≤ 64 by omega)) (by decide)

theorem readUint_short {p : BP} {src : List Bool} (h : PRep p src) (n : Nat) (h0 : 0 < n) (hn : src.length < p.offset + n) :
    readUint p n = some (none, p) := by
  unfold readUint
  rw [if_neg (by omega), if_pos]
  right
  rw [len_eq h, List.length_drop]
  have := h.pos
  have := h.len
  omega

/-! ### Runs -/

theorem rangeLoop_eq {p : BP} {src : List Bool} (h : PRep p src) (bit : Bool) (max : Nat) :
    ∀ fuel (n : Nat), src.length - p.offset < fuel → n ≤ max →
      rangeLoop bit max fuel p n = some (min max (n + ((src.drop p.offset).takeWhile (· == bit)).length),
        { p with offset := p.offset + (min max (n + ((src.drop p.offset).takeWhile (· == bit)).length) - n) }) := by
  intro fuel
  induction fuel generalizing p with
  | zero => intro n hf; omega
  | succ fuel ih =>
    intro n hf hn
    have hl := h.len
    have hp := h.pos
    unfold rangeLoop
    by_cases hm : n < max
    · rw [if_pos hm, peekBit_eq h]
      by_cases ho : p.offset < src.length
      · rw [List.drop_eq_getElem_cons ho]
        simp only [List.head?_cons, Option.bind_some]
        by_cases hb : src[p.offset] = bit
        · rw [if_pos hb, ih (h.adv (n := 1) (by omega)) (n + 1) (by simp only; omega) (by omega)]
          rw [List.takeWhile_cons_of_pos (by simpa using hb), List.length_cons]
          simp only
          congr 3 <;> omega
        · rw [if_neg hb, List.takeWhile_cons_of_neg (by simpa using hb)]
          simp only [List.length_nil]
          rw [show min max (n + 0) = n by omega, Nat.sub_self, Nat.add_zero]
      · rw [List.drop_eq_nil_of_le (by omega)]
        simp only [List.head?_nil, Option.bind_some, List.takeWhile_nil, List.length_nil]
        rw [show min max (n + 0) = n by omega, Nat.sub_self, Nat.add_zero]
    · rw [if_neg hm, show min max (n + ((src.drop p.offset).takeWhile (· == bit)).length) = n by omega, Nat.sub_self, Nat.add_zero]

theorem readRange_eq {p : BP} {src : List Bool} (h : PRep p src) {b : Bool} {t : List Bool} (hd : src.drop p.offset = b :: t) (max : Nat)
    (hm : 0 < max) :
    readRange p max = some (some (b, min max (1 + (t.takeWhile (· == b)).length)),
      { p with offset := p.offset + min max (1 + (t.takeWhile (· == b)).length) }) := by
  have ho : p.offset < src.length := by
    apply Classical.byContradiction
    intro hn
    rw [List.drop_eq_nil_of_le (by omega)] at hd
    cases hd
  have ht : src.drop (p.offset + 1) = t := by
    rw [List.drop_eq_getElem_cons ho] at hd
    exact (List.cons.inj hd).2
  unfold readRange
  rw [if_neg (by omega), peekBit_eq h, hd]
  simp only [List.head?_cons, Option.bind_some]
  have hl := h.len
  rw [rangeLoop_eq (h.adv (n := 1) (by omega)) b max (p.nbits + 1) 1 (by simp only; omega) (by omega)]
  simp only [ht, Option.map_some]
  congr 3
  omega

end Verif.Bits
