import Verif.Bits.Tables
import Verif.Bits.Model
namespace Verif.Bits

/-- The buffer holds exactly the bits `l`: its bytes are `l` and less than one byte of zeros. -/
def Rep (b : BBuf) (l : List Bool) : Prop := b.nbits = l.length ∧ ∃ z, z < 8 ∧ bits b.bytes = l ++ List.replicate z false

theorem byte_popcount : ∀ x : UInt8, popcount x = ((byteBits x).filter id).length := by
  apply lift8
  decide +kernel


/-! ### Sequences of bytes -/

theorem bits_nil : bits [] = [] := rfl

theorem bits_cons (a : UInt8) (l) : bits (a :: l) = byteBits a ++ bits l := by simp [bits]

theorem bits_append (a b : List UInt8) : bits (a ++ b) = bits a ++ bits b := by simp [bits]

theorem bits_length (l : List UInt8) : (bits l).length = 8 * l.length := by
  induction l with
  | nil => rfl
  | cons a l ih => rw [bits_cons, List.length_append, byteBits_length, ih, List.length_cons]; omega

theorem bits_take (l : List UInt8) (n : Nat) : bits (l.take n) = (bits l).take (8 * n) := by
  induction l generalizing n with
  | nil => simp [bits]
  | cons a l ih =>
    cases n with
    | zero => simp [bits]
    | succ n =>
      rw [List.take_succ_cons, bits_cons, bits_cons, ih, List.take_append, byteBits_length,
        List.take_of_length_le (l := byteBits a) (by rw [byteBits_length]; omega)]
      congr 2

theorem bits_drop (l : List UInt8) (n : Nat) : bits (l.drop n) = (bits l).drop (8 * n) := by
  induction l generalizing n with
  | nil => simp [bits]
  | cons a l ih =>
    cases n with
    | zero => simp
    | succ n =>
      rw [List.drop_succ_cons, bits_cons, ih, List.drop_append, byteBits_length, List.drop_eq_nil_of_le (as := byteBits a) (by rw [byteBits_length]; omega), List.nil_append]
      congr 1

theorem bits_get (l : List UInt8) (k i : Nat) (hi : i < 8) : (bits l)[8 * k + i]? = l[k]?.bind fun b => (byteBits b)[i]? := by
  induction l generalizing k with
  | nil => simp [bits]
  | cons a l ih =>
    rw [bits_cons]
    cases k with
    | zero =>
      rw [List.getElem?_append_left (by rw [byteBits_length]; omega)]
      simp
    | succ k =>
      rw [List.getElem?_append_right (by rw [byteBits_length]; omega), byteBits_length, show 8 * (k + 1) + i - 8 = 8 * k + i by omega, ih]
      simp

theorem bits_set (l : List UInt8) (k i : Nat) (v : Bool) {x y : UInt8} (hi : i < 8) (hk : l[k]? = some x)
    (h : byteBits y = (byteBits x).set i v) : bits (l.set k y) = (bits l).set (8 * k + i) v := by
  induction l generalizing k with
  | nil => simp at hk
  | cons a l ih =>
    cases k with
    | zero =>
      simp only [List.getElem?_cons_zero, Option.some.injEq] at hk
      subst hk
      rw [List.set_cons_zero, bits_cons, bits_cons, h, List.set_append_left _ _ (by rw [byteBits_length]; omega)]
      simp
    | succ k =>
      simp only [List.getElem?_cons_succ] at hk
      rw [List.set_cons_succ, bits_cons, bits_cons, ih k hk, List.set_append_right _ _ (by rw [byteBits_length]; omega), byteBits_length]
      congr 2
      omega

theorem bits_zero : bits [0] = List.replicate 8 false := by decide

/-! ### Appending -/

theorem rep_mod {b : BBuf} {l : List Bool} {z : Nat} (h2 : bits b.bytes = l ++ List.replicate z false) : 8 * b.bytes.length = l.length + z := by
  have := congrArg List.length h2
  rw [bits_length] at this
  simpa using this

theorem addBit_rep {b : BBuf} {l : List Bool} (h : Rep b l) (bit : Bool) : ∃ b', addBit b bit = some b' ∧ Rep b' (l ++ [bit]) := by
  obtain ⟨h1, z, hz, h2⟩ := h
  have hm := rep_mod h2
  -- the bytes with room for one more bit
  have key : ∀ (bytes : List UInt8) (p : Nat), bits bytes = l ++ List.replicate (p + 1) false → p = 7 - b.nbits % 8 →
      ∃ b', (if bit then (orLast bytes p).map fun bytes => (⟨bytes, b.nbits + 1⟩ : BBuf) else some ⟨bytes, b.nbits + 1⟩) = some b' ∧
        Rep b' (l ++ [bit]) := by
    intro bytes p hb hp
    have hlen : 8 * bytes.length = l.length + (p + 1) := by
      have := congrArg List.length hb
      rw [bits_length] at this
      simpa using this
    cases bit with
    | false =>
      refine ⟨_, rfl, by simp [h1], p, by omega, ?_⟩
      rw [hb, List.replicate_succ]; simp
    | true =>
      have hlast : bytes.length - 1 < bytes.length := by omega
      unfold orLast
      rw [List.getElem?_eq_getElem hlast]
      refine ⟨_, rfl, by simp [h1], p, by omega, ?_⟩
      simp only
      rw [bits_set bytes (bytes.length - 1) (7 - p) true (by omega) (List.getElem?_eq_getElem hlast) (byte_or ⟨p, by omega⟩ _), hb,
        show 8 * (bytes.length - 1) + (7 - p) = l.length by omega, List.set_append_right _ _ (Nat.le_refl _), Nat.sub_self, List.replicate_succ]
      simp
  unfold addBit
  simp only
  by_cases hp : 7 - b.nbits % 8 = 7
  · rw [if_pos hp]
    apply key _ _ _ rfl
    rw [bits_append, h2, bits_zero, hp]
    have : z = 0 := by omega
    subst this
    simp
  · rw [if_neg hp]
    apply key _ _ _ rfl
    rw [h2]
    congr 2
    omega

theorem addLoop_rep {b : BBuf} {l : List Bool} (h : Rep b l) (v n : Nat) :
    ∃ b', addLoop b v n = some b' ∧ Rep b' (l ++ (List.range n).map fun i => v.testBit (n - 1 - i)) := by
  induction n generalizing b l with
  | zero => exact ⟨b, rfl, by simpa using h⟩
  | succ n ih =>
    obtain ⟨b1, e1, r1⟩ := addBit_rep h ((v >>> n) &&& 1 ≠ 0)
    obtain ⟨b2, e2, r2⟩ := ih r1
    refine ⟨b2, by rw [addLoop, e1]; exact e2, ?_⟩
    have e : decide ((v >>> n) &&& 1 ≠ 0) = v.testBit n := by
      rw [Nat.testBit, Nat.and_comm]
      cases h : 1 &&& v >>> n <;> simp
    have e2 : (fun i => v.testBit (n + 1 - 1 - i)) ∘ Nat.succ = fun i => v.testBit (n - 1 - i) := by
      funext i
      simp only [Function.comp]
      congr 1; omega
    rw [List.range_succ_eq_map, List.map_cons, List.map_map, e2]
    rw [List.append_assoc, List.singleton_append, e] at r2
    exact r2

theorem fill_rep {b : BBuf} {l : List Bool} (h : Rep b l) (bit : Bool) (n : Nat) :
    ∃ b', fill b bit n = some b' ∧ Rep b' (l ++ List.replicate n bit) := by
  induction n using Nat.strongRecOn generalizing b l with
  | _ n ih =>
    unfold fill
    by_cases h0 : n = 0
    · subst h0
      exact ⟨b, by simp, by simpa using h⟩
    · rw [if_neg h0]
      by_cases h8 : 7 - b.nbits % 8 = 7 ∧ n ≥ 8
      · rw [if_pos h8]
        have hr : Rep ⟨b.bytes ++ [if bit then 255 else 0], b.nbits + 8⟩ (l ++ List.replicate 8 bit) := by
          obtain ⟨h1, z, hz, h2⟩ := h
          have hm := rep_mod h2
          have : z = 0 := by omega
          subst this
          refine ⟨by simp [h1], 0, by omega, ?_⟩
          simp only [bits_append, h2]
          cases bit <;> simp <;> decide
        obtain ⟨b', e, r⟩ := ih (n - 8) (by omega) hr
        refine ⟨b', e, ?_⟩
        rw [List.append_assoc, List.replicate_append_replicate, show 8 + (n - 8) = n by omega] at r
        exact r
      · rw [if_neg h8]
        obtain ⟨b1, e1, r1⟩ := addBit_rep h bit
        obtain ⟨b2, e2, r2⟩ := ih (n - 1) (by omega) r1
        refine ⟨b2, by rw [e1]; exact e2, ?_⟩
        rw [List.append_assoc, ← List.replicate_one, List.replicate_append_replicate, show 1 + (n - 1) = n by omega] at r2
        exact r2

/-- The `n` lowest bits of a number, the most significant first. -/
def lowBits (v n : Nat) : List Bool := (List.range n).map fun i => v.testBit (n - 1 - i)

/-- The padding that completes the last byte. -/
def padTo (n : Nat) : List Bool := List.replicate ((8 - n % 8) % 8) false

theorem padBits_eq (a n : Nat) (pad : Pad) (h : pad ≠ .none) : List.replicate (padBits a n pad) false = padTo (a + n) := by
  unfold padBits padTo
  rw [if_pos h]
  congr 1
  simp only
  split <;> omega

theorem add_rep {b : BBuf} {l : List Bool} (h : Rep b l) (v n : Nat) (pad : Pad) (h1 : 1 ≤ n) (h2 : n ≤ 64) :
    ∃ b', add b v n pad = some b' ∧ Rep b' (match pad with
      | .none => l ++ lowBits v n
      | .before => l ++ padTo (l.length + n) ++ lowBits v n
      | .after => l ++ lowBits v n ++ padTo (l.length + n)) := by
  unfold add
  rw [if_neg (by omega)]
  have hn := h.1
  cases pad with
  | none =>
    simp only [reduceCtorEq, if_false, Option.bind_some]
    obtain ⟨b1, e1, r1⟩ := addLoop_rep h v n
    exact ⟨b1, by rw [e1]; rfl, r1⟩
  | before =>
    simp only [if_true, reduceCtorEq, if_false]
    obtain ⟨b1, e1, r1⟩ := fill_rep h false (padBits b.nbits n .before)
    rw [padBits_eq _ _ _ (by decide), hn] at r1
    obtain ⟨b2, e2, r2⟩ := addLoop_rep r1 v n
    exact ⟨b2, by rw [e1]; simp only [Option.bind_some, e2], r2⟩
  | after =>
    simp only [if_true, reduceCtorEq, if_false, Option.bind_some]
    obtain ⟨b1, e1, r1⟩ := addLoop_rep h v n
    obtain ⟨b2, e2, r2⟩ := fill_rep r1 false (padBits b.nbits n .after)
    rw [padBits_eq _ _ _ (by decide), hn] at r2
    exact ⟨b2, by rw [e1]; simp only [Option.bind_some, e2], r2⟩

theorem lowBits_byte (x : UInt8) : lowBits x.toNat 8 = byteBits x := rfl

theorem addWhole_rep {b : BBuf} {l : List Bool} (h : Rep b l) (src : List UInt8) :
    ∃ b', addWhole b src = some b' ∧ Rep b' (l ++ bits src) := by
  induction src generalizing b l with
  | nil => exact ⟨b, rfl, by simpa [bits] using h⟩
  | cons x xs ih =>
    obtain ⟨b1, e1, r1⟩ := add_rep h x.toNat 8 .none (by omega) (by omega)
    obtain ⟨b2, e2, r2⟩ := ih r1
    refine ⟨b2, by rw [addWhole, e1]; exact e2, ?_⟩
    rw [bits_cons, ← List.append_assoc]
    exact r2

theorem lowBits_shift (x : UInt8) (k : Nat) (hk : k ≤ 8) : lowBits (x.toNat >>> (8 - k)) k = (byteBits x).take k := by
  rw [← lowBits_byte]
  unfold lowBits
  rw [← List.map_take, List.take_range, Nat.min_eq_left hk]
  apply List.map_congr_left
  intro i hi
  rw [List.mem_range] at hi
  rw [Nat.testBit_shiftRight]
  congr 1; omega

/-- The bits after the last one given are zero. -/
def Clean (src : List UInt8) (n : Nat) : Prop := ∀ b ∈ ((bits src).take (8 * ((n + 7) / 8))).drop n, b = false

theorem addBytes_rep {b : BBuf} {l : List Bool} (h : Rep b l) (src : List UInt8) (n : Nat) (hs : n ≤ 8 * src.length)
    (hc : l.length % 8 = 0 → Clean src n) :
    ∃ b', addBytes b src n = some b' ∧ Rep b' (l ++ (bits src).take n) := by
  have hl := bits_length src
  unfold addBytes
  by_cases h0 : n = 0
  · rw [if_pos h0]; subst h0; exact ⟨b, rfl, by simpa using h⟩
  · rw [if_neg h0]
    have hneed : n / 8 + (if n % 8 > 0 then 1 else 0) = (n + 7) / 8 := by split <;> omega
    simp only [hneed]
    rw [if_neg (by omega)]
    by_cases ha : b.nbits % 8 = 0
    · rw [if_pos ha]
      refine ⟨_, rfl, ?_⟩
      obtain ⟨h1, z, hz, h2⟩ := h
      have hm := rep_mod h2
      have hz0 : z = 0 := by omega
      subst hz0
      refine ⟨by simp [h1]; omega, 8 * ((n + 7) / 8) - n, by omega, ?_⟩
      simp only [bits_append, h2, bits_take, List.replicate_zero, List.append_nil]
      rw [List.append_assoc]
      congr 1
      conv => lhs; rw [← List.take_append_drop n (List.take _ (bits src))]
      rw [List.take_take, Nat.min_eq_left (by omega)]
      congr 1
      apply List.eq_replicate_of_mem _ |>.trans
      · congr 1
        simp; omega
      · exact hc (by omega)
    · rw [if_neg ha]
      obtain ⟨b1, e1, r1⟩ := addWhole_rep h (src.take (n / 8))
      rw [e1, Option.bind_some]
      by_cases hle : n % 8 > 0
      · rw [if_pos hle]
        have hi : n / 8 < src.length := by omega
        rw [List.getElem?_eq_getElem hi]
        obtain ⟨b2, e2, r2⟩ := add_rep r1 (src[n / 8].toNat >>> (8 - n % 8)) (n % 8) .none (by omega) (by omega)
        refine ⟨b2, e2, ?_⟩
        simp only at r2
        rw [lowBits_shift _ _ (by omega), bits_take, List.append_assoc] at r2
        have : (bits src).take (8 * (n / 8)) ++ (byteBits src[n / 8]).take (n % 8) = (bits src).take n := by
          conv => rhs; rw [show n = 8 * (n / 8) + n % 8 by omega, List.take_add]
          congr 1
          rw [← bits_drop, List.drop_eq_getElem_cons hi, bits_cons, List.take_append_of_le_length (by rw [byteBits_length]; omega)]
        rw [this] at r2
        exact r2
      · rw [if_neg hle]
        refine ⟨b1, rfl, ?_⟩
        rw [bits_take, show 8 * (n / 8) = n by omega] at r1
        exact r1

/-! ### Changing -/

theorem truncate_rep {b : BBuf} {l : List Bool} (h : Rep b l) (n : Nat) (hn : n ≤ l.length) :
    ∃ b', truncate b n = some b' ∧ Rep b' (l.take n) := by
  obtain ⟨h1, z, hz, h2⟩ := h
  have hm := rep_mod h2
  have ht : ∀ k, bufTruncate b.bytes k = b.bytes.take k := by
    intro k; unfold bufTruncate; split
    · rw [List.take_of_length_le ‹_›]
    · rfl
  have htk : (bits b.bytes).take n = l.take n := by rw [h2, List.take_append_of_le_length hn]
  unfold truncate
  simp only [ht]
  by_cases hp : n % 8 ≠ 0
  · rw [if_pos hp]
    have hi : n / 8 < b.bytes.length := by omega
    rw [List.getElem?_eq_getElem hi]
    refine ⟨_, rfl, by simp; omega, 8 - n % 8, by omega, ?_⟩
    simp only [bits_append, bits_cons, bits_nil, List.append_nil]
    rw [byte_mask ⟨n % 8, by omega⟩ _ (by simp only; omega), bits_take, ← List.append_assoc]
    congr 1
    rw [← htk]
    conv => rhs; rw [show n = 8 * (n / 8) + n % 8 by omega, List.take_add]
    congr 1
    rw [← bits_drop, List.drop_eq_getElem_cons hi, bits_cons, List.take_append_of_le_length (by rw [byteBits_length]; omega)]
  · rw [if_neg hp]
    refine ⟨_, rfl, by simp; omega, 0, by omega, ?_⟩
    simp only [bits_take, List.replicate_zero, List.append_nil]
    rw [show 8 * (n / 8) = n by omega, htk]

theorem updateBit_rep {b : BBuf} {l : List Bool} (h : Rep b l) (i : Nat) (bit : Bool) :
    (updateBit b i bit).1 = decide (i < l.length) ∧ Rep (updateBit b i bit).2 (l.set i bit) := by
  have h' := h
  obtain ⟨h1, z, hz, h2⟩ := h
  have hm := rep_mod h2
  unfold updateBit
  by_cases hi : i ≥ b.nbits
  · rw [if_pos hi]
    refine ⟨by simp; omega, ?_⟩
    rw [List.set_eq_of_length_le (by omega)]
    exact h'
  · rw [if_neg hi]
    have hk : i / 8 < b.bytes.length := by omega
    simp only [List.getElem?_eq_getElem hk]
    refine ⟨by simp; omega, by simpa using h1, z, hz, ?_⟩
    simp only
    rw [bits_set b.bytes (i / 8) (i % 8) bit (by omega) (List.getElem?_eq_getElem hk) ?_, h2, show 8 * (i / 8) + i % 8 = i by omega,
      List.set_append_left _ _ (by omega)]
    cases bit with
    | false =>
      have := byte_andnot ⟨7 - i % 8, by omega⟩ b.bytes[i / 8]
      simp only [show 7 - (7 - i % 8) = i % 8 by omega] at this
      simpa using this
    | true =>
      have := byte_or ⟨7 - i % 8, by omega⟩ b.bytes[i / 8]
      simp only [show 7 - (7 - i % 8) = i % 8 by omega] at this
      simpa using this

theorem bitstrLoop_rep {b : BBuf} {l : List Bool} (h : Rep b l) (s : List UInt8) (hs : ∀ c ∈ s, Chr.isSpace c ∨ c = 48 ∨ c = 49) :
    ∃ b', bitstrLoop b s = some (true, b') ∧ Rep b' (l ++ (s.filter fun c => c = 48 || c = 49).map fun c => decide (c = 49)) := by
  induction s generalizing b l with
  | nil => exact ⟨b, rfl, by simpa using h⟩
  | cons c s ih =>
    have hs' : ∀ c ∈ s, Chr.isSpace c ∨ c = 48 ∨ c = 49 := fun c hc => hs c (List.mem_cons_of_mem _ hc)
    unfold bitstrLoop
    by_cases hsp : Chr.isSpace c = true
    · rw [if_pos hsp]
      obtain ⟨b', e, r⟩ := ih h hs'
      refine ⟨b', e, ?_⟩
      have h48 : c ≠ 48 := by intro e; subst e; exact absurd hsp (by decide)
      have h49 : c ≠ 49 := by intro e; subst e; exact absurd hsp (by decide)
      rw [List.filter_cons_of_neg (by simp [h48, h49])]
      exact r
    · rw [if_neg hsp]
      have hc : c = 48 ∨ c = 49 := by
        rcases hs c List.mem_cons_self with h | h
        · exact absurd h hsp
        · exact h
      rw [if_neg (by rcases hc with rfl | rfl <;> decide)]
      obtain ⟨b1, e1, r1⟩ := addBit_rep h (decide (c ≠ 48))
      obtain ⟨b2, e2, r2⟩ := ih r1 hs'
      refine ⟨b2, by rw [e1]; exact e2, ?_⟩
      rw [List.filter_cons_of_pos (by rcases hc with rfl | rfl <;> decide), List.map_cons]
      rw [List.append_assoc, List.singleton_append] at r2
      have : decide (c ≠ 48) = decide (c = 49) := by rcases hc with rfl | rfl <;> decide
      rw [this] at r2
      exact r2

end Verif.Bits
