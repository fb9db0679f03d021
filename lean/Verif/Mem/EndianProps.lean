import Verif.Mem.Model
import Mathlib.Tactic.IntervalCases
/-! C37: byte order. -/
namespace Verif.Mem

/-- Byte `k` of a word, the least significant being byte 0. -/
def byte {w : Nat} (v : BitVec w) (k : Nat) : Nat := v.toNat / 256 ^ k % 256

/-- The bytes of a word as they lie in the memory of a machine. -/
def layout (e : Endian) (n : Nat) (v : BitVec (8 * n)) : List Nat :=
  match e with
  | .little => (List.range n).map (byte v)
  | .big => ((List.range n).map (byte v)).reverse

theorem byte_eq {w : Nat} (v u : BitVec w) (i j : Nat) (hi : 8 * i + 8 ≤ w) (hj : 8 * j + 8 ≤ w)
    (h : ∀ k, k < 8 → v.getLsbD (8 * i + k) = u.getLsbD (8 * j + k)) : byte v i = byte u j := by
  unfold byte
  apply Nat.eq_of_testBit_eq
  intro k
  have e : ∀ n : Nat, 256 ^ n = 2 ^ (8 * n) := fun n => by rw [show 256 = 2 ^ 8 from rfl, ← Nat.pow_mul]
  rw [show 256 = 2 ^ 8 from rfl, Nat.testBit_mod_two_pow, Nat.testBit_mod_two_pow, ← Nat.pow_mul, ← Nat.pow_mul, ← Nat.shiftRight_eq_div_pow,
    ← Nat.shiftRight_eq_div_pow, Nat.testBit_shiftRight, Nat.testBit_shiftRight]
  by_cases hk : k < 8
  · have := h k hk
    rw [BitVec.getLsbD, BitVec.getLsbD] at this
    rw [this]
  · simp [hk]

set_option maxRecDepth 4000 in
theorem swap16_bit (v : BitVec 16) (i : Nat) (hi : i < 16) : (swap16 v).getLsbD i = v.getLsbD (8 * (1 - i / 8) + i % 8) := by
  unfold swap16
  interval_cases i <;> simp

theorem swap32_bit (v : BitVec 32) (i : Nat) (hi : i < 32) : (swap32 v).getLsbD i = v.getLsbD (8 * (3 - i / 8) + i % 8) := by
  unfold swap32
  interval_cases i <;> simp

theorem swap64_bit (v : BitVec 64) (i : Nat) (hi : i < 64) : (swap64 v).getLsbD i = v.getLsbD (8 * (7 - i / 8) + i % 8) := by
  unfold swap64
  interval_cases i <;> simp

theorem swap16_byte (v : BitVec 16) (i : Nat) (hi : i < 2) : byte (swap16 v) i = byte v (1 - i) := by
  apply byte_eq _ _ _ _ (by omega) (by omega)
  intro k hk
  rw [swap16_bit v _ (by omega)]
  congr 1
  omega

/-- Swapping twice changes nothing. -/
theorem swap16_swap16 (v : BitVec 16) : swap16 (swap16 v) = v := by
  apply BitVec.eq_of_getLsbD_eq
  intro i hi
  rw [swap16_bit _ _ hi, swap16_bit _ _ (by omega)]
  congr 1
  omega

theorem swap16_layout (v : BitVec 16) (e : Endian) : layout e 2 (swap16 v) = (layout e 2 v).reverse := by
  have h : (List.range 2).map (byte (swap16 v)) = ((List.range 2).map (byte v)).reverse := by
    simp only [List.range, List.range.loop, List.map_cons, List.map_nil, List.reverse_cons, List.reverse_nil, List.nil_append, List.cons_append,
      swap16_byte v 0 (by omega), swap16_byte v 1 (by omega)]
  cases e with
  | little => exact h
  | big =>
    show ((List.range 2).map (byte (swap16 v))).reverse = _
    rw [h]
    rfl

/-- On every machine: `M_hton16` puts the most significant byte first in memory, `M_htol16` last, and the conversions back are
their inverses. -/
theorem order16 (e : Endian) (v : BitVec 16) :
    layout e 2 (hton16 e v) = layout .big 2 v ∧ layout e 2 (htol16 e v) = layout .little 2 v ∧
    ntoh16 e (hton16 e v) = v ∧ hton16 e (ntoh16 e v) = v ∧ ltoh16 e (htol16 e v) = v ∧ htol16 e (ltoh16 e v) = v := by
  have hr : (layout .little 2 v).reverse = layout .big 2 v := rfl
  have hr' : (layout .big 2 v).reverse = layout .little 2 v := by rw [← hr, List.reverse_reverse]
  cases e
  · refine ⟨?_, rfl, swap16_swap16 v, swap16_swap16 v, rfl, rfl⟩
    rw [← hr, ← swap16_layout]; rfl
  · refine ⟨rfl, ?_, rfl, rfl, swap16_swap16 v, swap16_swap16 v⟩
    rw [← hr', ← swap16_layout]; rfl

theorem swap32_byte (v : BitVec 32) (i : Nat) (hi : i < 4) : byte (swap32 v) i = byte v (3 - i) := by
  apply byte_eq _ _ _ _ (by omega) (by omega)
  intro k hk
  rw [swap32_bit v _ (by omega)]
  congr 1
  omega

/-- Swapping twice changes nothing. -/
theorem swap32_swap32 (v : BitVec 32) : swap32 (swap32 v) = v := by
  apply BitVec.eq_of_getLsbD_eq
  intro i hi
  rw [swap32_bit _ _ hi, swap32_bit _ _ (by omega)]
  congr 1
  omega

theorem swap32_layout (v : BitVec 32) (e : Endian) : layout e 4 (swap32 v) = (layout e 4 v).reverse := by
  have h : (List.range 4).map (byte (swap32 v)) = ((List.range 4).map (byte v)).reverse := by
    simp only [List.range, List.range.loop, List.map_cons, List.map_nil, List.reverse_cons, List.reverse_nil, List.nil_append, List.cons_append,
      swap32_byte v 0 (by omega), swap32_byte v 1 (by omega), swap32_byte v 2 (by omega), swap32_byte v 3 (by omega)]
  cases e with
  | little => exact h
  | big =>
    show ((List.range 4).map (byte (swap32 v))).reverse = _
    rw [h]
    rfl

/-- On every machine: `M_hton32` puts the most significant byte first in memory, `M_htol32` last, and the conversions back are
their inverses. -/
theorem order32 (e : Endian) (v : BitVec 32) :
    layout e 4 (hton32 e v) = layout .big 4 v ∧ layout e 4 (htol32 e v) = layout .little 4 v ∧
    ntoh32 e (hton32 e v) = v ∧ hton32 e (ntoh32 e v) = v ∧ ltoh32 e (htol32 e v) = v ∧ htol32 e (ltoh32 e v) = v := by
  have hr : (layout .little 4 v).reverse = layout .big 4 v := rfl
  have hr' : (layout .big 4 v).reverse = layout .little 4 v := by rw [← hr, List.reverse_reverse]
  cases e
  · refine ⟨?_, rfl, swap32_swap32 v, swap32_swap32 v, rfl, rfl⟩
    rw [← hr, ← swap32_layout]; rfl
  · refine ⟨rfl, ?_, rfl, rfl, swap32_swap32 v, swap32_swap32 v⟩
    rw [← hr', ← swap32_layout]; rfl

theorem swap64_byte (v : BitVec 64) (i : Nat) (hi : i < 8) : byte (swap64 v) i = byte v (7 - i) := by
  apply byte_eq _ _ _ _ (by omega) (by omega)
  intro k hk
  rw [swap64_bit v _ (by omega)]
  congr 1
  omega

/-- Swapping twice changes nothing. -/
theorem swap64_swap64 (v : BitVec 64) : swap64 (swap64 v) = v := by
  apply BitVec.eq_of_getLsbD_eq
  intro i hi
  rw [swap64_bit _ _ hi, swap64_bit _ _ (by omega)]
  congr 1
  omega

theorem swap64_layout (v : BitVec 64) (e : Endian) : layout e 8 (swap64 v) = (layout e 8 v).reverse := by
  have h : (List.range 8).map (byte (swap64 v)) = ((List.range 8).map (byte v)).reverse := by
    simp only [List.range, List.range.loop, List.map_cons, List.map_nil, List.reverse_cons, List.reverse_nil, List.nil_append, List.cons_append,
      swap64_byte v 0 (by omega), swap64_byte v 1 (by omega), swap64_byte v 2 (by omega), swap64_byte v 3 (by omega), swap64_byte v 4 (by omega), swap64_byte v 5 (by omega), swap64_byte v 6 (by omega), swap64_byte v 7 (by omega)]
  cases e with
  | little => exact h
  | big =>
    show ((List.range 8).map (byte (swap64 v))).reverse = _
    rw [h]
    rfl

/-- On every machine: `M_hton64` puts the most significant byte first in memory, `M_htol64` last, and the conversions back are
their inverses. -/
theorem order64 (e : Endian) (v : BitVec 64) :
    layout e 8 (hton64 e v) = layout .big 8 v ∧ layout e 8 (htol64 e v) = layout .little 8 v ∧
    ntoh64 e (hton64 e v) = v ∧ hton64 e (ntoh64 e v) = v ∧ ltoh64 e (htol64 e v) = v ∧ htol64 e (ltoh64 e v) = v := by
  have hr : (layout .little 8 v).reverse = layout .big 8 v := rfl
  have hr' : (layout .big 8 v).reverse = layout .little 8 v := by rw [← hr, List.reverse_reverse]
  cases e
  · refine ⟨?_, rfl, swap64_swap64 v, swap64_swap64 v, rfl, rfl⟩
    rw [← hr, ← swap64_layout]; rfl
  · refine ⟨rfl, ?_, rfl, rfl, swap64_swap64 v, swap64_swap64 v⟩
    rw [← hr', ← swap64_layout]; rfl

example : layout .big 4 (0x12345678#32) = [0x12, 0x34, 0x56, 0x78] ∧ layout .little 4 (hton32 .little 0x12345678#32) = [0x12, 0x34, 0x56, 0x78] := by
  decide

end Verif.Mem
