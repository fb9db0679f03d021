namespace Verif.Bits

/-! ### Specification: sequences of bits -/

/-- The bits of a byte, the most significant first. -/
def byteBits (b : UInt8) : List Bool :=
  [b.toNat.testBit 7, b.toNat.testBit 6, b.toNat.testBit 5, b.toNat.testBit 4,
   b.toNat.testBit 3, b.toNat.testBit 2, b.toNat.testBit 1, b.toNat.testBit 0]

/-- The bits of a sequence of bytes. -/
def bits (l : List UInt8) : List Bool := l.flatMap byteBits

/-- The number written in binary by a sequence of bits. -/
def natOf (l : List Bool) : Nat := l.foldl (fun n b => 2 * n + b.toNat) 0

/-! ### Bytes -/

theorem lift8 {P : UInt8 → Prop} (h : ∀ n : Fin 256, P (UInt8.ofNat n.val)) (c : UInt8) : P c := by
  have := h ⟨c.toNat, c.toNat_lt⟩
  simpa using this

theorem byteBits_length (b : UInt8) : (byteBits b).length = 8 := by simp [byteBits]

theorem byte_or (p : Fin 8) : ∀ x : UInt8, byteBits (x ||| UInt8.ofNat (1 <<< p.val)) = (byteBits x).set (7 - p.val) true := by
  apply lift8
  revert p
  decide +kernel

theorem byte_andnot (p : Fin 8) : ∀ x : UInt8, byteBits (x &&& ~~~UInt8.ofNat (1 <<< p.val)) = (byteBits x).set (7 - p.val) false := by
  apply lift8
  revert p
  decide +kernel

theorem byte_mask (p : Fin 8) : ∀ x : UInt8, 0 < p.val → byteBits (x &&& ~~~(UInt8.ofNat (1 <<< (8 - p.val)) - 1)) =
    (byteBits x).take p.val ++ List.replicate (8 - p.val) false := by
  apply lift8
  revert p
  decide +kernel

theorem byte_mask' (p : Fin 8) : ∀ x : UInt8, 0 < p.val → byteBits (x &&& ~~~UInt8.ofNat ((1 <<< (8 - p.val)) - 1)) =
    (byteBits x).take p.val ++ List.replicate (8 - p.val) false := by
  apply lift8
  revert p
  decide +kernel

theorem byte_test (i : Fin 8) : ∀ x : UInt8, (byteBits x)[i.val]? = some (decide (x.toNat &&& (1 <<< (7 - i.val)) ≠ 0)) := by
  apply lift8
  revert i
  decide +kernel

theorem byte_shl (k : Fin 8) : ∀ x : UInt8, byteBits (UInt8.ofNat (x.toNat <<< k.val)) = (byteBits x).drop k.val ++ List.replicate k.val false := by
  apply lift8
  revert k
  decide +kernel

theorem byte_shr (k : Fin 8) : ∀ x : UInt8, byteBits (UInt8.ofNat (x.toNat >>> (8 - k.val))) =
    List.replicate (8 - k.val) false ++ (byteBits x).take k.val := by
  apply lift8
  revert k
  decide +kernel

theorem byte_natOf : ∀ x : UInt8, natOf (byteBits x) = x.toNat := by
  apply lift8
  decide +kernel

theorem byte_bit (i : Fin 8) : ∀ x : UInt8, (byteBits x)[7 - i.val]? = some (decide ((x.toNat >>> i.val) &&& 1 ≠ 0)) := by
  apply lift8
  revert i
  decide +kernel

theorem byteBits_or (a b : UInt8) : byteBits (a ||| b) = List.zipWith (· || ·) (byteBits a) (byteBits b) := by
  simp [byteBits, UInt8.toNat_or, Nat.testBit_or]

theorem ofNat_or (a b : Nat) : UInt8.ofNat (a ||| b) = UInt8.ofNat a ||| UInt8.ofNat b := by
  apply UInt8.toNat_inj.1
  rw [UInt8.toNat_or, UInt8.toNat_ofNat', UInt8.toNat_ofNat', UInt8.toNat_ofNat']
  exact Nat.or_mod_two_pow (n := 8)

end Verif.Bits
