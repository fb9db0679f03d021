import Verif.Hexdump.Lemmas
/- What users of hex dumps rely on. -/
namespace Verif.Hexdump

/-- The number of bytes of a line: 16 unless said otherwise. -/
def perLine (n : Nat) : Nat := if n = 0 then 16 else n

/-- A dump can be read back: behind the header, if one was asked for, there are the data, byte by byte, each line with the number of
the bytes before it, all columns aligned, and at last the number of all bytes.  Partial: sizes do not wrap. -/
theorem read_back_partial (o : Opt) (n : Nat) (pre d t : List UInt8) (w : Nat) (hw : Width o d.length w) (h : hexdump o n pre d = some t) :
    ∃ hd bd, t = hd ++ bd ∧ (if o.header = true then Header o (perLine n) pre w hd else hd = []) ∧ readRows o (perLine n) pre w (bd.length + 1) 0 bd = some d := by
  have hb : 1 ≤ perLine n := by unfold perLine; split <;> omega
  have hlen : o.nolen = false → lenSize o d.length = w := fun hn => lenSize_width o d.length w hn hw
  unfold hexdump at h
  dsimp only at h
  rw [show (if n = 0 then 16 else n) = perLine n from rfl, Option.map_eq_some_iff] at h
  generalize perLine n = bpl at hb h ⊢
  obtain ⟨hd, h1, h2⟩ := h
  refine ⟨hd, rows o bpl pre (lenSize o d.length) d d.length 0 ++ (if o.nolen then [] else pre ++ number o (lenSize o d.length) d.length), by rw [← h2, List.append_assoc], ?_, ?_⟩
  · cases ho : o.header
    · unfold head at h1
      rw [ho] at h1
      simp only [Bool.false_eq_true, if_false, Option.some.injEq] at h1 ⊢
      exact h1.symm
    · exact head_inv o bpl hb pre _ w hw.1 hlen hd ho h1
  · have hl := rows_length o bpl hb pre (lenSize o d.length) d d.length 0 (by omega)
    have hr := read_rows o bpl hb pre d w hw (lenSize o d.length) hlen d.length
      ((rows o bpl pre (lenSize o d.length) d d.length 0 ++ (if o.nolen then [] else pre ++ number o (lenSize o d.length) d.length)).length + 1) 0
      (by have := Nat.mul_le_mul_left d.length hb; omega) (by rw [List.length_append]; omega) (Nat.dvd_zero _) (Nat.zero_le _)
    simpa using hr

/-- There is a width for every number of bytes, and only one. -/
theorem width_unique (o : Opt) (n : Nat) : (∃ w, Width o n w) ∧ ∀ w w', Width o n w → Width o n w' → w = w' := by
  have hb : 2 ≤ (if o.declen then 10 else 16 : Nat) := by split <;> omega
  generalize hbb : (if o.declen then 10 else 16 : Nat) = b at hb
  unfold Width
  rw [hbb]
  constructor
  · have : ∃ w, n < b ^ w := ⟨n, Nat.lt_pow_self (by omega)⟩
    obtain ⟨w, hw⟩ := this
    induction w with
    | zero => exact ⟨4, by omega, Nat.lt_of_lt_of_le hw (Nat.pow_le_pow_right (by omega) (by omega)), .inl rfl⟩
    | succ w ih =>
      rcases Nat.lt_or_ge n (b ^ w) with h | h
      · exact ih h
      · rcases Nat.lt_or_ge 4 (w + 1) with h5 | h5
        · exact ⟨w + 1, by omega, hw, .inr h⟩
        · exact ⟨4, by omega, Nat.lt_of_lt_of_le hw (Nat.pow_le_pow_right (by omega) (by omega)), .inl rfl⟩
  · have key : ∀ w w', 4 ≤ w ∧ n < b ^ w ∧ (w = 4 ∨ b ^ (w - 1) ≤ n) → 4 ≤ w' ∧ n < b ^ w' ∧ (w' = 4 ∨ b ^ (w' - 1) ≤ n) → w' ≤ w := by
      intro w w' h h'
      rcases Nat.lt_or_ge w w' with hlt | hge
      · rcases h'.2.2 with e | e
        · omega
        · have := Nat.pow_le_pow_right (show 0 < b by omega) (show w ≤ w' - 1 by omega)
          omega
      · exact hge
    intro w w' h h'
    exact Nat.le_antisymm (key w' w h' h) (key w w' h h')

/-- When there is a dump.  Partial: with a header above three columns a line must have three bytes, see `header_fails`. -/
theorem dump_partial (o : Opt) (n : Nat) (pre d : List UInt8) : (∃ t, hexdump o n pre d = some t) ↔ (o.header = false ∨ o.noascii = true ∨ 3 ≤ perLine n) := by
  have hb : 1 ≤ perLine n := by unfold perLine; split <;> omega
  rw [← head_some o (perLine n) hb pre (lenSize o d.length)]
  · unfold hexdump
    dsimp only
    rw [show (if n = 0 then 16 else n) = perLine n from rfl]
    cases head o (perLine n) pre (lenSize o d.length) <;> simp
  · intro hn
    unfold lenSize
    rw [hn]
    dsimp only
    simp only [Bool.false_eq_true, if_false]
    cases o.declen <;> simp only [Bool.false_eq_true, if_false, if_true] <;> split <;> omega

/-- Two bytes per line with a header: the title of the last column does not fit, and the difference wraps. -/
theorem header_fails : hexdump ⟨false, false, true, false, false, false, false⟩ 2 [] [1, 2, 3] = none := by decide +kernel

/-- Nine bytes, with a header, numbers in hexadecimal, digits in upper case, eight bytes in a line. -/
example : hexdump ⟨false, false, true, false, false, true, false⟩ 8 [62] [72, 105, 0, 255, 126, 127, 32, 33, 10] = some (
    [62, 65, 68, 68, 82, 32, 32] ++ List.replicate 10 32 ++ [72, 69, 88] ++ List.replicate 10 32 ++ [32, 32, 32, 32, 65, 83, 67, 73, 73, 32, 32, 32, 10] ++
    [62, 61, 61, 61, 61, 32, 32] ++ List.replicate 23 61 ++ [32, 32] ++ List.replicate 10 61 ++ [10] ++
    [62, 48, 48, 48, 48, 32, 32, 52, 56, 32, 54, 57, 32, 48, 48, 32, 70, 70, 32, 55, 69, 32, 55, 70, 32, 50, 48, 32, 50, 49, 32, 32, 124, 72, 105, 46, 46, 126, 46, 32, 33, 124, 10] ++
    [62, 48, 48, 48, 56, 32, 32, 48, 65] ++ List.replicate 21 32 ++ [32, 32, 124, 46] ++ List.replicate 7 32 ++ [124, 10] ++
    [62, 48, 48, 48, 57]) := by decide +kernel

example : Width ⟨false, false, true, false, false, true, false⟩ 9 4 ∧ Width ⟨true, false, false, false, false, false, false⟩ 10000 5 := by
  simp [Width]

end Verif.Hexdump
