import Verif.StrFmt.Count
/-! The kinds of output agree with a buffer. -/
namespace Verif.StrFmt

/-- A string of `size` bytes in the memory `m0` and what a buffer would hold. -/
def RS (m0 : List UInt8) (size : Nat) (s m : Sink) : Prop :=
  ∃ t, m = .mbuf (some t) ∧ s = .sbuf (some (t.take (size - 1) ++ m0.drop (min t.length (size - 1)))) (min t.length (size - 1)) size

theorem agree_sbuf (m0 : List UInt8) (size : Nat) (h0 : 0 < size) (hm : size ≤ m0.length) : Agree (RS m0 size) := by
  rintro s m b ⟨t, rfl, rfl⟩
  unfold addBytes
  by_cases hb : b.length = 0
  · rw [if_pos hb, if_pos hb]
    exact .some ⟨t, rfl, rfl⟩
  · rw [if_neg hb, if_neg hb]
    dsimp only
    rw [if_neg (by omega)]
    by_cases hp : t.length < size - 1
    · rw [Nat.min_eq_left (by omega)]
      have ht : (if b.length > size - t.length - 1 then size - t.length - 1 else b.length) = min b.length (size - t.length - 1) := by
        split <;> omega
      rw [ht, if_neg (by omega)]
      have hl : t.length + (b.take (min b.length (size - t.length - 1))).length ≤ (t.take (size - 1) ++ m0.drop t.length).length := by
        simp only [List.length_take, List.length_append, List.length_drop]; omega
      unfold wr
      rw [if_pos hl]
      simp only [Option.map_some]
      refine Rel.some ⟨t ++ b, rfl, ?_⟩
      have e1 : t.length + min b.length (size - t.length - 1) = min (t ++ b).length (size - 1) := by rw [List.length_append]; omega
      have e2 : (b.take (min b.length (size - t.length - 1))).length = min b.length (size - t.length - 1) := by rw [List.length_take]; omega
      have e3 : b.take (min b.length (size - t.length - 1)) = b.take (size - 1 - t.length) := by
        by_cases hx : b.length ≤ size - t.length - 1
        · rw [Nat.min_eq_left hx, List.take_length, List.take_of_length_le (by omega)]
        · rw [Nat.min_eq_right (by omega)]; congr 1; omega
      rw [e2, e1, List.take_of_length_le (show t.length ≤ size - 1 by omega), List.take_append_of_le_length (Nat.le_refl _), List.take_length, List.take_append,
        List.take_of_length_le (show t.length ≤ size - 1 by omega), e3, List.drop_append, List.drop_eq_nil_of_le (by rw [← e1]; omega), List.nil_append, List.drop_drop,
        show t.length + (min (t ++ b).length (size - 1) - t.length) = min (t ++ b).length (size - 1) by omega]
    · rw [Nat.min_eq_right (by omega)]
      rw [if_pos (by split <;> omega)]
      refine Rel.some ⟨t ++ b, rfl, ?_⟩
      rw [Nat.min_eq_right (by rw [List.length_append]; omega), List.take_append_of_le_length (by omega)]

/-- A file that takes all, and what a buffer would hold. -/
def RF (s m : Sink) : Prop := ∃ env calls wb out t, (∀ i, 512 ≤ env i) ∧ s = .fd env calls wb out ∧ m = .mbuf (some t) ∧ out ++ wb = t ∧ wb.length ≤ 512

theorem fdLoop_all (env : Nat → Nat) (he : ∀ i, 512 ≤ env i) : ∀ f calls out b, b.length ≤ f + 512 →
    ∃ c o r, fdLoop env f calls out b = (c, o, some r) ∧ o ++ r = out ++ b ∧ r.length ≤ 512 := by
  intro f
  induction f with
  | zero => intro calls out b h; exact ⟨calls, out, b, rfl, rfl, by omega⟩
  | succ f ih =>
    intro calls out b h
    unfold fdLoop
    by_cases hb : b.length > 512
    · have := he calls
      rw [if_pos hb, if_neg (by omega)]
      obtain ⟨c, o, r, e1, e2, e3⟩ := ih (calls + 1) (out ++ b.take 512) (b.drop 512) (by rw [List.length_drop]; omega)
      refine ⟨c, o, r, e1, ?_, e3⟩
      rw [e2, List.append_assoc, List.take_append_drop]
    · rw [if_neg hb]
      exact ⟨calls, out, b, rfl, rfl, by omega⟩

theorem agree_fd : Agree RF := by
  rintro s m b ⟨env, calls, wb, out, t, he, rfl, rfl, ht, hw⟩
  unfold addBytes
  by_cases hb : b.length = 0
  · rw [if_pos hb, if_pos hb]
    exact .some ⟨env, calls, wb, out, t, he, rfl, rfl, ht, hw⟩
  · rw [if_neg hb, if_neg hb]
    dsimp only
    by_cases h : wb.length + b.length ≥ 512
    · have := he calls
      rw [if_pos h, if_neg (by omega)]
      obtain ⟨c, o, r, e1, e2, e3⟩ := fdLoop_all env he b.length (calls + 1) (out ++ wb) b (by omega)
      rw [e1]
      dsimp only
      rw [if_neg (by omega)]
      exact .some ⟨env, c, r, o, t ++ b, he, rfl, rfl, by rw [e2, ht], e3⟩
    · rw [if_neg h]
      exact .some ⟨env, calls, wb ++ b, out, t ++ b, he, rfl, rfl, by rw [← List.append_assoc, ht], by rw [List.length_append]; omega⟩

/-- A stream that takes all, and what a buffer would hold. -/
def RT (s m : Sink) : Prop := ∃ env calls t, (∀ i, env i = true) ∧ s = .stream env calls t ∧ m = .mbuf (some t)

theorem agree_stream : Agree RT := by
  rintro s m b ⟨env, calls, t, he, rfl, rfl⟩
  unfold addBytes
  by_cases hb : b.length = 0
  · rw [if_pos hb, if_pos hb]
    exact .some ⟨env, calls, t, he, rfl, rfl⟩
  · rw [if_neg hb, if_neg hb]
    dsimp only
    rw [if_pos (he calls)]
    exact .some ⟨env, calls + 1, t ++ b, he, rfl, rfl⟩

/-- A string that is only measured. -/
def RN (m0 : Option (List UInt8)) (size : Nat) (s m : Sink) : Prop := (m0 = none ∨ size = 0) ∧ s = .sbuf m0 0 size ∧ ∃ t, m = .mbuf (some t)

theorem agree_null (m0 : Option (List UInt8)) (size : Nat) : Agree (RN m0 size) := by
  rintro s m b ⟨h, rfl, t, rfl⟩
  unfold addBytes
  by_cases hb : b.length = 0
  · rw [if_pos hb, if_pos hb]
    exact .some ⟨h, rfl, t, rfl⟩
  · rw [if_neg hb, if_neg hb]
    cases m0 with
    | none => exact .some ⟨h, rfl, _, rfl⟩
    | some m =>
      have h : size = 0 := by simpa using h
      dsimp only
      rw [if_pos h]
      exact .some ⟨.inr h, rfl, _, rfl⟩

/-- A buffer that is not empty. -/
def RB (buf : List UInt8) (s m : Sink) : Prop := ∃ t, s = .mbuf (some (buf ++ t)) ∧ m = .mbuf (some t)

theorem agree_buf (buf : List UInt8) : Agree (RB buf) := by
  rintro s m b ⟨t, rfl, rfl⟩
  rw [addBytes_mbuf, addBytes_mbuf]
  exact .some ⟨t ++ b, by rw [List.append_assoc], rfl⟩

end Verif.StrFmt
