import Verif.Codepage.Spec
namespace Verif.Codepage
open Verif.Utf8

/-- The table of the specification. -/
def stdList (p : Page) : List (Nat × Nat) :=
  match ebcdic p with
  | some l => l.zipIdx.map fun x => (x.2, x.1)
  | none => (List.range 128).map (fun b => (b, b)) ++
      ((high p).zipIdx 128).filterMap fun x => if x.1 = 0 then none else some (x.2, x.1)

theorem table_eq (p : Page) : table p = stdList p := by
  cases p <;> decide +kernel

theorem mem_std (p : Page) (b u : Nat) : (b, u) ∈ stdList p ↔ Std p b u := by
  unfold stdList Std
  cases ebcdic p with
  | some l =>
    simp only [List.mem_map, Prod.mk.injEq, Prod.exists, List.mem_zipIdx_iff_getElem?]
    constructor
    · rintro ⟨x, i, h, rfl, rfl⟩; exact h
    · intro h; exact ⟨u, b, h, rfl, rfl⟩
  | none =>
    simp only [List.mem_append, List.mem_map, List.mem_range, Prod.mk.injEq, List.mem_filterMap, Prod.exists,
      List.mem_zipIdx_iff_le_and_getElem?_sub]
    constructor
    · rintro (⟨x, h, rfl, rfl⟩ | ⟨x, i, ⟨h1, h2⟩, h⟩)
      · exact Or.inl ⟨h, rfl⟩
      · split at h
        · cases h
        · rename_i hx
          simp only [Option.some.injEq, Prod.mk.injEq] at h
          obtain ⟨rfl, rfl⟩ := h
          exact Or.inr ⟨h1, h2, hx⟩
    · rintro (⟨h, rfl⟩ | ⟨h1, h2, h3⟩)
      · exact Or.inl ⟨_, h, rfl, rfl⟩
      · exact Or.inr ⟨u, b, ⟨h1, h2⟩, by rw [if_neg h3]⟩

theorem mem_table (p : Page) (b u : Nat) : (b, u) ∈ table p ↔ Std p b u := by
  rw [table_eq, mem_std]

/-- A check that no number occurs twice; `acc` has the bits of the numbers seen. -/
def uniq : Nat → List Nat → Bool
  | _, [] => true
  | acc, x :: l => !acc.testBit x && uniq (acc ||| 1 <<< x) l

theorem uniq_spec : ∀ (l : List Nat) (acc : Nat), uniq acc l = true → l.Pairwise (· ≠ ·) ∧ ∀ x ∈ l, acc.testBit x = false := by
  intro l
  induction l with
  | nil => intro acc _; exact ⟨.nil, nofun⟩
  | cons x l ih =>
    intro acc h
    simp only [uniq, Bool.and_eq_true, Bool.not_eq_true'] at h
    obtain ⟨h1, h2⟩ := ih _ h.2
    have key : ∀ y ∈ l, acc.testBit y = false ∧ x ≠ y := by
      intro y hy
      have h3 := h2 y hy
      rw [Nat.testBit_or, Bool.or_eq_false_iff, Nat.testBit_shiftLeft] at h3
      refine ⟨h3.1, ?_⟩
      rintro rfl
      simp at h3
    refine ⟨.cons (fun y hy => (key y hy).2) h1, fun y hy => ?_⟩
    rcases List.mem_cons.1 hy with rfl | hy
    · exact h.1
    · exact (key y hy).1

theorem table_uniq (p : Page) : uniq 0 ((table p).map (·.1)) = true ∧ uniq 0 ((table p).map (·.2)) = true := by
  cases p <;> decide +kernel

theorem table_unique (p : Page) : (table p).Pairwise fun x y => x.1 ≠ y.1 ∧ x.2 ≠ y.2 := by
  have h1 := (uniq_spec _ _ (table_uniq p).1).1
  have h2 := (uniq_spec _ _ (table_uniq p).2).1
  rw [List.pairwise_map] at h1 h2
  exact h1.and h2

theorem table_ok (p : Page) : ∀ x ∈ table p, x.1 < 256 ∧ Allowed x.2 ∧ (x.1 = 0 ↔ x.2 = 0) := by
  cases p <;> decide +kernel

theorem pairwise_inj {l : List (Nat × Nat)} (h : l.Pairwise fun x y => x.1 ≠ y.1 ∧ x.2 ≠ y.2) :
    ∀ x ∈ l, ∀ y ∈ l, x.1 = y.1 ∨ x.2 = y.2 → x = y := by
  induction h with
  | nil => intro x hx; cases hx
  | cons h _ ih =>
    intro x hx y hy e
    rcases List.mem_cons.1 hx with hx | hx <;> rcases List.mem_cons.1 hy with hy | hy
    · rw [hx, hy]
    · have := h y hy; rw [← hx] at this; rcases e with e | e
      · exact absurd e this.1
      · exact absurd e this.2
    · have := h x hx; rw [← hy] at this; rcases e with e | e
      · exact absurd e.symm this.1
      · exact absurd e.symm this.2
    · exact ih x hx y hy e

theorem std_inj {p : Page} {b u b' u' : Nat} (h : Std p b u) (h' : Std p b' u') (e : b = b' ∨ u = u') : b = b' ∧ u = u' := by
  have := pairwise_inj (table_unique p) _ ((mem_table ..).2 h) _ ((mem_table ..).2 h') e
  exact Prod.mk.injEq .. ▸ this

theorem std_ok {p : Page} {b u : Nat} (h : Std p b u) : b < 256 ∧ Allowed u ∧ (b = 0 ↔ u = 0) :=
  table_ok p _ ((mem_table ..).2 h)

theorem findByte_some {p : Page} {b u : Nat} (h : Std p b u) : findByte (table p) u = some b := by
  unfold findByte
  cases hf : (table p).find? fun q => q.2 == u with
  | none => exact absurd (List.find?_eq_none.1 hf _ ((mem_table ..).2 h)) (by simp)
  | some q =>
    have h1 : q.2 = u := by simpa using List.find?_some hf
    have := pairwise_inj (table_unique p) _ (List.mem_of_find?_eq_some hf) _ ((mem_table ..).2 h) (Or.inr h1)
    rw [this]; rfl

theorem findByte_none {p : Page} {u : Nat} (h : ∀ b, ¬ Std p b u) : findByte (table p) u = none := by
  unfold findByte
  cases hf : (table p).find? fun q => q.2 == u with
  | none => rfl
  | some q =>
    have h1 : q.2 = u := by simpa using List.find?_some hf
    refine absurd ((mem_table p q.1 u).1 ?_) (h q.1)
    rw [← h1]; exact List.mem_of_find?_eq_some hf

theorem findCode_some {p : Page} {b u : Nat} (h : Std p b u) : findCode (table p) b = some u := by
  unfold findCode
  cases hf : (table p).find? fun q => q.1 == b with
  | none => exact absurd (List.find?_eq_none.1 hf _ ((mem_table ..).2 h)) (by simp)
  | some q =>
    have h1 : q.1 = b := by simpa using List.find?_some hf
    have := pairwise_inj (table_unique p) _ (List.mem_of_find?_eq_some hf) _ ((mem_table ..).2 h) (Or.inl h1)
    rw [this]; rfl

theorem findCode_none {p : Page} {b : Nat} (h : ∀ u, ¬ Std p b u) : findCode (table p) b = none := by
  unfold findCode
  cases hf : (table p).find? fun q => q.1 == b with
  | none => rfl
  | some q =>
    have h1 : q.1 = b := by simpa using List.find?_some hf
    refine absurd ((mem_table p b q.2).1 ?_) (h q.2)
    rw [← h1]; exact List.mem_of_find?_eq_some hf

theorem utf8_len (u : Nat) : (utf8 u).length ≤ 4 := by
  unfold utf8
  repeat' split
  all_goals simp

theorem decodeByte_some {p : Page} {b : UInt8} {u : Nat} (h : Std p b.toNat u) : decodeByte (table p) b = some (utf8 u) := by
  unfold decodeByte
  rw [findCode_some h]
  simp only
  rw [fromCp_eq, if_pos (std_ok h).2.1, if_pos (Nat.le_trans (utf8_len u) (by omega))]

theorem decodeByte_none {p : Page} {b : UInt8} (h : ∀ u, ¬ Std p b.toNat u) : decodeByte (table p) b = none := by
  unfold decodeByte
  rw [findCode_none h]

end Verif.Codepage
