import Verif.SkipList.Model
/- Lemmas for C88. -/
namespace Verif.SkipList

variable {α : Type _}

/-- An entry: the node, its value and its number of levels. -/
abbrev E (α : Type _) := Nat × α × Nat

def ids (l : List (E α)) : List Nat := l.map (·.1)

/-- The entries that are in level `i`. -/
def lay (i : Nat) (l : List (E α)) : List (E α) := l.filter fun e => decide (i < e.2.2)

def hd (l : List (E α)) (q : Option Nat) : Option Nat :=
  match l with
  | [] => q
  | e :: _ => some e.1

def lst (p : Option Nat) : List (E α) → Option Nat
  | [] => p
  | e :: r => lst (some e.1) r

def Linked (nx pv : Nat → Option Nat) : Option Nat → List (E α) → Option Nat → Prop
  | _, [], _ => True
  | p, e :: r, q => nx e.1 = hd r q ∧ pv e.1 = p ∧ Linked nx pv (some e.1) r q

@[simp] theorem hd_nil (q : Option Nat) : hd ([] : List (E α)) q = q := rfl
@[simp] theorem hd_cons (e : E α) (r) (q : Option Nat) : hd (e :: r) q = some e.1 := rfl
@[simp] theorem lst_nil (p : Option Nat) : lst p ([] : List (E α)) = p := rfl
@[simp] theorem lst_cons (p : Option Nat) (e : E α) (r) : lst p (e :: r) = lst (some e.1) r := rfl
theorem lst_append (A B : List (E α)) : ∀ p, lst p (A ++ B) = lst (lst p A) B := by
  induction A with
  | nil => intro p; rfl
  | cons e r ih => intro p; simp [ih]
@[simp] theorem lst_concat (p : Option Nat) (A : List (E α)) (e : E α) : lst p (A ++ [e]) = some e.1 := by simp [lst_append]
theorem hd_append (A B : List (E α)) (q : Option Nat) : hd (A ++ B) q = hd A (hd B q) := by cases A <;> rfl

theorem lst_mem {A : List (E α)} {p : Option Nat} {x : Nat} : lst p A = some x → p = some x ∨ x ∈ ids A := by
  induction A generalizing p with
  | nil => intro h; exact .inl h
  | cons e r ih =>
    intro h
    rcases ih h with h | h
    · exact .inr (by simp at h; simp [ids, h])
    · exact .inr (by simp [ids] at h ⊢; exact .inr h)

theorem lst_ne {A : List (E α)} (h : A ≠ []) (p q : Option Nat) : lst p A = lst q A := by
  cases A with
  | nil => exact absurd rfl h
  | cons => rfl

theorem linked_append {nx pv} (A B : List (E α)) : ∀ p q, Linked nx pv p (A ++ B) q ↔ Linked nx pv p A (hd B q) ∧ Linked nx pv (lst p A) B q := by
  induction A with
  | nil => intro p q; simp [Linked]
  | cons e r ih => intro p q; simp [Linked, ih, hd_append, and_assoc]

theorem linked_set {nx pv nx' pv' : Nat → Option Nat} : ∀ (A : List (E α)) {p q p' q' : Option Nat}, Linked nx pv p A q → (ids A).Nodup →
    (∀ x ∈ ids A, nx' x = if some x = lst none A then q' else nx x) → (∀ x ∈ ids A, pv' x = if some x = hd A none then p' else pv x) →
    Linked nx' pv' p' A q' := by
  intro A
  induction A with
  | nil => intros; trivial
  | cons e r ih =>
    intro p q p' q' h hn h1 h2
    simp only [ids, List.map_cons, List.nodup_cons] at hn
    refine ⟨?_, ?_, ih h.2.2 hn.2 ?_ ?_⟩
    · rw [h1 _ (by simp [ids])]
      cases r with
      | nil => simp
      | cons f r' =>
        rw [if_neg, h.1]
        · rfl
        intro hx
        rcases lst_mem hx.symm with hc | hc
        · exact absurd hc (by simp)
        · simp only [ids, List.map_cons, List.mem_cons] at hc
          simp only [List.map_cons, List.mem_cons] at hn
          rcases hc with hc | hc
          · exact (lst_mem (A := f :: r') (p := none) (by rw [lst_ne (by simp) none (some e.1)]; exact hx.symm)).elim (by simp) fun hh => hn.1 (by simpa [ids] using hh)
          · exact hn.1 (by simpa [ids] using hc)
    · rw [h2 _ (by simp [ids])]; simp
    · intro x hx
      rw [h1 _ (by simp [ids] at hx ⊢; exact .inr hx)]
      have : r ≠ [] := by rintro rfl; simp [ids] at hx
      simp [lst_ne this (some e.1) none]
    · intro x hx
      have hne : x ≠ e.1 := by rintro rfl; exact hn.1 hx
      rw [h2 _ (by simp [ids] at hx ⊢; exact .inr hx)]
      simp only [hd_cons, Option.some.injEq, hne, ↓reduceIte]
      split
      · cases r with
        | nil => simp [ids] at hx
        | cons f r' =>
          have := h.2.2.2.1
          simp only [hd_cons, Option.some.injEq] at *
          rename_i hxe
          rw [hxe, this]
      · rfl

theorem linked_congr {nx pv nx' pv' : Nat → Option Nat} : ∀ (A : List (E α)) {p q : Option Nat}, Linked nx pv p A q →
    (∀ x ∈ ids A, nx' x = nx x ∧ pv' x = pv x) → Linked nx' pv' p A q := by
  intro A
  induction A with
  | nil => intros; trivial
  | cons e r ih =>
    intro p q h h1
    have := h1 e.1 (by simp [ids])
    exact ⟨by rw [this.1]; exact h.1, by rw [this.2]; exact h.2.1, ih h.2.2 fun x hx => h1 x (by simp [ids] at hx ⊢; exact .inr hx)⟩

theorem ids_append (A B : List (E α)) : ids (A ++ B) = ids A ++ ids B := by simp [ids]
theorem hd_mem {A : List (E α)} {q : Option Nat} {x : Nat} : hd A q = some x → q = some x ∨ x ∈ ids A := by
  cases A with
  | nil => intro h; exact .inl h
  | cons e r => intro h; simp at h; exact .inr (by simp [ids, h])

theorem linked_insert {nx pv nx' pv' : Nat → Option Nat} (A B : List (E α)) (e : E α) (h : Linked nx pv none (A ++ B) none)
    (hn : (ids (A ++ B)).Nodup) (hf : e.1 ∉ ids (A ++ B)) (h1 : nx' e.1 = hd B none) (h2 : pv' e.1 = lst none A)
    (h3 : ∀ x, x ≠ e.1 → nx' x = if some x = lst none A then some e.1 else nx x)
    (h4 : ∀ x, x ≠ e.1 → pv' x = if some x = hd B none then some e.1 else pv x) : Linked nx' pv' none (A ++ e :: B) none := by
  obtain ⟨ha, hb⟩ := (linked_append A B none none).1 h
  rw [ids_append] at hn hf
  obtain ⟨hna, hnb, hd'⟩ := List.nodup_append.1 hn
  simp only [List.mem_append, not_or] at hf
  refine (linked_append A _ none none).2 ⟨linked_set A ha hna ?_ ?_, h1, h2, linked_set B hb hnb ?_ ?_⟩
  · intro x hx
    exact h3 x (by rintro rfl; exact hf.1 hx)
  · intro x hx
    have hne : x ≠ e.1 := by rintro rfl; exact hf.1 hx
    rw [h4 x hne, if_neg]
    · split
      · cases A with
        | nil => simp [ids] at hx
        | cons a A' =>
          rename_i hxa
          simp only [hd_cons, Option.some.injEq] at hxa
          rw [hxa]
          exact ha.2.1
      · rfl
    · intro hc
      rcases hd_mem hc.symm with hc | hc
      · cases hc
      · exact hd' x hx x hc rfl
  · intro x hx
    have hne : x ≠ e.1 := by rintro rfl; exact hf.2 hx
    rw [h3 x hne, if_neg]
    · split
      · rename_i hl
        have hB : B ≠ [] := by rintro rfl; simp [ids] at hx
        obtain ⟨B', b, rfl⟩ := List.eq_nil_or_concat B |>.resolve_left hB
        rw [List.concat_eq_append] at *
        rw [lst_concat] at hl
        simp only [Option.some.injEq] at hl
        rw [hl]
        exact (((linked_append B' [b] _ _).1 hb).2).1
      · rfl
    · intro hc
      rcases lst_mem hc.symm with hc | hc
      · cases hc
      · exact hd' x hc x hx rfl
  · intro x hx
    have hne : x ≠ e.1 := by rintro rfl; exact hf.2 hx
    rw [h4 x hne]

theorem linked_remove {nx pv nx' pv' : Nat → Option Nat} (A B : List (E α)) (e : E α) (h : Linked nx pv none (A ++ e :: B) none)
    (hn : (ids (A ++ e :: B)).Nodup)
    (h3 : ∀ x, x ≠ e.1 → nx' x = if some x = lst none A then hd B none else nx x)
    (h4 : ∀ x, x ≠ e.1 → pv' x = if some x = hd B none then lst none A else pv x) : Linked nx' pv' none (A ++ B) none := by
  obtain ⟨ha, _, _, hb⟩ := (linked_append A (e :: B) none none).1 h
  rw [ids_append] at hn
  obtain ⟨hna, hnb, hd'⟩ := List.nodup_append.1 hn
  simp only [ids, List.map_cons, List.nodup_cons] at hnb
  refine (linked_append A _ none none).2 ⟨linked_set A ha hna ?_ ?_, linked_set B hb hnb.2 ?_ ?_⟩
  · intro x hx
    exact h3 x (by rintro rfl; exact hd' e.1 hx e.1 (by simp [ids]) rfl)
  · intro x hx
    have hne : x ≠ e.1 := by rintro rfl; exact hd' e.1 hx e.1 (by simp [ids]) rfl
    rw [h4 x hne, if_neg]
    · split
      · cases A with
        | nil => simp [ids] at hx
        | cons a A' =>
          rename_i hxa
          simp only [hd_cons, Option.some.injEq] at hxa
          rw [hxa]
          exact ha.2.1
      · rfl
    · intro hc
      rcases hd_mem hc.symm with hc | hc
      · cases hc
      · exact hd' x hx x (by simp [ids] at hc ⊢; exact .inr hc) rfl
  · intro x hx
    have hne : x ≠ e.1 := by rintro rfl; exact hnb.1 hx
    rw [h3 x hne, if_neg]
    · split
      · rename_i hl
        have hB : B ≠ [] := by rintro rfl; simp [ids] at hx
        obtain ⟨B', b, rfl⟩ := List.eq_nil_or_concat B |>.resolve_left hB
        rw [List.concat_eq_append] at *
        rw [lst_concat] at hl
        simp only [Option.some.injEq] at hl
        rw [hl]
        exact (((linked_append B' [b] _ _).1 hb).2).1
      · rfl
    · intro hc
      rcases lst_mem hc.symm with hc | hc
      · cases hc
      · exact hd' x hc x (by simp [ids] at hx ⊢; exact .inr hx) rfl
  · intro x hx
    have hne : x ≠ e.1 := by rintro rfl; exact hnb.1 hx
    rw [h4 x hne]

end Verif.SkipList
