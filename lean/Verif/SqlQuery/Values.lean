import Verif.SqlQuery.Model
import Verif.Str.Props
/- The rewriting of a query for several rows and of its placeholders. -/
namespace Verif.SqlQuery

/-- Opening less closing parentheses. -/
def depth (s : List UInt8) : Int := (s.count 40 : Int) - (s.count 41 : Int)

/-- A group: from an opening parenthesis to the one that closes it. -/
def Group (g : List UInt8) : Prop :=
  g.head? = some 40 ∧ depth g = 0 ∧ ∀ p s, g = p ++ s → p ≠ [] → s ≠ [] → depth p > 0

/-- The word `values` in either case. -/
def ValuesWord (v : List UInt8) : Prop := Str.Alike true v [86, 65, 76, 85, 69, 83]

/-- A text holds the word `values` followed at once by an opening parenthesis. -/
def HasValues (q : List UInt8) : Prop := ∃ a v b, q = a ++ v ++ 40 :: b ∧ ValuesWord v

/-- The value of a text of decimal digits. -/
def decVal (s : List UInt8) : Nat := s.foldl (fun a c => 10 * a + (c.toNat - 48)) 0

/-- The decimal form of a positive number. -/
def Dec (n : Nat) (s : List UInt8) : Prop := (∀ c ∈ s, 48 ≤ c.toNat ∧ c.toNat ≤ 57) ∧ s ≠ [] ∧ s.head? ≠ some 48 ∧ decVal s = n

theorem depth_cons (c : UInt8) (s : List UInt8) : depth (c :: s) = depth s + (if c = 40 then 1 else if c = 41 then -1 else 0) := by
  unfold depth
  rw [List.count_cons, List.count_cons]
  by_cases h : c = 40
  · subst h; simp; omega
  · by_cases h2 : c = 41
    · subst h2; simp; omega
    · simp [h, h2]

theorem depth_nil : depth [] = 0 := rfl

theorem closeParen_some (s : List UInt8) : ∀ n a b, closeParen n s = some (a, b) ↔
    (s = a ++ b ∧ (n : Int) + depth a = 0 ∧ ∀ p t, a = p ++ t → t ≠ [] → (n : Int) + depth p > 0) := by
  induction s with
  | nil =>
    intro n a b
    cases n with
    | zero =>
      simp only [closeParen, Option.some.injEq, Prod.mk.injEq]
      constructor
      · rintro ⟨rfl, rfl⟩
        refine ⟨rfl, rfl, ?_⟩
        intro p t e ht
        simp at e
        exact absurd e.2 ht
      · rintro ⟨e, -, -⟩
        have := List.append_eq_nil_iff.1 e.symm
        exact ⟨this.1.symm, this.2.symm⟩
    | succ n =>
      simp only [closeParen, reduceCtorEq, false_iff, not_and]
      intro e h
      have := List.append_eq_nil_iff.1 e.symm
      rw [this.1, depth_nil] at h
      omega
  | cons c s ih =>
    intro n a b
    cases n with
    | zero =>
      simp only [closeParen, Option.some.injEq, Prod.mk.injEq]
      constructor
      · rintro ⟨rfl, rfl⟩
        refine ⟨rfl, rfl, ?_⟩
        intro p t e ht
        simp at e
        exact absurd e.2 ht
      · rintro ⟨e, -, h⟩
        cases a with
        | nil => exact ⟨rfl, e⟩
        | cons x a =>
          have := h [] (x :: a) rfl (by simp)
          rw [depth_nil] at this
          omega
    | succ n =>
      have key : ∀ a', (((if c = 40 then n + 2 else if c = 41 then n else n + 1 : Nat) : Int) + depth a') = ((n + 1 : Nat) : Int) + depth (c :: a') := by
        intro a'
        rw [depth_cons]
        split
        · omega
        · split <;> omega
      simp only [closeParen, Option.map_eq_some_iff]
      constructor
      · rintro ⟨⟨a', b'⟩, h, e⟩
        simp only [Prod.mk.injEq] at e
        obtain ⟨rfl, rfl⟩ := e
        obtain ⟨e, h1, h2⟩ := (ih _ _ _).1 h
        refine ⟨by rw [e]; rfl, ?_, ?_⟩
        · rw [← key]; exact h1
        · intro p t ep ht
          cases p with
          | nil => rw [depth_nil]; omega
          | cons x p =>
            simp only [List.cons_append, List.cons.injEq] at ep
            obtain ⟨rfl, ep⟩ := ep
            rw [← key]
            exact h2 p t ep ht
      · rintro ⟨e, h1, h2⟩
        cases a with
        | nil => rw [depth_nil] at h1; omega
        | cons x a =>
          simp only [List.cons_append, List.cons.injEq] at e
          obtain ⟨rfl, e⟩ := e
          refine ⟨(a, b), (ih _ _ _).2 ⟨e, ?_, ?_⟩, rfl⟩
          · rw [key]; exact h1
          · intro p t ep ht
            rw [key]
            exact h2 (c :: p) t (by rw [ep]; rfl) ht

theorem closeParen_none (s : List UInt8) : ∀ n, closeParen n s = none ↔ ∀ p t, s = p ++ t → (n : Int) + depth p > 0 := by
  induction s with
  | nil =>
    intro n
    cases n with
    | zero =>
      simp only [closeParen, reduceCtorEq, false_iff]
      intro h
      have := h [] [] rfl
      rw [depth_nil] at this
      omega
    | succ n =>
      simp only [closeParen, true_iff]
      intro p t e
      have := List.append_eq_nil_iff.1 e.symm
      rw [this.1, depth_nil]
      omega
  | cons c s ih =>
    intro n
    cases n with
    | zero =>
      simp only [closeParen, reduceCtorEq, false_iff]
      intro h
      have := h [] (c :: s) rfl
      rw [depth_nil] at this
      omega
    | succ n =>
      have key : ∀ a', (((if c = 40 then n + 2 else if c = 41 then n else n + 1 : Nat) : Int) + depth a') = ((n + 1 : Nat) : Int) + depth (c :: a') := by
        intro a'
        rw [depth_cons]
        split
        · omega
        · split <;> omega
      simp only [closeParen, Option.map_eq_none_iff, ih]
      constructor
      · intro h p t e
        cases p with
        | nil => rw [depth_nil]; omega
        | cons x p =>
          simp only [List.cons_append, List.cons.injEq] at e
          obtain ⟨rfl, e⟩ := e
          rw [← key]
          exact h p t e
      · intro h p t e
        rw [key]
        exact h (c :: p) t (by rw [e]; rfl)

theorem copies_succ (g : List UInt8) : ∀ n i, copies g (i + 1) n = (List.replicate n (44 :: g)).flatten := by
  intro n
  induction n with
  | zero => intro i; rfl
  | succ n ih => intro i; rw [copies, if_pos (by omega), ih, List.replicate_succ]; simp

theorem copies_eq (g : List UInt8) (n : Nat) : copies g 0 n = List.intercalate [44] (List.replicate n g) := by
  cases n with
  | zero => rfl
  | succ n =>
    rw [copies, if_neg (by simp), copies_succ, List.nil_append, List.replicate_succ]
    induction n with
    | zero => simp [List.intercalate]
    | succ n ih =>
      rw [List.replicate_succ, List.replicate_succ, List.flatten_cons]
      simp only [List.intercalate, List.intersperse] at ih ⊢
      cases n with
      | zero => simp
      | succ n =>
        simp only [List.replicate_succ, List.intersperse, List.flatten_cons] at ih ⊢
        simp at ih ⊢
        exact ih

theorem count_copies (c : UInt8) (g : List UInt8) (n : Nat) (hc : c ≠ 44) : (copies g 0 n).count c = n * g.count c := by
  cases n with
  | zero => simp [copies]
  | succ n =>
    rw [copies, if_neg (by simp), copies_succ, List.nil_append, List.count_append]
    have : ((List.replicate n (44 :: g)).flatten).count c = n * g.count c := by
      induction n with
      | zero => simp
      | succ n ih =>
        rw [List.replicate_succ, List.flatten_cons, List.count_append, ih, List.count_cons_of_ne (by exact fun h => hc h.symm), Nat.succ_mul]
        omega
    rw [this, Nat.succ_mul]
    omega

theorem alike_append {ci : Bool} : ∀ {a b c d : List UInt8}, Str.Alike ci a b → Str.Alike ci c d → Str.Alike ci (a ++ c) (b ++ d)
  | _, _, _, _, .nil, h => h
  | _, _, _, _, .cons e t, h => .cons e (alike_append t h)

theorem alike_length {ci : Bool} : ∀ {a b : List UInt8}, Str.Alike ci a b → a.length = b.length
  | _, _, .nil => rfl
  | _, _, .cons _ t => congrArg (· + 1) (alike_length t)

theorem alike_split {ci : Bool} : ∀ (b d : List UInt8) {q : List UInt8}, Str.Alike ci q (b ++ d) → ∃ x y, q = x ++ y ∧ Str.Alike ci x b ∧ Str.Alike ci y d
  | [], _, _, h => ⟨[], _, rfl, .nil, h⟩
  | _ :: b, d, _, .cons e t => by
    obtain ⟨x, y, rfl, hx, hy⟩ := alike_split b d t
    exact ⟨_ :: x, y, rfl, .cons e hx, hy⟩

theorem alike_paren {y : List UInt8} (h : Str.Alike true y [40]) : y = [40] := by
  cases h with
  | cons e t =>
    cases t
    rcases e with e | ⟨-, ⟨h1, h2, e⟩ | ⟨h1, h2, e⟩⟩
    · rw [e]
    · exfalso
      have := congrArg UInt8.toNat e
      rw [UInt8.toNat_add] at this
      have h1' := UInt8.le_iff_toNat_le.1 h1
      have h2' := UInt8.le_iff_toNat_le.1 h2
      have e1 : (40 : UInt8).toNat = 40 := rfl
      have e2 : (32 : UInt8).toNat = 32 := rfl
      have e3 : (65 : UInt8).toNat = 65 := rfl
      have e4 : (90 : UInt8).toNat = 90 := rfl
      omega
    · exfalso
      have h1' := UInt8.le_iff_toNat_le.1 h1
      have e1 : (40 : UInt8).toNat = 40 := rfl
      have e3 : (65 : UInt8).toNat = 65 := rfl
      omega

theorem valuesParen_split {x : List UInt8} : Str.Alike true x valuesParen ↔ ∃ v, x = v ++ [40] ∧ ValuesWord v := by
  constructor
  · intro h
    obtain ⟨v, y, rfl, h1, h2⟩ := alike_split [86, 65, 76, 85, 69, 83] [40] h
    rw [alike_paren h2]
    exact ⟨v, rfl, h1⟩
  · rintro ⟨v, rfl, h⟩
    exact alike_append h (.cons (.inl rfl) .nil)

theorem group_iff (r : List UInt8) : Group (40 :: r) ↔ ((1 : Nat) : Int) + depth r = 0 ∧ ∀ p t, r = p ++ t → t ≠ [] → ((1 : Nat) : Int) + depth p > 0 := by
  unfold Group
  rw [depth_cons, if_pos rfl]
  constructor
  · rintro ⟨-, h1, h2⟩
    refine ⟨by omega, ?_⟩
    intro p t e ht
    have := h2 (40 :: p) t (by rw [e]; rfl) (by simp) ht
    rw [depth_cons, if_pos rfl] at this
    omega
  · rintro ⟨h1, h2⟩
    refine ⟨rfl, by omega, ?_⟩
    intro p t e hp ht
    cases p with
    | nil => exact absurd rfl hp
    | cons x p =>
      simp only [List.cons_append, List.cons.injEq] at e
      obtain ⟨rfl, e⟩ := e
      rw [depth_cons, if_pos rfl]
      have := h2 p t e ht
      omega

/-- Where the loop finds the word, as `k`: the first place. -/
theorem casestr_values (q : List UInt8) : match Str.casestr q valuesParen with
    | some k => ∃ a v b, q = a ++ v ++ 40 :: b ∧ ValuesWord v ∧ k = a.length ∧ ¬ HasValues (a ++ v) ∧ (∀ a' v' b', q = a' ++ v' ++ 40 :: b' → ValuesWord v' → a.length ≤ a'.length)
    | none => ¬ HasValues q := by
  have h := Str.casestr_correct q valuesParen
  split
  · rename_i k hk
    rw [hk] at h
    obtain ⟨p, x, r, e, hk', hx, hf⟩ := h
    obtain ⟨v, rfl, hv⟩ := valuesParen_split.1 hx
    have hf' : ∀ a' v' b', q = a' ++ v' ++ 40 :: b' → ValuesWord v' → p.length ≤ a'.length := by
      intro a' v' b' e' hv'
      exact hf a' (v' ++ [40]) b' (by rw [e']; simp) (valuesParen_split.2 ⟨v', rfl, hv'⟩)
    refine ⟨p, v, r, by rw [e]; simp, hv, hk', ?_, hf'⟩
    rintro ⟨a', v', b', e', hv'⟩
    have := hf' a' v' (b' ++ 40 :: r) (by rw [e]; rw [show p ++ (v ++ [40]) ++ r = (p ++ v) ++ 40 :: r by simp, e']; simp) hv'
    have hl := congrArg List.length e'
    have l1 := alike_length hv
    have l2 := alike_length hv'
    simp at hl l1 l2
    omega
  · rename_i hk
    rw [hk] at h
    rintro ⟨a, v, b, e, hv⟩
    rcases h with h | h
    · rw [h] at e
      simp at e
    · exact h a (v ++ [40]) b (by rw [e]; simp) (valuesParen_split.2 ⟨v, rfl, hv⟩)

theorem digits_dec (n : Nat) : n ≠ 0 → Dec n (digits n) := by
  induction n using Nat.strongRecOn with
  | _ n ih =>
    intro h0
    have tn : ∀ k, k < 10 → (UInt8.ofNat (48 + k)).toNat = 48 + k := by
      intro k hk
      rw [UInt8.toNat_ofNat']
      omega
    rw [digits]
    by_cases h : n < 10
    · rw [if_pos h]
      refine ⟨?_, by simp, ?_, ?_⟩
      · intro c hc
        rw [List.mem_singleton.1 hc, tn n h]
        omega
      · intro e
        simp only [List.head?_cons, Option.some.injEq] at e
        have := congrArg UInt8.toNat e
        rw [tn n h] at this
        have e1 : (48 : UInt8).toNat = 48 := rfl
        omega
      · simp only [decVal, List.foldl_cons, List.foldl_nil]
        rw [tn n h]
        omega
    · rw [if_neg h]
      obtain ⟨h1, h2, h3, h4⟩ := ih (n / 10) (by omega) (by omega)
      refine ⟨?_, by simp, ?_, ?_⟩
      · intro c hc
        rcases List.mem_append.1 hc with hc | hc
        · exact h1 c hc
        · rw [List.mem_singleton.1 hc, tn _ (Nat.mod_lt _ (by omega))]
          have := Nat.mod_lt n (show 0 < 10 by omega)
          omega
      · cases hd : digits (n / 10) with
        | nil => exact absurd hd h2
        | cons x l =>
          rw [hd] at h3
          simpa using h3
      · unfold decVal at h4 ⊢
        rw [List.foldl_append, h4]
        simp only [List.foldl_cons, List.foldl_nil]
        rw [tn _ (Nat.mod_lt _ (by omega))]
        omega

theorem number_append_free (s : UInt8) (p r : List UInt8) (h : (63 : UInt8) ∉ p) : ∀ id, number s id (p ++ r) = p ++ number s id r := by
  induction p with
  | nil => intro id; rfl
  | cons c p ih =>
    intro id
    rw [List.cons_append, number, if_neg (fun e => h (by rw [e]; simp)), ih (fun e => h (by simp [e]))]
    rfl

end Verif.SqlQuery
