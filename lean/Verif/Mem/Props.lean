import Verif.Mem.Model
/-! C36 and C37: memory comparison, search and byte order. -/
namespace Verif.Mem

theorem or_zero (a b : UInt8) : a ||| b = 0 ↔ a = 0 ∧ b = 0 := by
  constructor
  · intro h
    have h' := congrArg UInt8.toNat h
    rw [UInt8.toNat_or] at h'
    have h1 : a.toNat ≤ a.toNat ||| b.toNat := Nat.left_le_or
    have h2 : b.toNat ≤ a.toNat ||| b.toNat := Nat.right_le_or
    rw [h'] at h1 h2
    exact ⟨UInt8.toNat.inj (Nat.le_zero.1 h1), UInt8.toNat.inj (Nat.le_zero.1 h2)⟩
  · rintro ⟨rfl, rfl⟩; rfl

theorem xor_zero (a b : UInt8) : a ^^^ b = 0 ↔ a = b := by
  constructor
  · intro h
    have h' := congrArg UInt8.toBitVec h
    have : a.toBitVec ^^^ b.toBitVec = 0 := h'
    apply UInt8.toBitVec_inj.1
    apply BitVec.eq_of_getLsbD_eq
    intro i hi
    have := congrArg (fun v => v.getLsbD i) this
    simpa using this
  · rintro rfl; simp

theorem eqLoop_zero (a b : List UInt8) : ∀ acc, a.length = b.length → (eqLoop acc a b = 0 ↔ acc = 0 ∧ a = b) := by
  induction a generalizing b with
  | nil => intro acc h; rw [List.length_nil] at h; rw [List.length_eq_zero_iff.1 h.symm]; simp [eqLoop]
  | cons x a ih =>
    intro acc h
    cases b with
    | nil => simp at h
    | cons y b =>
      rw [eqLoop, ih b _ (by simpa using h), or_zero, xor_zero]
      simp only [List.cons.injEq, and_assoc]

/-- `M_mem_eq`: the bytes are the same. -/
theorem memEq_correct (a b : List UInt8) (n : Nat) (ha : n ≤ a.length) (hb : n ≤ b.length) : memEq a b n = some (decide (a.take n = b.take n)) := by
  unfold memEq
  rw [if_neg (by omega)]
  congr 1
  have := eqLoop_zero (a.take n) (b.take n) 0 (by simp; omega)
  simp only [true_and] at this
  exact decide_eq_decide.2 this

example : memEq [1, 2, 3, 4] [1, 2, 3, 5] 3 = some true ∧ memEq [1, 2, 3, 4] [1, 2, 3, 5] 4 = some false ∧ memEq [1, 3] [1, 1] 2 = some false := by decide

theorem memchr_spec (b : UInt8) (l : List UInt8) :
    match memchr b l with
    | none => b ∉ l
    | some d => l[d]? = some b ∧ ∀ j < d, l[j]? ≠ some b := by
  induction l with
  | nil => simp [memchr]
  | cons a l ih =>
    rw [memchr]
    by_cases h : a = b
    · rw [if_pos h]; subst h; simp
    · rw [if_neg h]
      cases hm : memchr b l with
      | none => rw [hm] at ih; simp only [Option.map_none]; simp only at ih; simp [ih]; exact fun e => h e.symm
      | some d =>
        rw [hm] at ih
        simp only [Option.map_some]
        refine ⟨by simpa using ih.1, ?_⟩
        intro j hj
        cases j with
        | zero => simpa using h
        | succ j => simpa using ih.2 j (by omega)

/-- The needle occurs at index `i`. -/
def At (hay needle : List UInt8) (i : Nat) : Prop := i + needle.length ≤ hay.length ∧ (hay.drop i).take needle.length = needle

theorem at_iff (hay needle : List UInt8) (i : Nat) : At hay needle i ↔ ∃ p q, hay = p ++ needle ++ q ∧ p.length = i := by
  constructor
  · rintro ⟨h1, h2⟩
    refine ⟨hay.take i, (hay.drop i).drop needle.length, ?_, by simp; omega⟩
    conv => lhs; rw [← List.take_append_drop i hay, ← List.take_append_drop needle.length (hay.drop i), h2]
    rw [List.append_assoc]
  · rintro ⟨p, q, rfl, rfl⟩
    refine ⟨by simp, ?_⟩
    rw [List.append_assoc, List.drop_left, List.take_left]

theorem memEq_at (hay needle : List UInt8) (i : Nat) (h : i + needle.length ≤ hay.length) :
    ∃ eq, memEq (hay.drop i) needle needle.length = some eq ∧ (eq = true ↔ At hay needle i) := by
  refine ⟨_, memEq_correct _ _ _ (by rw [List.length_drop]; omega) (Nat.le_refl _), ?_⟩
  rw [decide_eq_true_iff, List.take_length]
  exact ⟨fun e => ⟨h, e⟩, fun e => e.2⟩

theorem memLoop_spec (hay : List UInt8) (first : UInt8) (rest : List UInt8) (hlen : (first :: rest).length ≤ hay.length) :
    ∀ fuel i, hay.length < fuel + i → i ≤ hay.length → (∀ j < i, ¬ At hay (first :: rest) j) →
    ∃ r, memLoop hay (first :: rest) first fuel i = some r ∧
      match r with
      | none => ∀ j, ¬ At hay (first :: rest) j
      | some k => At hay (first :: rest) k ∧ ∀ j < k, ¬ At hay (first :: rest) j := by
  intro fuel
  have hbyte : ∀ j, At hay (first :: rest) j → hay[j]? = some first := by
    rintro j ⟨h1, h2⟩
    have := congrArg (fun l => l[0]?) h2
    simp only [List.length_cons, List.getElem?_cons_zero] at this
    rw [List.getElem?_take_of_lt (by omega), List.getElem?_drop] at this
    simpa using this
  induction fuel with
  | zero =>
    intro i hf hi0 hprev
    omega
  | succ fuel ih =>
    intro i hf hi0 hprev
    rw [memLoop]
    by_cases hi : i ≤ hay.length - (first :: rest).length
    · rw [if_pos hi]
      have hc := memchr_spec first (hay.drop i)
      cases hm : memchr first (hay.drop i) with
      | none =>
        rw [hm] at hc
        refine ⟨none, rfl, ?_⟩
        intro j hj
        have hb := hbyte j hj
        by_cases hji : j < i
        · exact hprev j hji hj
        · apply hc
          rw [List.mem_iff_getElem?]
          exact ⟨j - i, by rw [List.getElem?_drop, ← hb]; congr 1; omega⟩
      | some d =>
        rw [hm] at hc
        simp only
        have hprev' : ∀ j < i + d, ¬ At hay (first :: rest) j := by
          intro j hj ha
          by_cases hji : j < i
          · exact hprev j hji ha
          · apply hc.2 (j - i) (by omega)
            rw [List.getElem?_drop, ← hbyte j ha]; congr 1; omega
        by_cases hd : i + d > hay.length - (first :: rest).length
        · rw [if_pos hd]
          refine ⟨none, rfl, ?_⟩
          intro j ha
          by_cases hj : j < i + d
          · exact hprev' j hj ha
          · have := ha.1; omega
        · rw [if_neg hd]
          obtain ⟨eq, e1, e2⟩ := memEq_at hay (first :: rest) (i + d) (by omega)
          rw [e1, Option.bind_some]
          by_cases heq : eq = true
          · rw [if_pos heq]
            exact ⟨_, rfl, e2.1 heq, hprev'⟩
          · rw [if_neg heq]
            apply ih (i + d + 1) (by omega) (by rw [List.length_cons] at *; omega)
            intro j hj
            by_cases hjd : j = i + d
            · subst hjd; exact fun h => heq (e2.2 h)
            · exact hprev' j (by omega)
    · rw [if_neg hi]
      refine ⟨none, rfl, ?_⟩
      intro j ha
      by_cases hj : j < i
      · exact hprev j hj ha
      · have := ha.1; omega

/-- `M_mem_mem`, and so `M_mem_mempos` and `M_mem_contains`: the first occurrence, if the haystack is not empty. -/
theorem mem_correct (hay needle : List UInt8) : ∃ r, mem hay needle = some r ∧
    match r with
    | none => hay = [] ∨ ∀ p q, hay ≠ p ++ needle ++ q
    | some i => (∃ p q, hay = p ++ needle ++ q ∧ p.length = i) ∧ ∀ p q, hay = p ++ needle ++ q → i ≤ p.length := by
  unfold mem
  by_cases h0 : hay.length = 0 ∨ needle.length > hay.length
  · rw [if_pos h0]
    refine ⟨none, rfl, ?_⟩
    rcases h0 with h | h
    · exact Or.inl (List.length_eq_zero_iff.1 h)
    · right
      intro p q e
      have := congrArg List.length e
      simp at this
      omega
  · rw [if_neg h0]
    cases needle with
    | nil => exact ⟨_, rfl, ⟨[], hay, by simp, rfl⟩, fun p q _ => Nat.zero_le _⟩
    | cons first rest =>
      obtain ⟨r, e, hr⟩ := memLoop_spec hay first rest (by omega) (hay.length + 1) 0 (by omega) (by omega) (fun j hj => by omega)
      refine ⟨r, e, ?_⟩
      cases r with
      | none => right; intro p q e; exact hr p.length ((at_iff _ _ _).2 ⟨p, q, e, rfl⟩)
      | some k =>
        refine ⟨(at_iff _ _ _).1 hr.1, ?_⟩
        intro p q e
        apply Classical.byContradiction
        intro hn
        exact hr.2 p.length (by omega) ((at_iff _ _ _).2 ⟨p, q, e, rfl⟩)

example : mem [1, 1, 2, 1, 1, 2] [1, 2] = some (some 1) ∧ mem [1, 1, 2] [2, 1] = some none ∧ mem [1, 2, 1] [1, 2, 1] = some (some 0) := by decide

theorem rmemLoop_spec (hay needle : List UInt8) : ∀ i, i + needle.length ≤ hay.length + 1 → (∀ j, i ≤ j → ¬ At hay needle j) →
    ∃ r, rmemLoop hay needle i = some r ∧
      match r with
      | none => ∀ j, ¬ At hay needle j
      | some k => At hay needle k ∧ ∀ j, k < j → ¬ At hay needle j := by
  intro i
  induction i with
  | zero => intro _ h; exact ⟨none, rfl, fun j => h j (Nat.zero_le _)⟩
  | succ i ih =>
    intro hl h
    rw [rmemLoop]
    obtain ⟨eq, e1, e2⟩ := memEq_at hay needle i (by omega)
    rw [e1, Option.bind_some]
    by_cases heq : eq = true
    · rw [if_pos heq]
      exact ⟨_, rfl, e2.1 heq, fun j hj => h j hj⟩
    · rw [if_neg heq]
      apply ih (by omega)
      intro j hj
      by_cases hji : j = i
      · subst hji; exact fun h => heq (e2.2 h)
      · exact h j (by omega)

/-- `M_mem_rmem`: the last occurrence.  Missing: an empty needle (`rmem_empty_fails`). -/
theorem rmem_correct_partial (hay needle : List UInt8) (hn : needle ≠ []) : ∃ r, rmem hay needle = some r ∧
    match r with
    | none => ∀ p q, hay ≠ p ++ needle ++ q
    | some i => (∃ p q, hay = p ++ needle ++ q ∧ p.length = i) ∧ ∀ p q, hay = p ++ needle ++ q → p.length ≤ i := by
  have hnl : 0 < needle.length := List.length_pos_iff.2 hn
  have short : needle.length > hay.length → ∀ p q, hay ≠ p ++ needle ++ q := by
    intro h p q e
    have := congrArg List.length e
    simp at this
    omega
  unfold rmem
  by_cases h0 : hay.length = 0
  · rw [if_pos h0]; exact ⟨none, rfl, short (by omega)⟩
  · rw [if_neg h0, if_neg (by omega)]
    by_cases h1 : needle.length > hay.length
    · rw [if_pos h1]; exact ⟨none, rfl, short h1⟩
    · rw [if_neg h1]
      obtain ⟨r, e, hr⟩ := rmemLoop_spec hay needle (hay.length - needle.length + 1) (by omega) (fun j hj ha => by have := ha.1; omega)
      refine ⟨r, e, ?_⟩
      cases r with
      | none => intro p q e; exact hr p.length ((at_iff _ _ _).2 ⟨p, q, e, rfl⟩)
      | some k =>
        refine ⟨(at_iff _ _ _).1 hr.1, ?_⟩
        intro p q e
        apply Classical.byContradiction
        intro hn
        exact hr.2 p.length (by omega) ((at_iff _ _ _).2 ⟨p, q, e, rfl⟩)

example : rmem [1, 1, 2, 1, 1, 2, 1] [1, 2] = some (some 4) ∧ rmem [1, 1, 2] [2, 1] = some none := by decide

/-- The last occurrence of the empty needle is the end, the start is returned. -/
theorem rmem_empty_fails : rmem [1, 2] [] = some (some 0) ∧ ([1, 2] : List UInt8) = [1, 2] ++ [] ++ [] := by decide

/-- `M_mem_count`. -/
theorem count_correct (b : UInt8) (l : List UInt8) : countLoop b 0 l = (l.filter (· = b)).length := by
  have : ∀ n, countLoop b n l = n + (l.filter (· = b)).length := by
    induction l with
    | nil => intro n; rfl
    | cons a l ih =>
      intro n
      rw [countLoop, ih]
      by_cases h : a = b
      · rw [if_pos h, List.filter_cons_of_pos (by simpa using h), List.length_cons]; omega
      · rw [if_neg h, List.filter_cons_of_neg (by simpa using h)]
  rw [this, Nat.zero_add]

/-- `M_mem_swap_bytes` exchanges two bytes and changes nothing else. -/
theorem swapBytes_correct (s : List UInt8) (i j : Nat) (hi : i < s.length) (hj : j < s.length) :
    (swapBytes s i j).1 = true ∧ (swapBytes s i j).2.length = s.length ∧
    ∀ k, (swapBytes s i j).2[k]? = s[if k = i then j else if k = j then i else k]? := by
  unfold swapBytes
  rw [if_neg (by omega)]
  by_cases h : i = j
  · subst h
    rw [if_pos rfl]
    refine ⟨rfl, rfl, fun k => ?_⟩
    by_cases hk : k = i
    · subst hk; rw [if_pos rfl]
    · rw [if_neg hk, if_neg hk]
  · rw [if_neg h]
    refine ⟨rfl, by simp, fun k => ?_⟩
    simp only [List.getElem?_set, List.length_set, List.getD_eq_getElem?_getD, List.getElem?_eq_getElem hi, List.getElem?_eq_getElem hj, Option.getD_some]
    by_cases hki : k = i
    · subst hki
      simp [hi, hj, Ne.symm h]
    · by_cases hkj : k = j
      · subst hkj; simp [hi, hj, hki]
      · simp [hki, hkj, Ne.symm hki, Ne.symm hkj]

/-! ### The order of `M_mem_cmpsort` -/

theorem memcmp_zero (a b : List UInt8) (h : a.length = b.length) : memcmp a b = 0 ↔ a = b := by
  induction a generalizing b with
  | nil => rw [List.length_nil] at h; rw [List.length_eq_zero_iff.1 h.symm]; simp [memcmp]
  | cons x a ih =>
    cases b with
    | nil => simp at h
    | cons y b =>
      rw [memcmp]
      by_cases h1 : x < y
      · rw [if_pos h1]
        constructor
        · intro e; omega
        · intro e; injection e with e1 _; subst e1; exact absurd h1 (by simp)
      · rw [if_neg h1]
        by_cases h2 : y < x
        · rw [if_pos h2]
          constructor
          · intro e; omega
          · intro e; injection e with e1 _; subst e1; exact absurd h2 (by simp)
        · rw [if_neg h2, ih b (by simpa using h)]
          have : x = y := by
            apply UInt8.toNat.inj
            rw [UInt8.lt_iff_toNat_lt] at h1 h2
            omega
          simp [this]

theorem memcmp_antisymm (a b : List UInt8) : memcmp b a = - memcmp a b := by
  induction a generalizing b with
  | nil => cases b <;> rfl
  | cons x a ih =>
    cases b with
    | nil => rfl
    | cons y b =>
      rw [memcmp, memcmp]
      by_cases h1 : x < y
      · have h2 : ¬ y < x := by rw [UInt8.lt_iff_toNat_lt] at *; omega
        rw [if_neg h2, if_pos h1, if_pos h1]; rfl
      · by_cases h2 : y < x
        · rw [if_pos h2, if_neg h1, if_pos h2]
        · rw [if_neg h2, if_neg h1, if_neg h1, if_neg h2, ih]

theorem memcmp_trans (a b c : List UInt8) (h1 : a.length = b.length) (h2 : b.length = c.length) (hab : memcmp a b ≤ 0) (hbc : memcmp b c ≤ 0) :
    memcmp a c ≤ 0 := by
  induction a generalizing b c with
  | nil => cases c <;> simp [memcmp]
  | cons x a ih =>
    cases b with
    | nil => simp at h1
    | cons y b =>
      cases c with
      | nil => simp at h2
      | cons z c =>
        rw [memcmp] at hab hbc ⊢
        simp only [UInt8.lt_iff_toNat_lt] at *
        have h3 : memcmp a b ≤ 0 → memcmp b c ≤ 0 → memcmp a c ≤ 0 := ih b c (by simpa using h1) (by simpa using h2)
        by_cases e1 : x.toNat < y.toNat
        · by_cases e2 : y.toNat < z.toNat
          · rw [if_pos (by omega)]; omega
          · rw [if_neg e2] at hbc
            by_cases e3 : z.toNat < y.toNat
            · rw [if_pos e3] at hbc; omega
            · rw [if_pos (by omega)]; omega
        · rw [if_neg e1] at hab
          by_cases e1' : y.toNat < x.toNat
          · rw [if_pos e1'] at hab; omega
          · rw [if_neg e1'] at hab
            by_cases e2 : y.toNat < z.toNat
            · rw [if_pos (by omega)]; omega
            · rw [if_neg e2] at hbc
              by_cases e3 : z.toNat < y.toNat
              · rw [if_pos e3] at hbc; omega
              · rw [if_neg e3] at hbc
                rw [if_neg (by omega), if_neg (by omega)]
                exact h3 hab hbc

/-- The bytes of a buffer; NULL has none. -/
def contents (m : Option (List UInt8)) : List UInt8 := m.getD []

/-- The result only depends on the bytes. -/
theorem cmpsort_contents (a b : Option (List UInt8)) : cmpsort a b = cmpsort (some (contents a)) (some (contents b)) := by
  cases a with
  | none => cases b with
    | none => rfl
    | some b =>
      show cmpsort none (some b) = cmpsort (some []) (some b)
      cases b <;> simp [cmpsort]
  | some a => cases b with
    | none =>
      show cmpsort (some a) none = cmpsort (some a) (some [])
      cases a <;> simp [cmpsort]
    | some b => rfl

theorem cmpsort_some (a b : List UInt8) : cmpsort (some a) (some b) =
    if a.length < b.length then -1 else if a.length > b.length then 1 else memcmp a b := by
  unfold cmpsort
  simp only
  by_cases h : a.length = 0 ∧ b.length = 0
  · rw [if_pos h, if_neg (by omega), if_neg (by omega), List.length_eq_zero_iff.1 h.1, List.length_eq_zero_iff.1 h.2]; rfl
  · rw [if_neg h]

/-- `M_mem_cmpsort` is 0 exactly on equal bytes. -/
theorem cmpsort_eq (a b : Option (List UInt8)) : cmpsort a b = 0 ↔ contents a = contents b := by
  rw [cmpsort_contents, cmpsort_some]
  generalize contents a = a
  generalize contents b = b
  by_cases h1 : a.length < b.length
  · rw [if_pos h1]
    exact ⟨fun e => by omega, fun e => by rw [e] at h1; omega⟩
  · rw [if_neg h1]
    by_cases h2 : a.length > b.length
    · rw [if_pos h2]
      exact ⟨fun e => by omega, fun e => by rw [e] at h2; omega⟩
    · rw [if_neg h2]; exact memcmp_zero a b (by omega)

/-- Exchanging the arguments negates the result. -/
theorem cmpsort_antisymm (a b : Option (List UInt8)) : cmpsort b a = - cmpsort a b := by
  rw [cmpsort_contents, cmpsort_contents a b, cmpsort_some, cmpsort_some]
  generalize contents a = a
  generalize contents b = b
  by_cases h1 : a.length < b.length
  · rw [if_pos h1, if_neg (by omega), if_pos h1]; rfl
  · by_cases h2 : a.length > b.length
    · rw [if_pos h2, if_neg h1, if_pos h2]
    · rw [if_neg h1, if_neg h2, if_neg (by omega), if_neg (by omega), memcmp_antisymm]

/-- The order is transitive. -/
theorem cmpsort_trans (a b c : Option (List UInt8)) (hab : cmpsort a b ≤ 0) (hbc : cmpsort b c ≤ 0) : cmpsort a c ≤ 0 := by
  rw [cmpsort_contents, cmpsort_some] at *
  generalize contents a = a at *
  generalize contents b = b at *
  generalize contents c = c at *
  by_cases h1 : a.length < c.length
  · rw [if_pos h1]; omega
  · have h2 : b.length ≤ c.length := by
      apply Classical.byContradiction
      intro h
      rw [if_neg (by omega), if_pos (by omega)] at hbc
      omega
    have h3 : a.length ≤ b.length := by
      apply Classical.byContradiction
      intro h
      rw [if_neg (by omega), if_pos (by omega)] at hab
      omega
    rw [if_neg (by omega), if_neg (by omega)] at hab hbc ⊢
    exact memcmp_trans a b c (by omega) (by omega) hab hbc

example : cmpsort (some [1, 2]) (some [1, 3]) = -1 ∧ cmpsort (some [9]) (some [1, 3]) = -1 ∧ cmpsort none (some []) = 0 := by decide

end Verif.Mem
