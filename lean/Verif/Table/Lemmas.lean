import Verif.Table.Spec

/-! Laws of association lists and lists without repetition; the invariant of tables and their grid. -/

namespace Verif.Table

structure Eqv {α : Type} (eq : α → α → Bool) : Prop where
  refl : ∀ a, eq a a = true
  symm : ∀ a b, eq a b = eq b a
  trans : ∀ a b c, eq a b = true → eq b c = true → eq a c = true

theorem ideq_eqv : Eqv ideq :=
  ⟨fun a => beq_self_eq_true a, fun a b => by unfold ideq; exact Bool.eq_iff_iff.2 (by simp only [beq_iff_eq]; exact eq_comm),
   fun a b c h1 h2 => by unfold ideq at *; rw [beq_iff_eq] at *; exact h1.trans h2⟩

theorem low_eq (w : Bytes) : low w = w.map Chr.toLower := by
  unfold low
  refine List.map_congr_left fun c _ => ?_
  have h : ∀ c : Fin 256, (if 65 ≤ (UInt8.ofNat c.val).toNat ∧ (UInt8.ofNat c.val).toNat ≤ 90 then UInt8.ofNat c.val + 32 else UInt8.ofNat c.val)
      = Chr.toLower (UInt8.ofNat c.val) := by decide +kernel
  have := h ⟨c.toNat, c.toNat_lt⟩
  simpa using this

theorem nmeq_iff {ci : Bool} {a b : Bytes} : nmeq ci a b = true ↔ Alike ci a b := by
  unfold nmeq Alike
  rw [low_eq, low_eq]
  cases ci <;> simp

theorem Alike.refl {ci : Bool} (a : Bytes) : Alike ci a a := by unfold Alike; split <;> rfl
theorem Alike.symm {ci : Bool} {a b : Bytes} (h : Alike ci a b) : Alike ci b a := by
  unfold Alike at *; split <;> rename_i hc <;> simp only [hc] at h <;> exact Eq.symm h
theorem Alike.trans {ci : Bool} {a b c : Bytes} (h : Alike ci a b) (h' : Alike ci b c) : Alike ci a c := by
  unfold Alike at *; cases ci <;> exact Eq.trans h h'
theorem Alike.nil {ci : Bool} {a : Bytes} (h : Alike ci a []) : a = [] := by
  unfold Alike at h
  cases ci
  · exact h
  · simpa [low] using h

theorem nmeq_eqv (ci : Bool) : Eqv (nmeq ci) :=
  ⟨fun a => nmeq_iff.2 (.refl a), fun _ _ => Bool.eq_iff_iff.2 ⟨fun h => nmeq_iff.2 (nmeq_iff.1 h).symm, fun h => nmeq_iff.2 (nmeq_iff.1 h).symm⟩,
   fun _ _ _ h1 h2 => nmeq_iff.2 ((nmeq_iff.1 h1).trans (nmeq_iff.1 h2))⟩

section
variable {α β : Type} {eq : α → α → Bool}

theorem aget_nil (k : α) : aget eq ([] : List (α × β)) k = none := rfl

theorem aget_cons (p : α × β) (l : List (α × β)) (k : α) : aget eq (p :: l) k = if eq p.1 k then some p.2 else aget eq l k := by
  unfold aget
  rw [List.find?_cons]
  cases eq p.1 k <;> simp

theorem aget_append (l l' : List (α × β)) (k : α) : aget eq (l ++ l') k = (aget eq l k).or (aget eq l' k) := by
  induction l with
  | nil => simp [aget_nil]
  | cons p l ih => rw [List.cons_append, aget_cons, aget_cons, ih]; split <;> simp

theorem aget_isSome (l : List (α × β)) (k : α) : (aget eq l k).isSome = l.any fun p => eq p.1 k := by
  induction l with
  | nil => rfl
  | cons p l ih => rw [aget_cons, List.any_cons, ← ih]; cases eq p.1 k <;> simp

theorem aget_adel (h : Eqv eq) (l : List (α × β)) (k k' : α) : aget eq (adel eq l k) k' = if eq k k' then none else aget eq l k' := by
  induction l with
  | nil => simp [adel, aget_nil]
  | cons p l ih =>
    unfold adel at *
    rw [List.filter_cons, aget_cons]
    by_cases hp : eq p.1 k = true
    · rw [if_neg (by simp [hp]), ih]
      by_cases hk : eq k k' = true
      · rw [if_pos hk, if_pos hk]
      · rw [if_neg hk, if_neg hk, if_neg (fun hc => hk (h.trans _ _ _ (by rw [h.symm]; exact hp) hc))]
    · rw [if_pos (by simp [hp]), aget_cons, ih]
      by_cases hk : eq k k' = true
      · rw [if_pos hk, if_pos hk, if_neg (fun hc => hp (h.trans _ _ _ hc (by rw [h.symm]; exact hk)))]
      · rw [if_neg hk, if_neg hk]

theorem aget_aput (h : Eqv eq) (l : List (α × β)) (k k' : α) (v : β) :
    aget eq (aput eq l k v) k' = if eq k k' then some v else aget eq l k' := by
  unfold aput
  by_cases hl : (l.any fun p => eq p.1 k) = true
  · rw [if_pos hl]
    have key : ∀ l : List (α × β), aget eq (l.map fun p => if eq p.1 k = true then (p.1, v) else p) k' =
        if eq k k' = true ∧ (aget eq l k').isSome then some v else aget eq l k' := by
      intro l
      induction l with
      | nil => simp [aget_nil]
      | cons p l ih =>
        rw [List.map_cons, aget_cons, aget_cons, ih]
        by_cases hp : eq p.1 k' = true
        · by_cases hk : eq k k' = true
          · have : eq p.1 k = true := h.trans _ _ _ hp (by rw [h.symm]; exact hk)
            simp [hp, hk, this]
          · have : ¬ eq p.1 k = true := fun hc => hk (h.trans _ _ _ (by rw [h.symm]; exact hc) hp)
            simp [hp, hk, this]
        · have : (if eq p.1 k = true then (p.1, v) else p).1 = p.1 := by split <;> rfl
          rw [this, if_neg hp, if_neg hp]
    rw [key]
    by_cases hk : eq k k' = true
    · have : (aget eq l k').isSome = true := by
        rw [aget_isSome]
        obtain ⟨p, hp, hpk⟩ := List.any_eq_true.1 hl
        exact List.any_eq_true.2 ⟨p, hp, h.trans _ _ _ hpk hk⟩
      simp [hk, this]
    · simp [hk]
  · rw [if_neg hl, aget_append, aget_cons, aget_nil]
    by_cases hk : eq k k' = true
    · have : aget eq l k' = none := by
        rw [← Option.not_isSome_iff_eq_none, aget_isSome]
        intro hc
        obtain ⟨p, hp, hpk⟩ := List.any_eq_true.1 hc
        exact hl (List.any_eq_true.2 ⟨p, hp, h.trans _ _ _ hpk (by rw [h.symm]; exact hk)⟩)
      simp [hk, this]
    · simp [hk]

theorem aget_map {γ : Type} (l : List (α × β)) (f : β → γ) (k : α) : aget eq (l.map fun p => (p.1, f p.2)) k = (aget eq l k).map f := by
  induction l with
  | nil => rfl
  | cons p l ih => rw [List.map_cons, aget_cons, aget_cons, ih]; split <;> rfl

theorem aget_all_none (h : Eqv eq) (l : List (α × β)) : (∀ k, aget eq l k = none) ↔ l = [] := by
  constructor
  · intro hl
    cases l with
    | nil => rfl
    | cons p l => have := hl p.1; rw [aget_cons, if_pos (h.refl _)] at this; cases this
  · rintro rfl k; rfl

theorem aget_any (h : Eqv eq) (l : List (α × β)) {p : α × β} (hp : p ∈ l) : ∃ v, aget eq l p.1 = some v := by
  rw [← Option.isSome_iff_exists, aget_isSome]
  exact List.any_eq_true.2 ⟨p, hp, h.refl _⟩

end

theorem ideq_iff {a b : Nat} : ideq a b = true ↔ a = b := by simp [ideq]

theorem iget_iput {β : Type} (l : List (Nat × β)) (k k' : Nat) (v : β) : aget ideq (aput ideq l k v) k' = if k = k' then some v else aget ideq l k' := by
  rw [aget_aput ideq_eqv]
  by_cases h : k = k' <;> simp [h, ideq]

theorem iget_idel {β : Type} (l : List (Nat × β)) (k k' : Nat) : aget ideq (adel ideq l k) k' = if k = k' then none else aget ideq l k' := by
  rw [aget_adel ideq_eqv]
  by_cases h : k = k' <;> simp [h, ideq]

/-! Lists without repetition. -/

theorem nodup_inj {l : List Nat} (h : l.Nodup) {i j x : Nat} (hi : l[i]? = some x) (hj : l[j]? = some x) : i = j := by
  obtain ⟨h1, h2⟩ := List.getElem?_eq_some_iff.1 hi
  obtain ⟨h3, h4⟩ := List.getElem?_eq_some_iff.1 hj
  exact (List.getElem_inj h).1 (h2.trans h4.symm)

theorem map_set {β : Type} {l : List Nat} (h : l.Nodup) {i x : Nat} (hi : l[i]? = some x) (f f' : Nat → β)
    (hf : ∀ y ∈ l, y ≠ x → f' y = f y) : l.map f' = (l.map f).set i (f' x) := by
  apply List.ext_getElem?
  intro k
  rw [List.getElem?_set, List.getElem?_map, List.getElem?_map]
  by_cases hk : i = k
  · subst hk
    obtain ⟨h1, h2⟩ := List.getElem?_eq_some_iff.1 hi
    rw [if_pos rfl, List.length_map, if_pos h1, hi]; rfl
  · rw [if_neg hk]
    cases hx : l[k]? with
    | none => rfl
    | some y =>
      have hy : y ∈ l := List.mem_of_getElem? hx
      simp only [Option.map_some]
      rw [hf y hy (fun hc => hk (nodup_inj h hi (hc ▸ hx)))]

theorem filter_ne {l : List Nat} (h : l.Nodup) {i x : Nat} (hi : l[i]? = some x) : l.filter (· != x) = l.take i ++ l.drop (i + 1) := by
  induction l generalizing i with
  | nil => simp at hi
  | cons a l ih =>
    rw [List.nodup_cons] at h
    cases i with
    | zero =>
      simp only [List.getElem?_cons_zero, Option.some.injEq] at hi
      subst hi
      rw [List.filter_cons, if_neg (by simp)]
      simp only [List.take_zero, List.nil_append, Nat.zero_add, List.drop_succ_cons, List.drop_zero]
      exact List.filter_eq_self.2 fun y hy => by simp only [bne_iff_ne]; rintro rfl; exact h.1 hy
    | succ i =>
      rw [List.getElem?_cons_succ] at hi
      have hne : a ≠ x := by rintro rfl; exact h.1 (List.mem_of_getElem? hi)
      rw [List.filter_cons, if_pos (by simpa using hne), ih h.2 hi]
      simp

theorem mem_split {l : List Nat} {i x y : Nat} (h : l.Nodup) (hi : l[i]? = some x) : y ∈ l.take i ++ l.drop (i + 1) ↔ y ∈ l ∧ y ≠ x := by
  rw [← filter_ne h hi, List.mem_filter]; simp

theorem mem_ins {l : List Nat} {i x y : Nat} : y ∈ l.take i ++ x :: l.drop i ↔ y = x ∨ y ∈ l := by
  have : y ∈ l ↔ y ∈ l.take i ∨ y ∈ l.drop i := by
    rw [← List.mem_append, List.take_append_drop]
  rw [List.mem_append, List.mem_cons, this]
  constructor
  · rintro (h | h | h)
    · exact .inr (.inl h)
    · exact .inl h
    · exact .inr (.inr h)
  · rintro (h | h | h)
    · exact .inr (.inl h)
    · exact .inl h
    · exact .inr (.inr h)

theorem nodup_ins {l : List Nat} {i x : Nat} (h : l.Nodup) (hx : x ∉ l) : (l.take i ++ x :: l.drop i).Nodup := by
  have hp : (l.take i ++ x :: l.drop i).Perm (x :: l) := by
    refine List.perm_middle.trans ?_
    rw [List.take_append_drop]
  rw [hp.nodup_iff, List.nodup_cons]
  exact ⟨hx, h⟩

/-! Tables. -/

/-- The invariant. -/
structure Inv (t : Tbl) : Prop where
  ndc : t.cols.Nodup
  ndr : t.rows.Nodup
  names : ∀ k c, aget (nmeq t.ci) t.nameId k = some c ↔ c ∈ t.cols ∧ ∃ n, aget ideq t.idName c = some n ∧ Alike t.ci n k
  live : ∀ c n, aget ideq t.idName c = some n → c ∈ t.cols ∧ n ≠ []
  dataR : ∀ r d, aget ideq t.data r = some d → r ∈ t.rows
  dataC : ∀ p ∈ t.data, ∀ c v, aget ideq p.2 c = some v → c ∈ t.cols
  dup : ∀ p ∈ t.data, aget ideq t.data p.1 = some p.2
  ndf : t.rs.Nodup
  fresh : ∀ x ∈ t.rs, x ≠ 0 ∧ x ∉ t.cols ∧ x ∉ t.rows
  cols0 : 0 ∉ t.cols

/-- The grid of a table. -/
def abs (t : Tbl) : Grid := ⟨t.cols.map (aget ideq t.idName), t.rows.map fun r => t.cols.map (getInt t r)⟩

theorem abs_view (t : Tbl) : view t = abs t := by
  unfold view abs
  congr 1
  · apply List.ext_getElem?
    intro i
    rw [List.getElem?_map, List.getElem?_map]
    by_cases hi : i < t.cols.length
    · rw [List.getElem?_range hi, Option.map_some]
      unfold colName
      rw [if_neg (by omega), List.getElem?_eq_getElem hi]
      rfl
    · rw [List.getElem?_eq_none (by simp; omega), List.getElem?_eq_none (by omega)]; rfl
  · apply List.ext_getElem?
    intro i
    rw [List.getElem?_map, List.getElem?_map]
    by_cases hi : i < t.rows.length
    · rw [List.getElem?_range hi, List.getElem?_eq_getElem hi, Option.map_some, Option.map_some]
      congr 1
      apply List.ext_getElem?
      intro j
      rw [List.getElem?_map, List.getElem?_map]
      by_cases hj : j < t.cols.length
      · rw [List.getElem?_range hj, Option.map_some]
        unfold cellAt
        rw [List.getElem?_eq_getElem hj, List.getElem?_eq_getElem hi]
        rfl
      · rw [List.getElem?_eq_none (by simp; omega), List.getElem?_eq_none (by omega)]; rfl
    · rw [List.getElem?_eq_none (by simp; omega), List.getElem?_eq_none (by omega)]; rfl

theorem Inv.create (ci : Bool) {rs : List Nat} (h : rs.Nodup) (h0 : 0 ∉ rs) : Inv (create ci rs) := by
  constructor <;> simp [Table.create, aget_nil, h]
  intro x hx h'; exact h0 (h' ▸ hx)

theorem Inv.find {t : Tbl} (h : Inv t) (k : Bytes) : (abs t).find t.ci k = (aget (nmeq t.ci) t.nameId k).bind fun c => t.cols.findIdx? (· == c) := by
  unfold Grid.find abs
  dsimp only
  cases hk : aget (nmeq t.ci) t.nameId k with
  | none =>
    rw [Option.bind_none, List.findIdx?_eq_none_iff]
    intro n hn
    obtain ⟨c, hc, rfl⟩ := List.mem_map.1 hn
    cases hcn : aget ideq t.idName c with
    | none => rfl
    | some n =>
      simp only [Option.any_some, decide_eq_false_iff_not]
      intro ha
      rw [(h.names k c).2 ⟨hc, n, hcn, ha⟩] at hk; cases hk
  | some c =>
    rw [Option.bind_some, List.findIdx?_map]
    congr 1
    funext c'
    dsimp only [Function.comp]
    by_cases hcc : c' = c
    · subst hcc
      obtain ⟨_, n, hn, ha⟩ := (h.names k c').1 hk
      simp [hn, ha]
    · have : ¬ ((aget ideq t.idName c').any fun n => decide (Alike t.ci n k)) = true := by
        intro hc
        cases hn : aget ideq t.idName c' with
        | none => rw [hn] at hc; cases hc
        | some n =>
          rw [hn] at hc
          have ha : Alike t.ci n k := by simpa using hc
          have := (h.names k c').2 ⟨(h.live c' n hn).1, n, hn, ha⟩
          rw [hk] at this; cases this; exact hcc rfl
      simp [hcc, this]

/-- Names found are positions of identifiers. -/
theorem Inv.find_some {t : Tbl} (h : Inv t) {k : Bytes} {c : Nat} (hk : aget (nmeq t.ci) t.nameId k = some c) :
    ∃ j, (abs t).find t.ci k = some j ∧ t.cols[j]? = some c ∧ j < t.cols.length := by
  have hc := ((h.names k c).1 hk).1
  rw [h.find, hk, Option.bind_some]
  cases hj : t.cols.findIdx? (· == c) with
  | none => rw [List.findIdx?_eq_none_iff] at hj; have := hj c hc; simp at this
  | some j =>
    rw [List.findIdx?_eq_some_iff_getElem] at hj
    obtain ⟨h1, h2, _⟩ := hj
    refine ⟨j, rfl, ?_, h1⟩
    rw [List.getElem?_eq_getElem h1]
    exact congrArg some (by simpa using h2)

theorem Inv.find_none {t : Tbl} (h : Inv t) {k : Bytes} (hk : aget (nmeq t.ci) t.nameId k = none) : (abs t).find t.ci k = none := by
  rw [h.find, hk]; rfl

theorem Inv.find_nil {t : Tbl} (h : Inv t) : aget (nmeq t.ci) t.nameId [] = none := by
  cases hk : aget (nmeq t.ci) t.nameId [] with
  | none => rfl
  | some c =>
    obtain ⟨_, n, hn, ha⟩ := (h.names [] c).1 hk
    exact absurd ha.nil (h.live c n hn).2

theorem abs_ncols (t : Tbl) : (abs t).names.length = t.cols.length := by simp [abs]
theorem abs_nrows (t : Tbl) : (abs t).cells.length = t.rows.length := by simp [abs]

theorem Inv.getInt_col {t : Tbl} (h : Inv t) {r c : Nat} {v : Bytes} (hv : getInt t r c = some v) : c ∈ t.cols ∧ r ∈ t.rows := by
  unfold getInt at hv
  obtain ⟨d, hd, hc⟩ := Option.bind_eq_some_iff.1 hv
  refine ⟨?_, h.dataR r d hd⟩
  unfold aget at hd
  obtain ⟨p, hp, rfl⟩ := Option.map_eq_some_iff.1 hd
  exact h.dataC p (List.mem_of_find?_eq_some hp) c v hc

end Verif.Table
