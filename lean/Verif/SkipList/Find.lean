import Verif.SkipList.Insert
/- Searching and walking, for C88. -/
namespace Verif.SkipList

variable {α : Type _}

/-- What `findScan` gives. -/
theorem findScan_ok {cmp : α → α → Int} (hc : LawfulCmp cmp) {s : S α} {i es} (h : Lay s i es) (hs : Sorted cmp es) (v : α) :
    ∀ (B : List (E α)) (A : List (E α)) (e : E α) (fuel : Nat), es = A ++ e :: B → (∀ a ∈ A, cmp a.2.1 v < 0) → B.length < fuel →
    (∃ x ∈ es, cmp x.2.1 v = 0 ∧ findScan cmp s v i fuel e.1 = some (some x.1, true)) ∨
    ((∀ x ∈ es, cmp x.2.1 v ≠ 0) ∧ (findScan cmp s v i fuel e.1 = some (none, false) ∨
      ∃ x ∈ es, cmp x.2.1 v < 0 ∧ findScan cmp s v i fuel e.1 = some (some x.1, false))) := by
  intro B
  induction B with
  | nil =>
    intro A e fuel he hA hf
    obtain ⟨fuel, rfl⟩ : ∃ k, fuel = k + 1 := ⟨fuel - 1, by simp at hf; omega⟩
    have hem : e ∈ es := by rw [he]; simp
    simp only [findScan, h.val hem, Option.bind_some]
    by_cases h0 : cmp e.2.1 v = 0
    · exact .inl ⟨e, hem, h0, by simp [h0]⟩
    · refine .inr ⟨?_, ?_⟩
      · intro x hx
        rw [he] at hx
        simp only [List.mem_append, List.mem_singleton] at hx
        rcases hx with hx | rfl
        · have := hA x hx; omega
        · exact h0
      · rw [if_neg h0]
        by_cases h1 : cmp e.2.1 v > 0
        · rw [if_pos h1, h.prev he]
          rcases List.eq_nil_or_concat A with rfl | ⟨A0, a, rfl⟩
          · exact .inl rfl
          · rw [List.concat_eq_append] at *
            exact .inr ⟨a, by rw [he]; simp, hA a (by simp), by simp⟩
        · rw [if_neg h1, h.next he]
          exact .inl rfl
  | cons b B ih =>
    intro A e fuel he hA hf
    obtain ⟨fuel, rfl⟩ : ∃ k, fuel = k + 1 := ⟨fuel - 1, by simp at hf; omega⟩
    simp only [List.length_cons, Nat.add_lt_add_iff_right] at hf
    have hem : e ∈ es := by rw [he]; simp
    rw [findScan]
    simp only [h.val hem, Option.bind_some]
    by_cases h0 : cmp e.2.1 v = 0
    · exact .inl ⟨e, hem, h0, by simp [h0]⟩
    · rw [if_neg h0]
      by_cases h1 : cmp e.2.1 v > 0
      · refine .inr ⟨?_, ?_⟩
        · intro x hx
          have hs2 := hs
          rw [he] at hx hs2
          rcases List.mem_append.1 hx with hx | hx
          · have := hA x hx; omega
          · have := sorted_suffix_lt hc (List.pairwise_append.1 hs2).2.1 ((hc.lt_swap _ _).2 h1) x hx
            have := (hc.lt_swap _ _).1 this
            omega
        · rw [if_pos h1, h.prev he]
          rcases List.eq_nil_or_concat A with rfl | ⟨A0, a, rfl⟩
          · exact .inl rfl
          · rw [List.concat_eq_append] at *
            exact .inr ⟨a, by rw [he]; simp, hA a (by simp), by simp⟩
      · rw [if_neg h1, h.next he]
        simp only [Option.bind_some, hd_cons]
        refine ih (A ++ [e]) b fuel (by rw [he]; simp) ?_ hf
        intro a ha
        simp only [List.mem_append, List.mem_singleton] at ha
        rcases ha with ha | rfl
        · exact hA a ha
        · omega

theorem findLoop_ok {cmp : α → α → Int} (hc : LawfulCmp cmp) {s : S α} {l} (hr : Rep s l) (hs : Sorted cmp l) (v : α) :
    ∀ (i : Nat) (node : Option Nat), i < s.levels → (node = none ∨ ∃ x ∈ l, node = some x.1 ∧ i < x.2.2 ∧ cmp x.2.1 v < 0) →
    (∃ x ∈ l, cmp x.2.1 v = 0 ∧ findLoop cmp s v (i + 1) node = some (some x.1)) ∨
    ((∀ x ∈ l, cmp x.2.1 v ≠ 0) ∧ findLoop cmp s v (i + 1) node = some none) := by
  -- what happens after the scan of a level
  have after : ∀ (i : Nat), i < s.levels → (∀ j, j < i → ∀ node : Option Nat, (node = none ∨ ∃ x ∈ l, node = some x.1 ∧ j < x.2.2 ∧ cmp x.2.1 v < 0) →
      (∃ x ∈ l, cmp x.2.1 v = 0 ∧ findLoop cmp s v (j + 1) node = some (some x.1)) ∨ ((∀ x ∈ l, cmp x.2.1 v ≠ 0) ∧ findLoop cmp s v (j + 1) node = some none)) →
      ∀ node : Option Nat, (node = none ∨ ∃ x ∈ l, node = some x.1 ∧ i < x.2.2 ∧ cmp x.2.1 v < 0) → (i = 0 → ∀ x ∈ l, cmp x.2.1 v ≠ 0) →
      (∃ x ∈ l, cmp x.2.1 v = 0 ∧ findLoop cmp s v i node = some (some x.1)) ∨ ((∀ x ∈ l, cmp x.2.1 v ≠ 0) ∧ findLoop cmp s v i node = some none) := by
    intro i hi ih node hnode h0
    cases i with
    | zero => exact .inr ⟨h0 rfl, rfl⟩
    | succ j =>
      refine ih j (by omega) node ?_
      rcases hnode with rfl | ⟨x, hx, h1, h2, h3⟩
      · exact .inl rfl
      · exact .inr ⟨x, hx, h1, by omega, h3⟩
  intro i
  induction i using Nat.strongRecOn with
  | _ i ih =>
    intro node hi hnode
    have ih' := fun j hj node => ih j hj node (by omega)
    have hl := hr.lay hi
    have hss := hs.lay i
    have hzero : i = 0 → (∀ x ∈ lay i l, cmp x.2.1 v ≠ 0) → ∀ x ∈ l, cmp x.2.1 v ≠ 0 := by
      rintro rfl h x hx
      exact h x (by rw [lay_zero fun e he => (hr.lev e he).1]; exact hx)
    -- the scan from an entry
    have scanned : ∀ A e B, lay i l = A ++ e :: B → (∀ a ∈ A, cmp a.2.1 v < 0) →
        (∃ x ∈ l, cmp x.2.1 v = 0 ∧ (findScan cmp s v i (s.elements + 1) e.1).bind (fun r => if r.2 then some r.1 else findLoop cmp s v i r.1) = some (some x.1)) ∨
        ((∀ x ∈ l, cmp x.2.1 v ≠ 0) ∧ (findScan cmp s v i (s.elements + 1) e.1).bind (fun r => if r.2 then some r.1 else findLoop cmp s v i r.1) = some none) := by
      intro A e B he hA
      rcases findScan_ok hc hl hss v B A e (s.elements + 1) he hA (by
        have h := lay_len i l
        rw [he] at h; simp at h; have := hr.len; omega) with ⟨x, hx, h1, h2⟩ | ⟨h1, h2 | ⟨x, hx, h2, h3⟩⟩
      · exact .inl ⟨x, (mem_lay.1 hx).1, h1, by rw [h2]; rfl⟩
      · rw [h2]
        simpa using after i hi ih' none (.inl rfl) (fun h => hzero h h1)
      · rw [h3]
        simpa using after i hi ih' (some x.1) (.inr ⟨x, (mem_lay.1 hx).1, rfl, (mem_lay.1 hx).2, h2⟩) (fun h => hzero h h1)
    rcases hnode with rfl | ⟨x, hx, rfl, h2, h3⟩
    · simp only [findLoop, hl.head, Option.bind_some]
      cases hL : lay i l with
      | nil =>
        refine after i hi ih' none (.inl rfl) (fun h => hzero h ?_)
        rw [hL]; simp
      | cons e Q => exact scanned [] e Q hL (by simp)
    · simp only [findLoop, Option.bind_some]
      obtain ⟨P, Q, hPQ⟩ := List.append_of_mem (mem_lay.2 ⟨hx, h2⟩)
      refine scanned P x Q hPQ fun a ha => ?_
      have : cmp a.2.1 x.2.1 ≤ 0 := by
        rw [hPQ] at hss
        exact (List.pairwise_append.1 hss).2.2 a ha x (by simp)
      exact hc.lt_of_le_of_lt this h3

theorem Rep.lay0 {s : S α} {l} (hr : Rep s l) : Lay s 0 l := by
  have := hr.lay (i := 0) (by have := hr.pos; omega)
  rwa [lay_zero fun e he => (hr.lev e he).1] at this

theorem findBack_ok {cmp : α → α → Int} (hc : LawfulCmp cmp) {s : S α} {l} (hr : Rep s l) (hs : Sorted cmp l) (v : α) :
    ∀ (fuel : Nat) (A : List (E α)) (e : E α) (B : List (E α)), l = A ++ e :: B → cmp e.2.1 v = 0 → A.length < fuel →
    ∃ A' e' B', l = A' ++ e' :: B' ∧ cmp e'.2.1 v = 0 ∧ (∀ a ∈ A', cmp a.2.1 v < 0) ∧ findBack cmp s v fuel e.1 = some e'.1 := by
  intro fuel
  induction fuel with
  | zero => intro A e B _ _ h; omega
  | succ fuel ih =>
    intro A e B he h0 hf
    rw [findBack, hr.lay0.prev he]
    rcases List.eq_nil_or_concat A with rfl | ⟨A0, a, rfl⟩
    · exact ⟨[], e, B, he, h0, by simp, rfl⟩
    · rw [List.concat_eq_append] at *
      have ham : a ∈ l := by rw [he]; simp
      simp only [lst_concat, Option.bind_some, hr.lay0.val ham]
      by_cases h1 : cmp a.2.1 v = 0
      · rw [if_pos h1]
        exact ih A0 a (e :: B) (by rw [he]; simp) h1 (by simp at hf; omega)
      · rw [if_neg h1]
        refine ⟨A0 ++ [a], e, B, he, h0, ?_, rfl⟩
        have hsp := hs
        rw [he] at hsp
        have hsp := List.pairwise_append.1 hsp
        have hav : cmp a.2.1 v < 0 := by
          have := hc.trans _ _ _ (hsp.2.2 a (by simp) e (by simp)) (Int.le_of_eq h0)
          omega
        intro x hx
        rcases List.mem_append.1 hx with hx' | hx'
        · exact hc.lt_of_le_of_lt ((List.pairwise_append.1 hsp.1).2.2 x hx' a (by simp)) hav
        · obtain rfl := List.mem_singleton.1 hx'
          exact hav

theorem findPtr_ok [DecidableEq α] {cmp : α → α → Int} (hc : LawfulCmp cmp) {s : S α} {l} (hr : Rep s l) (hs : Sorted cmp l) (v : α) :
    ∀ (B : List (E α)) (fuel : Nat) (A : List (E α)) (e : E α), l = A ++ e :: B → cmp e.2.1 v = 0 → B.length < fuel →
    findPtr cmp s v fuel e.1 = some (((e :: B).find? fun x => decide (x.2.1 = v)).map (·.1)) := by
  intro B
  induction B with
  | nil =>
    intro fuel A e he h0 hf
    obtain ⟨fuel, rfl⟩ : ∃ k, fuel = k + 1 := ⟨fuel - 1, by simp at hf; omega⟩
    have hem : e ∈ l := by rw [he]; simp
    simp only [findPtr, hr.lay0.val hem, Option.bind_some, hr.lay0.next he, hd_nil]
    by_cases h1 : v = e.2.1
    · simp [← h1]
    · simp [h1, Ne.symm h1, List.find?_cons]
  | cons b B ih =>
    intro fuel A e he h0 hf
    obtain ⟨fuel, rfl⟩ : ∃ k, fuel = k + 1 := ⟨fuel - 1, by simp at hf; omega⟩
    have hem : e ∈ l := by rw [he]; simp
    have hbm : b ∈ l := by rw [he]; simp
    rw [findPtr]
    simp only [hr.lay0.val hem, Option.bind_some, hr.lay0.next he, hd_cons, hr.lay0.val hbm]
    by_cases h1 : v = e.2.1
    · simp [← h1]
    · rw [if_neg h1, List.find?_cons_of_neg (by simp [Ne.symm h1])]
      by_cases h2 : cmp b.2.1 v = 0
      · rw [if_pos h2]
        exact ih fuel (A ++ [e]) b (by rw [he]; simp) h2 (by simp at hf; omega)
      · rw [if_neg h2]
        have : (b :: B).find? (fun x => decide (x.2.1 = v)) = none := by
          rw [List.find?_eq_none]
          intro x hx
          have hsp := hs
          rw [he] at hsp
          have hsp2 := List.pairwise_cons.1 (List.pairwise_append.1 hsp).2.1
          have hb : cmp v b.2.1 < 0 := by
            have h3 := hc.trans _ _ _ (Int.le_of_eq ((hc.eq_swap _ _).1 h0)) (hsp2.1 b (by simp))
            rcases Int.lt_or_eq_of_le h3 with h | h
            · exact h
            · exact absurd ((hc.eq_swap _ _).1 h) h2
          have := sorted_suffix_lt hc hsp2.2 hb x hx
          simp only [decide_eq_true_eq]
          rintro rfl
          rw [hc.refl] at this; omega
        rw [this]; rfl

theorem find_ok [DecidableEq α] {cmp : α → α → Int} (hc : LawfulCmp cmp) {s : S α} {l} (hr : Rep s l) (hs : Sorted cmp l) (v : α) (ptr : Bool) :
    find cmp s v ptr = some ((l.find? fun x => if ptr then decide (x.2.1 = v) else decide (cmp x.2.1 v = 0)).map (·.1)) := by
  have hp := hr.pos
  rw [find]
  obtain ⟨k, hk⟩ : ∃ k, s.levels = k + 1 := ⟨s.levels - 1, by omega⟩
  rcases findLoop_ok hc hr hs v k none (by omega) (.inl rfl) with ⟨x, hx, h1, h2⟩ | ⟨h1, h2⟩
  · rw [hk, h2]
    obtain ⟨A, B, hAB⟩ := List.append_of_mem hx
    obtain ⟨A', e, B', h3, h4, h5, h6⟩ := findBack_ok hc hr hs v (s.elements + 1) A x B hAB h1 (by rw [hr.len, hAB]; simp; omega)
    simp only [Option.bind_some, h6]
    cases ptr with
    | false =>
      have hn : A'.find? (fun x => decide (cmp x.2.1 v = 0)) = none := by
        rw [List.find?_eq_none]; intro a ha; have := h5 a ha; simp; omega
      simp only [Bool.false_eq_true, ↓reduceIte, h3, List.find?_append, hn, Option.none_or]
      simp [h4]
    | true =>
      have hn : A'.find? (fun x => decide (x.2.1 = v)) = none := by
        rw [List.find?_eq_none]; intro a ha; have := h5 a ha
        simp only [decide_eq_true_eq]; rintro rfl; rw [hc.refl] at this; omega
      simp only [↓reduceIte]
      rw [findPtr_ok hc hr hs v B' (s.elements + 1) A' e h3 h4 (by rw [hr.len, h3]; simp; omega), h3, List.find?_append, hn, Option.none_or]
  · rw [hk, h2]
    have : l.find? (fun x => if ptr then decide (x.2.1 = v) else decide (cmp x.2.1 v = 0)) = none := by
      rw [List.find?_eq_none]
      intro x hx
      have := h1 x hx
      cases ptr
      · simpa using this
      · simp only [↓reduceIte, decide_eq_true_eq]; rintro rfl; exact this (hc.refl _)
    rw [this]; rfl

/-! ### Walks -/

theorem walkLoop_ok {s : S α} {l} (hr : Rep s l) : ∀ (B : List (E α)) (fuel : Nat) (A : List (E α)), l = A ++ B → B.length < fuel →
    walkLoop s fuel (hd B none) = some (B.map (·.2.1)) := by
  intro B
  induction B with
  | nil => intro fuel A _ _; cases fuel <;> rfl
  | cons e B ih =>
    intro fuel A he hf
    obtain ⟨fuel, rfl⟩ : ∃ k, fuel = k + 1 := ⟨fuel - 1, by simp at hf; omega⟩
    have hem : e ∈ l := by rw [he]; simp
    simp only [hd_cons, walkLoop, hr.lay0.val hem, Option.bind_some, hr.lay0.next he]
    rw [ih fuel (A ++ [e]) (by rw [he]; simp) (by simp at hf; omega)]
    rfl

theorem walk_ok {s : S α} {l} (hr : Rep s l) : walk s = some (l.map (·.2.1)) := by
  rw [walk, hr.lay0.head]
  exact walkLoop_ok hr l _ [] rfl (by rw [hr.len]; omega)

theorem backLoop_ok {s : S α} {l} (hr : Rep s l) : ∀ (fuel : Nat) (A B : List (E α)), l = A ++ B → A.length < fuel →
    backLoop s fuel (lst none A) = some (A.map (·.2.1)).reverse := by
  intro fuel
  induction fuel with
  | zero => intro A B _ h; omega
  | succ fuel ih =>
    intro A B he hf
    rcases List.eq_nil_or_concat A with rfl | ⟨A0, a, rfl⟩
    · rfl
    · rw [List.concat_eq_append] at *
      have ham : a ∈ l := by rw [he]; simp
      simp only [lst_concat, backLoop, hr.lay0.val ham, Option.bind_some, hr.lay0.prev (A := A0) (B := B) (e := a) (by rw [he]; simp)]
      rw [ih A0 (a :: B) (by rw [he]; simp) (by simp at hf; omega)]
      simp

theorem walkBack_ok {s : S α} {l} (hr : Rep s l) : walkBack s = some (l.map (·.2.1)).reverse := by
  rw [walkBack, hr.tail]
  exact backLoop_ok hr _ l [] (by simp) (by rw [hr.len]; omega)

end Verif.SkipList
