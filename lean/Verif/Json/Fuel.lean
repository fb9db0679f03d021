import Verif.Json.Sound
/-! The bounds on calls and iterations in `Model` do not matter: with more fuel the reader does the same. -/
namespace Verif.Json

theorem andThen_congr {α β : Type} {x : Res α} {f g : α → Res β} (h : ∀ a, x = some (.ok a) → f a = g a) : x.andThen f = x.andThen g := by
  match x, h with
  | none, _ => rfl
  | some (.error e), _ => rfl
  | some (.ok a), h => exact h a rfl

/-! ### White space and comments -/

theorem afterClose_length {p q : List UInt8} (h : afterClose p = some q) : q.length < p.length := by
  induction p with
  | nil => rw [afterClose.eq_def] at h; cases h
  | cons c p ih =>
    rw [afterClose.eq_def] at h
    split at h
    · rename_i e
      injection e with _ e
      subst e
      cases h
      simp only [List.length_cons]
      omega
    · rename_i e
      injection e with _ e
      subst e
      have := ih h
      simp only [List.length_cons]
      omega
    · cases h

theorem afterEol_length (p : List UInt8) : (afterEol p).length ≤ p.length := by
  unfold afterEol
  rw [List.length_drop]
  have := (List.dropWhile_sublist (l := p) (fun x => decide (x ≠ 10))).length_le
  omega

theorem eatComment_length {p q : List UInt8} (h : eatComment p = .ok q) : q.length ≤ p.length := by
  unfold eatComment at h
  split at h
  · split at h
    · split at h
      · cases h
      · rename_i r hr
        cases h
        have := afterClose_length hr
        simp only [List.length_cons]
        omega
    · split at h
      · cases h
        exact afterEol_length _
      · cases h
  · cases h
    exact Nat.le_refl _

/-- The loop over comments ends before its fuel does. -/
theorem eatLoop_fuel (n : Nat) : ∀ p : List UInt8, p.length ≤ n → ∀ f g, n < f → n < g → eatLoop f p = eatLoop g p := by
  induction n with
  | zero =>
    intro p hp f g hf hg
    obtain ⟨f, rfl⟩ : ∃ k, f = k + 1 := ⟨f - 1, by omega⟩
    obtain ⟨g, rfl⟩ : ∃ k, g = k + 1 := ⟨g - 1, by omega⟩
    have : p = [] := List.eq_nil_of_length_eq_zero (by omega)
    subst this
    rfl
  | succ n ih =>
    intro p hp f g hf hg
    obtain ⟨f, rfl⟩ : ∃ k, f = k + 1 := ⟨f - 1, by omega⟩
    obtain ⟨g, rfl⟩ : ∃ k, g = k + 1 := ⟨g - 1, by omega⟩
    have hl := eatWs_length p
    rw [eatLoop.eq_def, eatLoop.eq_def (g + 1)]
    simp only []
    cases hq : eatWs p with
    | nil => rfl
    | cons c r =>
      rw [hq] at hl
      simp only []
      cases he : eatComment (c :: r) with
      | error e => rfl
      | ok q =>
        have hq2 := eatComment_length he
        simp only []
        have hq3 : (if q.length = 0 then q else eatWs q).length ≤ q.length := by
          split
          · exact Nat.le_refl _
          · exact eatWs_length q
        generalize (if q.length = 0 then q else eatWs q) = q' at *
        split
        · rename_i hc
          exact ih q' (by omega) f g (by omega) (by omega)
        · rfl

theorem eat_length {fl : RFlags} {p q : List UInt8} (h : eatIgnored fl p = some (.ok q)) : q.length ≤ p.length := by
  unfold eatIgnored at h
  split at h
  · cases h; exact eatWs_length p
  · have : ∀ f p, eatLoop f p = some (.ok q) → q.length ≤ p.length := by
      intro f
      induction f with
      | zero => intro p h; rw [eatLoop] at h; cases h
      | succ f ih =>
        intro p h
        rw [eatLoop.eq_def] at h
        simp only [] at h
        have hl := eatWs_length p
        cases hq : eatWs p with
        | nil => rw [hq] at h; cases h; simp
        | cons c r =>
          rw [hq] at h hl
          simp only [] at h
          cases he : eatComment (c :: r) with
          | error e => rw [he] at h; cases h
          | ok q1 =>
            have hq2 := eatComment_length he
            rw [he] at h
            simp only [] at h
            have hq3 : (if q1.length = 0 then q1 else eatWs q1).length ≤ q1.length := by
              split
              · exact Nat.le_refl _
              · exact eatWs_length q1
            generalize (if q1.length = 0 then q1 else eatWs q1) = q' at *
            split at h
            · have := ih _ h
              omega
            · cases h
              omega
    exact this _ _ h

/-! ### Strings and numbers -/

theorem consume_length (n : Nat) (p : List UInt8) : (consume n p).length ≤ p.length := by
  unfold consume
  split
  · rw [List.length_drop]; omega
  · exact Nat.le_refl _

theorem skipBad_length (s : List UInt8) : ∀ (n j : Nat) (p : List UInt8) {q}, skipBad s n j p = some q → q.length ≤ p.length := by
  intro n
  induction n with
  | zero => intro j p q h; rw [skipBad] at h; cases h; exact Nat.le_refl _
  | succ n ih =>
    intro j p q h
    rw [skipBad] at h
    obtain ⟨c, _, h⟩ := Option.bind_eq_some_iff.1 h
    have := ih _ _ h
    split at this
    · have := consume_length 1 p; omega
    · exact this

theorem consume_one (c : UInt8) (r : List UInt8) : (consume 1 (c :: r)).length = r.length := by simp [consume]

/-- The loop over a string ends before its fuel does. -/
theorem strLoop_fuel (fl : RFlags) (after : List UInt8) (n : Nat) : ∀ (p : List UInt8) (cp : UInt8) (buf : List UInt8), p.length ≤ n → ∀ f g, n < f → n < g →
    strLoop fl after f p cp buf = strLoop fl after g p cp buf := by
  induction n with
  | zero =>
    intro p cp buf hp f g hf hg
    obtain ⟨f, rfl⟩ : ∃ k, f = k + 1 := ⟨f - 1, by omega⟩
    obtain ⟨g, rfl⟩ : ∃ k, g = k + 1 := ⟨g - 1, by omega⟩
    have : p = [] := List.eq_nil_of_length_eq_zero (by omega)
    subst this
    conv => lhs; rw [strLoop.eq_def]
    conv => rhs; rw [strLoop.eq_def]
  | succ n ih =>
    intro p cp buf hp f g hf hg
    obtain ⟨f, rfl⟩ : ∃ k, f = k + 1 := ⟨f - 1, by omega⟩
    obtain ⟨g, rfl⟩ : ∃ k, g = k + 1 := ⟨g - 1, by omega⟩
    conv => lhs; rw [strLoop.eq_def]
    conv => rhs; rw [strLoop.eq_def]
    cases p with
    | nil => rfl
    | cons c r =>
      have hr : r.length ≤ n := by simp only [List.length_cons] at hp; omega
      have go : ∀ q cp buf, q.length ≤ n → strLoop fl after f q cp buf = strLoop fl after g q cp buf := fun q cp buf hq => ih q cp buf hq f g (by omega) (by omega)
      simp only []
      by_cases h1 : c = 34
      · simp only [h1, if_true]
      · by_cases h2 : cp = 92
        · simp only [h2, if_true]
        · by_cases h3 : c < 32
          · simp only [h1, h2, h3, if_true, if_false]
            rw [go r _ _ hr]
          · by_cases h4 : c = 92
            · subst h4
              simp only [h1, h2, h3, if_true, if_false]
              cases r with
              | nil => rfl
              | cons ce r =>
                have hr2 : r.length ≤ n := by simp only [List.length_cons] at hr; omega
                simp only []
                cases simpleEscape ce with
                | some b => simp only []; rw [go r _ _ hr2]
                | none =>
                  simp only []
                  by_cases h5 : ce = 117
                  · rw [if_pos h5, if_pos h5]
                    cases uniEscape (92 :: ce :: r) (r ++ after) with
                    | none => rfl
                    | some u =>
                      simp only [Option.bind_some]
                      cases u with
                      | some u => simp only []; rw [go _ _ _ (by rw [List.length_drop]; omega)]
                      | none =>
                        simp only []
                        by_cases h6 : fl.replaceBad = true
                        · rw [if_pos h6, if_pos h6]
                          cases hq : skipBad (r ++ after) 3 1 (consume 1 (92 :: ce :: r)) with
                          | none => rfl
                          | some q =>
                            have h1 := skipBad_length _ _ _ _ hq
                            rw [consume_one] at h1
                            have h2 := consume_length 2 q
                            simp only [Option.bind_some]
                            exact go _ _ _ (by omega)
                        · rw [if_neg h6, if_neg h6]
                  · rw [if_neg h5, if_neg h5]
            · simp only [h1, h2, h3, h4, if_false]
              rw [go r _ _ hr]

theorem strLoop_length (fl : RFlags) (after : List UInt8) : ∀ (f : Nat) (p : List UInt8) (cp : UInt8) (buf : List UInt8) {b rest},
    strLoop fl after f p cp buf = some (.ok (b, rest)) → rest.length < p.length := by
  intro f
  induction f with
  | zero => intro p cp buf b rest h; rw [strLoop.eq_def] at h; cases h
  | succ f ih =>
    intro p cp buf b rest h
    rw [strLoop.eq_def] at h
    cases p with
    | nil => cases h
    | cons c r =>
      simp only [] at h
      rw [List.length_cons]
      split at h
      · cases h; omega
      · split at h
        · cases h
        · split at h
          · split at h
            · have := ih _ _ _ h; omega
            · cases h
          · split at h
            · cases r with
              | nil => cases h
              | cons ce r =>
                simp only [] at h
                rw [List.length_cons]
                split at h
                · have := ih _ _ _ h; omega
                · split at h
                  · obtain ⟨u, _, h⟩ := Option.bind_eq_some_iff.1 h
                    cases u with
                    | none =>
                      simp only [] at h
                      split at h
                      · obtain ⟨q, hq, h⟩ := Option.bind_eq_some_iff.1 h
                        have h1 := skipBad_length _ _ _ _ hq
                        rw [consume_one, List.length_cons] at h1
                        have h2 := consume_length 2 q
                        have := ih _ _ _ h
                        omega
                      · cases h
                    | some u =>
                      have := ih _ _ _ h
                      rw [List.length_drop] at this
                      omega
                  · cases h
            · have := ih _ _ _ h; omega

theorem readString_length {fl : RFlags} {after p s rest : List UInt8} (h : readString fl after p = some (.ok (s, rest))) : rest.length < p.length := by
  unfold readString at h
  obtain ⟨⟨b, r⟩, h1, h⟩ := andThen_ok h
  cases h
  exact strLoop_length _ _ _ _ _ _ h1

theorem readNumber_length {fl : RFlags} {after p rest : List UInt8} {v : Json} (h : readNumber fl after p = some (.ok (v, rest))) : rest.length ≤ p.length := by
  unfold readNumber at h
  obtain ⟨⟨rv, d, e⟩, _, h⟩ := Option.bind_eq_some_iff.1 h
  simp only [] at h
  split at h
  · cases h
    cases e with
    | none => exact Nat.le_refl _
    | some e => exact consume_length _ _
  · cases h

/-! ### Values -/

/-- What is left after a value, an object and an array. -/
theorem read_length (fl : RFlags) (after : List UInt8) (f : Nat) :
    (∀ p v rest, readValue fl after f p = some (.ok (v, rest)) → rest.length ≤ p.length) ∧
    (∀ p acc v rest, readObj fl after f p acc = some (.ok (v, rest)) → rest.length < p.length) ∧
    (∀ len p acc v rest, readArr fl after f len p acc = some (.ok (v, rest)) → rest.length < p.length) := by
  induction f with
  | zero =>
    refine ⟨?_, ?_, ?_⟩
    · intro p v rest h; rw [readValue] at h; cases h
    · intro p acc v rest h; rw [readObj] at h; cases h
    · intro len p acc v rest h; rw [readArr] at h; cases h
  | succ f ih =>
    obtain ⟨hv, ho, ha⟩ := ih
    refine ⟨?_, ?_, ?_⟩
    · intro p v rest h
      rw [readValue] at h
      replace h := andThen_ok h
      obtain ⟨q, h1, h⟩ := h
      have e1 := eat_length h1
      cases q with
      | nil => cases h
      | cons c r =>
        rw [List.length_cons] at e1
        simp only [] at h
        split at h
        · have := ho _ _ _ _ h; omega
        · split at h
          · replace h := andThen_ok h
            obtain ⟨q, h2, h⟩ := h
            have := eat_length h2
            have := ha _ _ _ _ _ h
            omega
          · split at h
            · replace h := andThen_ok h
              obtain ⟨⟨s, q⟩, h2, h⟩ := h
              have := readString_length h2
              cases h
              simp only []
              omega
            · split at h
              · split at h
                · cases h; rw [List.length_drop, List.length_cons]; omega
                · cases h
              · split at h
                · split at h
                  · cases h; rw [List.length_drop, List.length_cons]; omega
                  · cases h
                · split at h
                  · split at h
                    · cases h; rw [List.length_drop, List.length_cons]; omega
                    · cases h
                  · split at h
                    · have := readNumber_length h
                      rw [List.length_cons] at this
                      omega
                    · split at h <;> cases h
    · intro p acc v rest h
      rw [readObj] at h
      split at h
      · cases h
      · rename_i hne
        have hne : 0 < p.length := List.length_pos_iff.2 hne
        split at h
        · cases h; rw [List.length_drop]; omega
        · replace h := andThen_ok h
          obtain ⟨q, h1, h⟩ := h
          have e1 := eat_length h1
          cases q with
          | nil => cases h
          | cons c r =>
            rw [List.length_cons] at e1
            simp only [] at h
            split at h
            · cases h; omega
            · split at h
              · cases h
              · replace h := andThen_ok h
                obtain ⟨⟨key, p1⟩, h2, h⟩ := h
                have e2 := readString_length h2
                simp only [] at h
                split at h
                · cases h
                · replace h := andThen_ok h
                  obtain ⟨q1, h3, h⟩ := h
                  have e3 := eat_length h3
                  cases q1 with
                  | nil => cases h
                  | cons c1 r1 =>
                    rw [List.length_cons] at e3
                    simp only [] at h e3
                    split at h
                    · cases h
                    · replace h := andThen_ok h
                      obtain ⟨⟨x, q2⟩, h4, h⟩ := h
                      have e4 := hv _ _ _ h4
                      replace h := andThen_ok h
                      obtain ⟨q3, h5, h⟩ := h
                      have e5 := eat_length h5
                      cases q3 with
                      | nil => cases h
                      | cons c3 r3 =>
                        rw [List.length_cons] at e5
                        simp only [] at h e5
                        split at h
                        · replace h := andThen_ok h
                          obtain ⟨q4, h6, h⟩ := h
                          have e6 := eat_length h6
                          split at h
                          · cases h
                          · have := ho _ _ _ _ h
                            omega
                        · have := ho _ _ _ _ h
                          rw [List.length_cons] at this
                          omega
    · intro len p acc v rest h
      rw [readArr] at h
      split at h
      · cases h
      · rename_i hne
        have hne : 0 < p.length := List.length_pos_iff.2 hne
        split at h
        · cases h; rw [List.length_drop]; omega
        · split at h
          · cases h
          · replace h := andThen_ok h
            obtain ⟨q, h1, h⟩ := h
            have e1 := eat_length h1
            cases q with
            | nil => cases h
            | cons c r =>
              rw [List.length_cons] at e1
              simp only [] at h
              split at h
              · cases h; omega
              · replace h := andThen_ok h
                obtain ⟨⟨x, q2⟩, h4, h⟩ := h
                have e4 := hv _ _ _ h4
                rw [List.length_cons] at e4
                replace h := andThen_ok h
                obtain ⟨q3, h5, h⟩ := h
                have e5 := eat_length h5
                cases q3 with
                | nil => cases h
                | cons c3 r3 =>
                  rw [List.length_cons] at e5
                  simp only [] at h e5
                  split at h
                  · replace h := andThen_ok h
                    obtain ⟨q4, h6, h⟩ := h
                    have e6 := eat_length h6
                    split at h
                    · cases h
                    · have := ha _ _ _ _ _ h
                      omega
                  · have := ha _ _ _ _ _ h
                    rw [List.length_cons] at this
                    omega

/-- An array that made no progress is given up at once. -/
theorem readArr_still (fl : RFlags) (after q : List UInt8) (acc : List Json) (f g : Nat) : readArr fl after (f + 1) q.length q acc = readArr fl after (g + 1) q.length q acc := by
  rw [readArr, readArr]
  by_cases h1 : q = []
  · rw [if_pos h1, if_pos h1]
  · by_cases h2 : q[0]? = some 93
    · rw [if_neg h1, if_neg h1, if_pos h2, if_pos h2]
    · rw [if_neg h1, if_neg h1, if_neg h2, if_neg h2, if_pos rfl, if_pos rfl]

/-- Enough fuel is as good as any more. -/
theorem read_fuel_all (fl : RFlags) (after : List UInt8) (n : Nat) :
    (∀ p : List UInt8, p.length ≤ n → ∀ f g, 2 * p.length + 1 ≤ f → 2 * p.length + 1 ≤ g → readValue fl after f p = readValue fl after g p) ∧
    (∀ (p : List UInt8) acc, p.length ≤ n → ∀ f g, 2 * p.length + 2 ≤ f → 2 * p.length + 2 ≤ g → readObj fl after f p acc = readObj fl after g p acc) ∧
    (∀ len (p : List UInt8) acc, p.length ≤ n → ∀ f g, 2 * p.length + 2 ≤ f → 2 * p.length + 2 ≤ g → readArr fl after f len p acc = readArr fl after g len p acc) := by
  induction n using Nat.strongRecOn with
  | _ n ih =>
  have hval : ∀ p : List UInt8, p.length ≤ n → ∀ f g, 2 * p.length + 1 ≤ f → 2 * p.length + 1 ≤ g → readValue fl after f p = readValue fl after g p := by
    intro p hp f g hf hg
    obtain ⟨f, rfl⟩ : ∃ k, f = k + 1 := ⟨f - 1, by omega⟩
    obtain ⟨g, rfl⟩ : ∃ k, g = k + 1 := ⟨g - 1, by omega⟩
    rw [readValue, readValue]
    apply andThen_congr
    intro q h1
    have e1 := eat_length h1
    cases q with
    | nil => rfl
    | cons c r =>
      rw [List.length_cons] at e1
      simp only []
      have ih' := ih (n - 1) (by omega)
      rw [ih'.2.1 r [] (by omega) f g (by omega) (by omega)]
      have : ((eatIgnored fl r).andThen fun r => readArr fl after f 0 r []) = (eatIgnored fl r).andThen fun r => readArr fl after g 0 r [] := by
        apply andThen_congr
        intro q h2
        have e2 := eat_length h2
        exact ih'.2.2 0 q [] (by omega) f g (by omega) (by omega)
      rw [this]
  refine ⟨hval, ?_, ?_⟩
  · intro p acc hp f g hf hg
    obtain ⟨f, rfl⟩ : ∃ k, f = k + 1 := ⟨f - 1, by omega⟩
    obtain ⟨g, rfl⟩ : ∃ k, g = k + 1 := ⟨g - 1, by omega⟩
    rw [readObj, readObj]
    by_cases hne : p = []
    · rw [if_pos hne, if_pos hne]
    · rw [if_neg hne, if_neg hne]
      have hne : 0 < p.length := List.length_pos_iff.2 hne
      have ih' := ih (n - 1) (by omega)
      by_cases h0 : p[0]? = some 125
      · rw [if_pos h0, if_pos h0]
      · rw [if_neg h0, if_neg h0]
        apply andThen_congr
        intro q h1
        have e1 := eat_length h1
        cases q with
        | nil => rfl
        | cons c r =>
          rw [List.length_cons] at e1
          simp only []
          by_cases h2 : c = 125
          · rw [if_pos h2, if_pos h2]
          · rw [if_neg h2, if_neg h2]
            by_cases h3 : c ≠ 34
            · rw [if_pos h3, if_pos h3]
            · rw [if_neg h3, if_neg h3]
              apply andThen_congr
              rintro ⟨key, p1⟩ h4
              have e2 := readString_length h4
              simp only []
              by_cases h5 : fl.uniqueKeys = true ∧ acc.any (fun m => m.1 == key) = true
              · rw [if_pos h5, if_pos h5]
              · rw [if_neg h5, if_neg h5]
                apply andThen_congr
                intro q1 h6
                have e3 := eat_length h6
                cases q1 with
                | nil => rfl
                | cons c1 r1 =>
                  rw [List.length_cons] at e3
                  simp only []
                  by_cases h7 : c1 ≠ 58
                  · rw [if_pos h7, if_pos h7]
                  · rw [if_neg h7, if_neg h7, ih'.1 r1 (by omega) f g (by omega) (by omega)]
                    apply andThen_congr
                    rintro ⟨x, q2⟩ h8
                    have e4 := (read_length fl after g).1 _ _ _ h8
                    apply andThen_congr
                    intro q3 h9
                    have e5 := eat_length h9
                    cases q3 with
                    | nil => rfl
                    | cons c3 r3 =>
                      rw [List.length_cons] at e5
                      simp only [] at e5 ⊢
                      rw [ih'.2.1 (c3 :: r3) _ (by rw [List.length_cons]; omega) f g (by rw [List.length_cons]; omega) (by rw [List.length_cons]; omega)]
                      have : ((eatIgnored fl r3).andThen fun p => if p = [] ∨ p[0]? = some 125 then some (.error .expectedValue) else readObj fl after f p (insert acc key x)) =
                          (eatIgnored fl r3).andThen fun p => if p = [] ∨ p[0]? = some 125 then some (.error .expectedValue) else readObj fl after g p (insert acc key x) := by
                        apply andThen_congr
                        intro q4 h10
                        have e6 := eat_length h10
                        rw [ih'.2.1 q4 _ (by omega) f g (by omega) (by omega)]
                      rw [this]
  · intro len p acc hp f g hf hg
    obtain ⟨f, rfl⟩ : ∃ k, f = k + 1 := ⟨f - 1, by omega⟩
    obtain ⟨g, rfl⟩ : ∃ k, g = k + 1 := ⟨g - 1, by omega⟩
    rw [readArr, readArr]
    by_cases hne : p = []
    · rw [if_pos hne, if_pos hne]
    · rw [if_neg hne, if_neg hne]
      have hne : 0 < p.length := List.length_pos_iff.2 hne
      have ih' := ih (n - 1) (by omega)
      have go : ∀ q : List UInt8, q.length ≤ p.length → ∀ acc, readArr fl after f p.length q acc = readArr fl after g p.length q acc := by
        intro q hq acc
        by_cases he : q.length = p.length
        · rw [← he]
          obtain ⟨f, rfl⟩ : ∃ k, f = k + 1 := ⟨f - 1, by omega⟩
          obtain ⟨g, rfl⟩ : ∃ k, g = k + 1 := ⟨g - 1, by omega⟩
          exact readArr_still fl after q acc f g
        · exact ih'.2.2 _ q acc (by omega) f g (by omega) (by omega)
      by_cases h0 : p[0]? = some 93
      · rw [if_pos h0, if_pos h0]
      · rw [if_neg h0, if_neg h0]
        by_cases h00 : len = p.length
        · rw [if_pos h00, if_pos h00]
        · rw [if_neg h00, if_neg h00]
          apply andThen_congr
          intro q h1
          have e1 := eat_length h1
          cases q with
          | nil => rfl
          | cons c r =>
            rw [List.length_cons] at e1
            simp only []
            by_cases h2 : c = 93
            · rw [if_pos h2, if_pos h2]
            · rw [if_neg h2, if_neg h2, hval (c :: r) (by rw [List.length_cons]; omega) f g (by rw [List.length_cons]; omega) (by rw [List.length_cons]; omega)]
              apply andThen_congr
              rintro ⟨x, q2⟩ h8
              have e4 := (read_length fl after g).1 _ _ _ h8
              rw [List.length_cons] at e4
              apply andThen_congr
              intro q3 h9
              have e5 := eat_length h9
              cases q3 with
              | nil => rfl
              | cons c3 r3 =>
                rw [List.length_cons] at e5
                simp only [] at e5 ⊢
                rw [go (c3 :: r3) (by rw [List.length_cons]; omega)]
                have : ((eatIgnored fl r3).andThen fun q => if q = [] ∨ q[0]? = some 93 then some (.error .expectedValue) else readArr fl after f p.length q (acc ++ [x])) =
                    (eatIgnored fl r3).andThen fun q => if q = [] ∨ q[0]? = some 93 then some (.error .expectedValue) else readArr fl after g p.length q (acc ++ [x]) := by
                  apply andThen_congr
                  intro q4 h10
                  have e6 := eat_length h10
                  rw [go q4 (by omega)]
                rw [this]

/-- The fuel `read` supplies is as good as any more. -/
theorem read_fuel (fl : RFlags) (after data : List UInt8) (fuel : Nat) (h : 2 * data.length + 2 ≤ fuel) :
    readValue fl after fuel data = readValue fl after (2 * data.length + 2) data :=
  (read_fuel_all fl after data.length).1 data (Nat.le_refl _) _ _ (by omega) (by omega)

end Verif.Json
