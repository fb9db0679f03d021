import Verif.SqlQuery.Props
/- What the checks of a query and the execution of the bound rows guarantee. -/
namespace Verif.SqlQuery

/-- A query is refused for a database exactly if it is blank, or if it has several rows for a list of values and no complete
`values(...)`. -/
theorem queryformat_none (q : List UInt8) (f : Flags) (params rows : Nat) : queryformat q f params rows = none ↔
    (∀ c ∈ q, blank c = true) ∨ (f.multiValue = true ∧ rows > 1 ∧ ∃ m, minimize q = some m ∧
      (¬ HasValues m ∨ ∃ a v b, m = a ++ v ++ 40 :: b ∧ ValuesWord v ∧ ¬ HasValues (a ++ v) ∧ ∀ p s, 40 :: b = p ++ s → p ≠ [] → depth p > 0)) := by
  unfold queryformat
  rw [← minimize_none]
  cases hm : minimize q with
  | none => simp
  | some m =>
    simp only [Option.bind_some, Option.map_eq_none_iff, reduceCtorEq, false_or, Option.some.injEq, exists_eq_left']
    unfold fmtValues
    by_cases hc : f.multiValue = true ∧ rows > 1
    · rw [if_pos hc, expand_none]
      exact ⟨fun h => ⟨hc.1, hc.2, h⟩, fun h => h.2.2⟩
    · rw [if_neg hc]
      simp only [reduceCtorEq, false_iff]
      exact fun h => hc ⟨h.1, h.2.1⟩

/-! ### Checks of the text -/

/-- Characters that may stand in a query. -/
def Printable (c : UInt8) : Prop := (32 ≤ c.toNat ∧ c.toNat ≤ 126) ∨ (9 ≤ c.toNat ∧ c.toNat ≤ 13)

/-- A text starts with `create table` in either case. -/
def StartsCreate (t : List UInt8) : Prop := ∃ x y, t = x ++ y ∧ Str.Alike true x [67, 82, 69, 65, 84, 69, 32, 84, 65, 66, 76, 69]

/-- The character `c` of the query `q`, with `b` behind it, is a reason to refuse the query with the error `e`. -/
def Offends (q : List UInt8) (c : UInt8) (b : List UInt8) (e : Err) : Prop :=
  (c = 39 ∧ ¬ StartsCreate q ∧ e = .strNotBound) ∨ (c = 59 ∧ b ≠ [] ∧ e = .noMultiQuery) ∨ (¬ Printable c ∧ e = .prepareInvalid)

theorem print_iff (c : UInt8) : Dict.isPrint c = true ↔ Printable c := by
  unfold Dict.isPrint Printable
  simp only [Bool.or_eq_true, Bool.and_eq_true, decide_eq_true_eq, beq_iff_eq, UInt8.le_iff_toNat_le, UInt8.lt_iff_toNat_lt, ← UInt8.toNat_inj]
  have e1 : (33 : UInt8).toNat = 33 := rfl
  have e2 : (127 : UInt8).toNat = 127 := rfl
  have e3 : (9 : UInt8).toNat = 9 := rfl
  have e4 : (13 : UInt8).toNat = 13 := rfl
  have e5 : (32 : UInt8).toNat = 32 := rfl
  omega

theorem create_iff (q : List UInt8) : Str.eqMaxInt true q createTable 12 = true ↔ StartsCreate q := by
  rw [Str.eqMax_iff true q createTable 12]
  constructor
  · intro ha
    exact ⟨q.take 12, q.drop 12, (List.take_append_drop 12 q).symm, ha⟩
  · rintro ⟨x, y, rfl, ha⟩
    have hl := alike_length ha
    simp at hl
    rw [List.take_left' hl]
    exact ha

theorem checkLoop_spec (q : List UInt8) (s : List UInt8) : ∀ cnt, match checkLoop (Str.eqMaxInt true q createTable 12) false cnt s with
    | .ok n => n = cnt + s.count 63 ∧ ∀ a c b e, s = a ++ c :: b → ¬ Offends q c b e
    | .error e => ∃ a c b, s = a ++ c :: b ∧ Offends q c b e ∧ ∀ a' c' b' e', s = a' ++ c' :: b' → a'.length < a.length → ¬ Offends q c' b' e' := by
  induction s with
  | nil =>
    intro cnt
    rw [checkLoop]
    exact ⟨by simp, fun a c b e h => by simp at h⟩
  | cons c s ih =>
    intro cnt
    have pr39 : Printable 39 := by unfold Printable; decide
    have pr59 : Printable 59 := by unfold Printable; decide
    have pr63 : Printable 63 := by unfold Printable; decide
    -- the first character is a reason
    have stop : ∀ e, Offends q c s e → ∃ a c' b, c :: s = a ++ c' :: b ∧ Offends q c' b e ∧
        ∀ a' c'' b' e', c :: s = a' ++ c'' :: b' → a'.length < a.length → ¬ Offends q c'' b' e' := by
      intro e h
      exact ⟨[], c, s, rfl, h, fun a' _ _ _ _ hl => by simp at hl⟩
    -- the first character is none
    have go : ∀ cnt', (∀ e, ¬ Offends q c s e) → cnt' = cnt + (if c = 63 then 1 else 0) →
        match checkLoop (Str.eqMaxInt true q createTable 12) false cnt' s with
        | .ok n => n = cnt + (c :: s).count 63 ∧ ∀ a c' b e, c :: s = a ++ c' :: b → ¬ Offends q c' b e
        | .error e => ∃ a c' b, c :: s = a ++ c' :: b ∧ Offends q c' b e ∧ ∀ a' c'' b' e', c :: s = a' ++ c'' :: b' → a'.length < a.length → ¬ Offends q c'' b' e' := by
      intro cnt' hno hcnt
      have h := ih cnt'
      cases hr : checkLoop (Str.eqMaxInt true q createTable 12) false cnt' s with
      | ok n =>
        rw [hr] at h
        dsimp only at h ⊢
        refine ⟨?_, ?_⟩
        · rw [h.1, hcnt, List.count_cons]
          by_cases h63 : c = 63
          · simp [h63]; omega
          · simp [h63]
        · intro a c' b e es
          cases a with
          | nil =>
            simp only [List.nil_append, List.cons.injEq] at es
            obtain ⟨rfl, rfl⟩ := es
            exact hno e
          | cons x a =>
            simp only [List.cons_append, List.cons.injEq] at es
            exact h.2 a c' b e es.2
      | error e =>
        rw [hr] at h
        dsimp only at h ⊢
        obtain ⟨a, c', b, es, ho, hf⟩ := h
        refine ⟨c :: a, c', b, by rw [es]; rfl, ho, ?_⟩
        intro a' c'' b' e' es' hl
        cases a' with
        | nil =>
          simp only [List.nil_append, List.cons.injEq] at es'
          obtain ⟨rfl, rfl⟩ := es'
          exact hno e'
        | cons x a' =>
          simp only [List.cons_append, List.cons.injEq] at es'
          exact hf a' c'' b' e' es'.2 (by simp at hl; omega)
    rw [checkLoop]
    by_cases h39 : c = 39
    · rw [if_pos h39]
      by_cases hcr : Str.eqMaxInt true q createTable 12 = true
      · rw [hcr]
        simp only [Bool.not_true, Bool.false_and, Bool.false_eq_true, if_false]
        rw [← hcr]
        refine go cnt ?_ (by simp [h39])
        rintro e (⟨-, h, -⟩ | ⟨h, -, -⟩ | ⟨h, -⟩)
        · exact h ((create_iff q).1 hcr)
        · rw [h39] at h; cases h
        · exact h (h39 ▸ pr39)
      · have hcr' : Str.eqMaxInt true q createTable 12 = false := by simpa using hcr
        rw [hcr']
        simp only [Bool.not_false, Bool.and_self, if_true]
        exact stop _ (Or.inl ⟨h39, by rw [← create_iff]; exact hcr, rfl⟩)
    · rw [if_neg h39]
      by_cases h59 : c = 59
      · rw [if_pos h59]
        by_cases hs : s = []
        · rw [if_neg (by simp [hs])]
          refine go cnt ?_ (by simp [h59])
          rintro e (⟨h, -, -⟩ | ⟨-, h, -⟩ | ⟨h, -⟩)
          · exact h39 h
          · exact h hs
          · exact h (h59 ▸ pr59)
        · rw [if_pos ⟨hs, rfl⟩]
          exact stop _ (Or.inr (Or.inl ⟨h59, hs, rfl⟩))
      · rw [if_neg h59]
        by_cases h63 : c = 63
        · rw [if_pos h63]
          refine go (cnt + 1) ?_ (by simp [h63])
          rintro e (⟨h, -, -⟩ | ⟨h, -, -⟩ | ⟨h, -⟩)
          · exact h39 h
          · exact h59 h
          · exact h (h63 ▸ pr63)
        · rw [if_neg h63]
          by_cases hp : Dict.isPrint c = true
          · rw [hp]
            simp only [Bool.not_true, Bool.false_and, Bool.false_eq_true, if_false]
            refine go cnt ?_ (by simp [h63])
            rintro e (⟨h, -, -⟩ | ⟨h, -, -⟩ | ⟨h, -⟩)
            · exact h39 h
            · exact h59 h
            · exact h ((print_iff c).1 hp)
          · have hp' : Dict.isPrint c = false := by simpa using hp
            rw [hp']
            simp only [Bool.not_false, Bool.and_self, if_true]
            exact stop _ (Or.inr (Or.inr ⟨by rw [← print_iff]; exact hp, rfl⟩))

/-- A query is accepted exactly if nothing in it is a reason to refuse it, and then its placeholders are counted. -/
theorem prepare_ok (q t : List UInt8) (n : Nat) : prepare q false = .ok (t, n) ↔
    t = Str.trim q ∧ t ≠ [] ∧ n = t.count 63 ∧ ∀ a c b e, t = a ++ c :: b → ¬ Offends t c b e := by
  unfold prepare prepareQuery
  by_cases hq : q = []
  · subst hq
    rw [if_pos rfl]
    simp only [reduceCtorEq, false_iff]
    rintro ⟨rfl, h, -⟩
    exact h rfl
  · rw [if_neg hq]
    by_cases ht : Str.trim q = []
    · rw [if_pos ht]
      simp only [Except.map, reduceCtorEq, false_iff]
      rintro ⟨rfl, h, -⟩
      exact h ht
    · rw [if_neg ht]
      have h := checkLoop_spec (Str.trim q) (Str.trim q) 0
      cases hr : checkLoop (Str.eqMaxInt true (Str.trim q) createTable 12) false 0 (Str.trim q) with
      | ok k =>
        rw [hr] at h
        simp only [Except.map, Except.ok.injEq, Prod.mk.injEq]
        dsimp only at h
        constructor
        · rintro ⟨rfl, rfl⟩
          exact ⟨rfl, ht, by rw [h.1]; omega, h.2⟩
        · rintro ⟨rfl, -, e, -⟩
          exact ⟨rfl, by rw [h.1, e]; omega⟩
      | error e =>
        rw [hr] at h
        simp only [Except.map, reduceCtorEq, false_iff]
        dsimp only at h
        obtain ⟨a, c, b, es, ho, -⟩ := h
        rintro ⟨rfl, -, -, hn⟩
        exact hn a c b e es ho

/-- Otherwise the first reason decides the error. -/
theorem prepare_error (q : List UInt8) (e : Err) (h : prepare q false = .error e) :
    (q = [] ∧ e = .invalidUse) ∨ (q ≠ [] ∧ (∀ c ∈ q, blank c = true) ∧ e = .prepareInvalid) ∨
    ∃ a c b, Str.trim q = a ++ c :: b ∧ Offends (Str.trim q) c b e ∧
      ∀ a' c' b' e', Str.trim q = a' ++ c' :: b' → a'.length < a.length → ¬ Offends (Str.trim q) c' b' e' := by
  unfold prepare prepareQuery at h
  by_cases hq : q = []
  · rw [if_pos hq] at h
    exact Or.inl ⟨hq, (Except.error.inj h).symm⟩
  · rw [if_neg hq] at h
    right
    by_cases ht : Str.trim q = []
    · rw [if_pos ht] at h
      left
      refine ⟨hq, ?_, (Except.error.inj h).symm⟩
      rw [← minimize_none]
      unfold minimize
      exact if_pos ht
    · rw [if_neg ht] at h
      right
      have hs := checkLoop_spec (Str.trim q) (Str.trim q) 0
      cases hr : checkLoop (Str.eqMaxInt true (Str.trim q) createTable 12) false 0 (Str.trim q) with
      | ok k => rw [hr] at h; cases h
      | error e' =>
        rw [hr] at h hs
        have : e' = e := Except.error.inj h
        subst this
        exact hs

/-! ### Checks of the rows -/

/-- The rows that are bound: a blank row at the end does not count. -/
def Bound (rows bound : List (List Value)) : Prop := rows = bound ++ [[]] ∨ (rows = bound ∧ ∀ r, rows = r ++ [[]] → False)

/-- Rows that fit the query: as many values as placeholders in each, and one type in every column. -/
def Fit (params : Nat) (rows : List (List Value)) : Prop :=
  (rows = [] → params = 0) ∧ (∀ r ∈ rows, r.length = params) ∧
  ∀ r ∈ rows, ∀ r' ∈ rows, ∀ (i : Nat) (v v' : Value), r[i]? = some v → r'[i]? = some v' → v.type = v'.type

theorem dropBlank_bound (rows : List (List Value)) : Bound rows (dropBlank rows) := by
  unfold dropBlank
  by_cases h : rows.getLast? = some []
  · rw [if_pos h]
    obtain ⟨r, e⟩ := List.getLast?_eq_some_iff.1 h
    left
    rw [e]
    simp
  · rw [if_neg h]
    right
    refine ⟨rfl, ?_⟩
    intro r e
    exact h (List.getLast?_eq_some_iff.2 ⟨r, e⟩)

theorem bound_unique {rows b b' : List (List Value)} (h : Bound rows b) (h' : Bound rows b') : b = b' := by
  rcases h with h | ⟨h, hn⟩ <;> rcases h' with h' | ⟨h', hn'⟩
  · exact List.append_cancel_right (h.symm.trans h')
  · exact absurd (hn' b h) (by simp)
  · exact absurd (hn b' h') (by simp)
  · rw [← h, ← h']

/-- The checks pass exactly for the rows that fit (values always have a type). -/
theorem checkRows_correct (params : Nat) (rows : List (List Value)) (ht : ∀ r ∈ rows, ∀ v ∈ r, v.type ≠ 0) :
    checkRows params rows = .ok () ↔ Fit params rows := by
  unfold checkRows Fit
  cases rows with
  | nil =>
    dsimp only
    by_cases h : params = 0
    · simp [h]
    · simp [h]
  | cons r rs =>
    dsimp only
    by_cases h1 : params = r.length
    · rw [if_neg (by simpa using h1)]
      by_cases h2 : rs.any (·.length ≠ r.length) = true
      · rw [if_pos h2]
        simp only [reduceCtorEq, false_iff]
        rintro ⟨-, h, -⟩
        obtain ⟨x, hx, hl⟩ := List.any_eq_true.1 h2
        have := h x (by simp [hx])
        have hl' := of_decide_eq_true hl
        omega
      · rw [if_neg h2]
        have hlen : ∀ x ∈ r :: rs, x.length = params := by
          intro x hx
          rcases List.mem_cons.1 hx with rfl | hx
          · exact h1.symm
          · refine Classical.byContradiction fun hne => h2 ?_
            exact List.any_eq_true.2 ⟨x, hx, decide_eq_true (by rw [← h1]; exact hne)⟩
        -- the types of one column
        have col : ∀ i, i < r.length → (typesLoop i 0 (r :: rs) = true ↔ ∀ x ∈ r :: rs, ∀ y ∈ r :: rs, ∀ v v', x[i]? = some v → y[i]? = some v' → v.type = v'.type) := by
          intro i hi
          have hv : r[i]? = some r[i] := List.getElem?_eq_getElem hi
          have hv0 : r[i].type ≠ 0 := ht r (by simp) r[i] (List.getElem_mem hi)
          have hall : ∀ x ∈ rs, ∃ v, x[i]? = some v ∧ v.type ≠ 0 := by
            intro x hx
            have hxl : i < x.length := by rw [hlen x (by simp [hx]), h1]; exact hi
            exact ⟨x[i], List.getElem?_eq_getElem hxl, ht x (by simp [hx]) _ (List.getElem_mem hxl)⟩
          rw [typesLoop, if_neg (by simp), hv]
          simp only [Option.map_some, Option.getD_some]
          rw [typesLoop_iff i _ rs hall hv0]
          have hh : (∀ x ∈ rs, ∀ v, x[i]? = some v → v.type = r[i].type) ↔ ∀ x ∈ r :: rs, ∀ v, x[i]? = some v → v.type = r[i].type := by
            constructor
            · intro h x hx v hxv
              rcases List.mem_cons.1 hx with rfl | hx
              · rw [hv] at hxv
                rw [← Option.some.inj hxv]
              · exact h x hx v hxv
            · intro h x hx
              exact h x (by simp [hx])
          rw [hh]
          constructor
          · intro h x hx y hy v v' e e'
            rw [h x hx v e, h y hy v' e']
          · intro h x hx v e
            exact h x hx r (by simp) v _ e hv
        by_cases h3 : rs ≠ [] ∧ (List.range r.length).any (fun i => !typesLoop i 0 (r :: rs)) = true
        · rw [if_pos h3]
          simp only [reduceCtorEq, false_iff]
          rintro ⟨-, -, h⟩
          obtain ⟨i, hi, hb⟩ := List.any_eq_true.1 h3.2
          have := (col i (List.mem_range.1 hi)).2 fun x hx y hy v v' => h x hx y hy i v v'
          rw [this] at hb
          cases hb
        · rw [if_neg h3]
          simp only [true_iff]
          refine ⟨by simp, hlen, ?_⟩
          intro x hx y hy i v v' e e'
          by_cases hrs : rs = []
          · subst hrs
            rw [List.mem_singleton.1 hx] at e
            rw [List.mem_singleton.1 hy, e] at e'
            rw [Option.some.inj e']
          · have hi : i < r.length := by
              have := (List.getElem?_eq_some_iff.1 e).1
              rw [hlen x hx, h1] at this
              exact this
            refine (col i hi).1 ?_ x hx y hy v v' e e'
            refine Classical.byContradiction fun hne => h3 ⟨hrs, List.any_eq_true.2 ⟨i, List.mem_range.2 hi, ?_⟩⟩
            simpa using hne
    · rw [if_pos h1]
      simp only [reduceCtorEq, false_iff]
      rintro ⟨-, h, -⟩
      exact h1 (h r (by simp)).symm

theorem checkRows_even {params : Nat} {rows : List (List Value)} (h : checkRows params rows = .ok ()) : Even rows params ∧ (rows = [] → params = 0) := by
  unfold checkRows at h
  cases rows with
  | nil =>
    refine ⟨(by intro r hr; cases hr), fun _ => ?_⟩
    dsimp only at h
    by_cases hp : params = 0
    · exact hp
    · rw [if_pos hp] at h; cases h
  | cons r rs =>
    dsimp only at h
    by_cases h1 : params = r.length
    · rw [if_neg (by simpa using h1)] at h
      by_cases h2 : rs.any (·.length ≠ r.length) = true
      · rw [if_pos h2] at h; cases h
      · refine ⟨?_, by simp⟩
        intro x hx
        rcases List.mem_cons.1 hx with rfl | hx
        · exact h1.symm
        · refine Classical.byContradiction fun hne => h2 ?_
          exact List.any_eq_true.2 ⟨x, hx, decide_eq_true (by rw [← h1]; exact hne)⟩
    · rw [if_pos h1] at h; cases h

/-! ### The rows sent -/

/-- A statement that succeeds has sent every bound row once and in order, and the database accepted every request. -/
theorem execute_done {d : Driver} {q : List UInt8} {params : Nat} {rows bound : List (List Value)} {answer : List Request → Request → Option Err}
    {log : List Request} (h : execute d q params rows answer = (log, .done)) (hb : Bound rows bound) (hne : bound ≠ []) :
    sent log = bound.map (·.map some) ∧ ∀ l r k, log = l ++ r :: k → answer l r = none := by
  have e := bound_unique hb (dropBlank_bound rows)
  unfold execute at h
  by_cases hq : q = []
  · rw [if_pos hq] at h; cases h
  · rw [if_neg hq, ← e] at h
    cases hc : checkRows params bound with
    | error x => rw [hc] at h; cases h
    | ok u =>
      rw [hc] at h
      have hs := executeRows_spec d q params bound answer (checkRows_even hc).1 hne
      dsimp only at h
      rw [h] at hs
      exact hs.done rfl

/-- A statement that fails has sent the first rows, in order; all requests but the last one were accepted, and the error is
the database's answer to the last one unless the text could not be rewritten. -/
theorem execute_error {d : Driver} {q : List UInt8} {params : Nat} {rows bound : List (List Value)} {answer : List Request → Request → Option Err}
    {log : List Request} {e : Err} (h : execute d q params rows answer = (log, .error e)) (hb : Bound rows bound) (hne : bound ≠ []) :
    (∃ m, m ≤ bound.length ∧ sent log = (bound.take m).map (·.map some)) ∧
    (log = [] ∨ (∃ l r, log = l ++ [r] ∧ answer l r = some e ∧ ∀ l1 x k, l = l1 ++ x :: k → answer l1 x = none) ∨
      (e = .queryPrepare ∧ (sent log).length < bound.length ∧ ∀ l r k, log = l ++ r :: k → answer l r = none)) := by
  have e' := bound_unique hb (dropBlank_bound rows)
  unfold execute at h
  by_cases hq : q = []
  · rw [if_pos hq] at h
    simp only [Prod.mk.injEq] at h
    obtain ⟨rfl, -⟩ := h
    exact ⟨⟨0, by omega, rfl⟩, Or.inl rfl⟩
  · rw [if_neg hq, ← e'] at h
    cases hc : checkRows params bound with
    | error x =>
      rw [hc] at h
      simp only [Prod.mk.injEq] at h
      obtain ⟨rfl, -⟩ := h
      exact ⟨⟨0, by omega, rfl⟩, Or.inl rfl⟩
    | ok u =>
      rw [hc] at h
      have hs := executeRows_spec d q params bound answer (checkRows_even hc).1 hne
      dsimp only at h
      rw [h] at hs
      refine ⟨hs.part, ?_⟩
      rcases hs.err e rfl with h1 | ⟨h1, h2, h3, -⟩
      · exact Or.inr (Or.inl h1)
      · exact Or.inr (Or.inr ⟨h1, h3, h2⟩)

/-- Execution ends: it does not send requests for ever. -/
theorem execute_ends (d : Driver) (q : List UInt8) (params : Nat) (rows : List (List Value)) (answer : List Request → Request → Option Err) :
    (execute d q params rows answer).2 ≠ .hang := by
  unfold execute
  by_cases hq : q = []
  · rw [if_pos hq]; exact fun h => by cases h
  · rw [if_neg hq]
    cases hc : checkRows params (dropBlank rows) with
    | error x => exact fun h => by cases h
    | ok u =>
      dsimp only
      by_cases hn : dropBlank rows = []
      · rw [hn, executeRows_nil]
        cases queryformat q (flagsOf d) params (processRows d params 0) with
        | none => exact fun h => by cases h
        | some text =>
          dsimp only
          cases answer [] _ <;> exact fun h => by cases h
      · exact (executeRows_spec d q params _ answer (checkRows_even hc).1 hn).nohang

/-- Rows that do not fit the query are refused before anything is sent. -/
theorem execute_misfit (d : Driver) (q : List UInt8) (params : Nat) (rows bound : List (List Value)) (answer : List Request → Request → Option Err)
    (hb : Bound rows bound) (ht : ∀ r ∈ rows, ∀ v ∈ r, v.type ≠ 0) (hf : ¬ Fit params bound) :
    (execute d q params rows answer).1 = [] ∧ (execute d q params rows answer).2 ≠ .done := by
  have e := bound_unique hb (dropBlank_bound rows)
  have ht' : ∀ r ∈ bound, ∀ v ∈ r, v.type ≠ 0 := by
    intro r hr
    refine ht r ?_
    rcases hb with hb | ⟨hb, -⟩
    · rw [hb]; simp [hr]
    · rw [hb]; exact hr
  unfold execute
  by_cases hq : q = []
  · rw [if_pos hq]; exact ⟨rfl, fun h => by cases h⟩
  · rw [if_neg hq, ← e]
    cases hc : checkRows params bound with
    | error x => exact ⟨rfl, fun h => by cases h⟩
    | ok u => exact absurd ((checkRows_correct params bound ht').1 hc) hf

/-- A statement without bound values is sent once, and rows that fit are sent unless the text cannot be rewritten or the database
reports an error: the statement does not fail for another reason. -/
theorem execute_once (d : Driver) (q : List UInt8) (rows : List (List Value)) (answer : List Request → Request → Option Err)
    (hb : Bound rows []) (hq : ¬ ∀ c ∈ q, blank c = true) :
    ∃ r, (execute d q 0 rows answer).1 = [r] ∧ r.vals.flatten = [] ∧ (execute d q 0 rows answer).2 = match answer [] r with | some e => .error e | none => .done := by
  have e := bound_unique hb (dropBlank_bound rows)
  have hq0 : q ≠ [] := by
    rintro rfl
    exact hq (by simp)
  unfold execute
  rw [if_neg hq0, ← e]
  have hc : checkRows 0 [] = .ok () := rfl
  rw [hc]
  dsimp only
  rw [executeRows_nil]
  have hle : processRows d 0 0 ≤ 1 := by
    cases d <;> simp [processRows, mysqlRows, sqliteRows, pgsqlRows, odbcRows]
    split <;> omega
  cases hf : queryformat q (flagsOf d) 0 (processRows d 0 0) with
  | none =>
    exfalso
    rcases (queryformat_none _ _ _ _).1 hf with h | ⟨-, h, -⟩
    · exact hq h
    · omega
  | some text =>
    dsimp only
    refine ⟨⟨text, bindAll [] 0 (processRows d 0 0)⟩, ?_, bindAll_nil _, ?_⟩
    · cases answer [] _ <;> rfl
    · cases answer [] _ <;> rfl

/-- The limits of a driver on one request: the rows and the values it may hold, where there is a limit. -/
def limitRows : Driver → Option Nat
  | .mysql => none
  | .sqlite _ mc => some mc.toNat
  | .pgsql => some 100
  | .odbc _ _ mr _ => if mr = 0 then none else some mr
  | .oracle => none

/-- See `limitRows`: the values of one request. -/
def limitVals : Driver → Option Nat
  | .mysql => some 65535
  | .sqlite mp _ => some mp.toNat
  | .odbc true _ _ mp => some mp
  | _ => none

/-- No request holds more rows or values than the driver allows, unless it holds a single row. -/
theorem execute_limits (d : Driver) (params left : Nat) (hl : left ≠ 0) :
    processRows d params left = 1 ∨ ((∀ n, limitRows d = some n → processRows d params left ≤ n) ∧ (∀ n, limitVals d = some n → processRows d params left * params ≤ n)) := by
  cases d with
  | mysql =>
    simp only [processRows, mysqlRows, limitRows, limitVals, reduceCtorEq, false_implies, implies_true, true_and, Option.some.injEq, forall_eq']
    split
    · omega
    · split
      · omega
      · split
        · omega
        · right; exact div_mul_le' _ _ _ (Nat.min_le_right _ _)
  | sqlite mp mc =>
    simp only [processRows, sqliteRows, limitRows, limitVals, Option.some.injEq, forall_eq']
    split
    · omega
    · split
      · omega
      · split
        · omega
        · split
          · omega
          · split
            · omega
            · right
              exact ⟨by omega, div_mul_le' _ _ _ (by omega)⟩
  | pgsql =>
    right
    simp only [processRows, pgsqlRows, limitRows, limitVals, Option.some.injEq, forall_eq', reduceCtorEq, false_implies, implies_true, and_true]
    omega
  | odbc mv oc mr mp =>
    simp only [processRows, odbcRows]
    have hr : ∀ n, limitRows (.odbc mv oc mr mp) = some n → n = mr ∧ mr ≠ 0 := by
      intro n h
      simp only [limitRows] at h
      by_cases hz : mr = 0
      · rw [if_pos hz] at h; cases h
      · rw [if_neg hz] at h; exact ⟨(Option.some.inj h).symm, hz⟩
    cases mv with
    | false =>
      right
      rw [if_pos rfl]
      refine ⟨?_, fun n h => by cases h⟩
      intro n h
      obtain ⟨rfl, hz⟩ := hr n h
      split <;> omega
    | true =>
      rw [if_neg (by simp)]
      split
      · omega
      · split
        · omega
        · split
          · omega
          · right
            refine ⟨?_, ?_⟩
            · intro n h
              obtain ⟨rfl, hz⟩ := hr n h
              split <;> omega
            · intro n h
              simp only [limitVals, Option.some.injEq] at h
              rw [← h]
              exact div_mul_le' _ _ _ (Nat.min_le_right _ _)
  | oracle =>
    right
    exact ⟨(by intro n h; cases h), (by intro n h; cases h)⟩

theorem count_intercalate (g : List UInt8) (n : Nat) : (List.intercalate [44] (List.replicate n g)).count 63 = n * g.count 63 := by
  rw [← copies_eq]
  exact count_copies 63 g n (by decide)

theorem values_free {v : List UInt8} (h : ValuesWord v) : v.count 63 = 0 := by
  refine List.count_eq_zero.2 fun hm => ?_
  have gen : ∀ (a b : List UInt8), Str.Alike true a b → (63 : UInt8) ∈ a → (∀ y ∈ b, 65 ≤ y ∧ y ≤ 90) → False := by
    intro a b hab
    induction hab with
    | nil => intro h; cases h
    | @cons x y a b hs _ ih =>
      intro hx hb
      rcases List.mem_cons.1 hx with rfl | hx
      · have hy := hb y (by simp)
        have q1 := UInt8.le_iff_toNat_le.1 hy.1
        have e65 : (65 : UInt8).toNat = 65 := rfl
        have e90 : (90 : UInt8).toNat = 90 := rfl
        have e63 : (63 : UInt8).toNat = 63 := rfl
        rcases hs with rfl | ⟨-, ⟨h1, -, -⟩ | ⟨-, h2, h3⟩⟩
        · omega
        · have := UInt8.le_iff_toNat_le.1 h1
          omega
        · have q2 := UInt8.le_iff_toNat_le.1 h2
          have := congrArg UInt8.toNat h3
          rw [UInt8.toNat_add] at this
          have e32 : (32 : UInt8).toNat = 32 := rfl
          omega
      · exact ih hx fun y hy => hb y (by simp [hy])
  exact gen _ _ h hm (by decide)

theorem flatten_length {α : Type} {p : Nat} {l : List (List α)} (h : ∀ r ∈ l, r.length = p) : l.flatten.length = l.length * p := by
  induction l with
  | nil => simp
  | cons r l ih =>
    rw [List.flatten_cons, List.length_append, ih (fun x hx => h x (by simp [hx])), h r (by simp), List.length_cons, Nat.succ_mul]
    omega

/-- Databases that take lists of values; the others take arrays of values for one row of placeholders. -/
def takesLists : Driver → Bool
  | .mysql | .sqlite _ _ | .pgsql => true
  | .odbc mv _ _ _ => mv
  | .oracle => false

/-- How a database numbers placeholders: `$1`, `:1` or not at all. -/
def style : Driver → Option UInt8
  | .pgsql => some 36
  | .oracle => some 58
  | _ => none

/-- Databases that are told to pass over conflicts. -/
def passesConflicts : Driver → Bool
  | .pgsql => true
  | .odbc _ oc _ _ => oc
  | _ => false

/-- The text `t` for a database is `u` with its placeholders written in the style of the database; an insert is followed by
the clause about conflicts if the database needs one. -/
def TextFor (d : Driver) (params : Nat) (u t : List UInt8) : Prop :=
  ∃ w, Placed (if params = 0 then none else style d) 1 u w ∧
    ((passesConflicts d = true ∧ StartsInsert w ∧ t = w ++ conflictClause) ∨ (¬ (passesConflicts d = true ∧ StartsInsert w) ∧ t = w))

theorem textFor_of {d : Driver} {params : Nat} {u w x t : List UInt8} (hP : Placed (sigil (flagsOf d) params) 1 u w) (hE : Ending (flagsOf d) w x)
    (ht : t = w ++ x) : TextFor d params u t := by
  have h1 : sigil (flagsOf d) params = if params = 0 then none else style d := by
    unfold sigil
    cases d <;> rfl
  have h2 : (flagsOf d).onConflict = passesConflicts d := by cases d <;> rfl
  have h3 : (flagsOf d).terminator = false := by cases d <;> rfl
  obtain ⟨c, hc, rfl⟩ := hE
  rw [h3] at ht
  rw [h2] at hc
  simp only [Bool.false_eq_true, if_false, List.append_nil] at ht
  refine ⟨w, h1 ▸ hP, ?_⟩
  rcases hc with ⟨h4, h5, rfl⟩ | ⟨h4, rfl⟩
  · exact Or.inl ⟨h4, h5, ht⟩
  · exact Or.inr ⟨h4, by simpa using ht⟩

theorem execute_req {d : Driver} {q : List UInt8} {params : Nat} {rows bound : List (List Value)} {answer : List Request → Request → Option Err}
    {r : Request} (hr : r ∈ (execute d q params rows answer).1) (hb : Bound rows bound) (hne : bound ≠ []) :
    Even bound params ∧ r ∈ (executeRows d q params bound answer).1 := by
  have e' := bound_unique hb (dropBlank_bound rows)
  unfold execute at hr
  by_cases hq : q = []
  · rw [if_pos hq] at hr; cases hr
  · rw [if_neg hq, ← e'] at hr
    cases hc : checkRows params bound with
    | error x => rw [hc] at hr; cases hr
    | ok un =>
      rw [hc] at hr
      exact ⟨(checkRows_even hc).1, hr⟩

/-- A database that takes arrays of values gets the text for one row, whatever the number of rows. -/
theorem execute_arrays {d : Driver} {q : List UInt8} {params : Nat} {rows bound : List (List Value)} {answer : List Request → Request → Option Err}
    (hd : takesLists d = false) (hb : Bound rows bound) (hne : bound ≠ []) :
    ∀ r ∈ (execute d q params rows answer).1, ∃ m, minimize q = some m ∧ TextFor d params m r.text := by
  intro r hr
  obtain ⟨hev, hr⟩ := execute_req hr hb hne
  obtain ⟨hf, -⟩ := (executeRows_spec d q params bound answer hev hne).req r hr
  obtain ⟨m, u, w, x, hm, hu, hP, hE, ht⟩ := queryformat_correct _ _ _ _ _ hf
  have hmv : (flagsOf d).multiValue = takesLists d := by cases d <;> rfl
  rcases hu with ⟨h, -⟩ | ⟨-, rfl⟩
  · rw [hmv, hd] at h; cases h
  · exact ⟨u, hm, textFor_of hP hE ht⟩

/-- Every request of a database that takes lists of values has as many placeholders as it has values, and they are numbered from
one on if the database numbers them: the value in row `i` and column `k` of the request belongs to placeholder `i * params + k + 1`.
Missing: this needs all placeholders of the query to lie in the parentheses behind its first `values`
(`placeholders_name_fails`, `placeholders_outside_fails`). -/
theorem execute_placeholders_partial {d : Driver} {q m a v g b : List UInt8} {params : Nat} {rows bound : List (List Value)}
    {answer : List Request → Request → Option Err} (hd : takesLists d = true) (hb : Bound rows bound) (hne : bound ≠ [])
    (hm : minimize q = some m) (e : m = a ++ v ++ g ++ b) (hv : ValuesWord v) (hn : ¬ HasValues (a ++ v)) (hg : Group g)
    (ha : (63 : UInt8) ∉ a) (hb2 : (63 : UInt8) ∉ b) (hp : g.count 63 = params) :
    ∀ r ∈ (execute d q params rows answer).1, ∃ u, u.count 63 = r.vals.flatten.length ∧ (∀ y ∈ r.vals.flatten, y ≠ none) ∧
      u = a ++ v ++ List.intercalate [44] (List.replicate r.vals.length g) ++ b ∧ TextFor d params u r.text := by
  intro r hr
  obtain ⟨hev, hr⟩ := execute_req hr hb hne
  have hs := executeRows_spec d q params bound answer hev hne
  obtain ⟨hf, left, hl0, hle, hlen⟩ := hs.req r hr
  obtain ⟨m', u, w, x, hm', hu, hP, hE, ht⟩ := queryformat_correct _ _ _ _ _ hf
  rw [hm] at hm'
  obtain rfl := Option.some.inj hm'
  have hmv : (flagsOf d).multiValue = takesLists d := by cases d <;> rfl
  -- the rows of the request are bound rows
  have hrow : ∀ y ∈ r.vals, ∃ z ∈ bound, y = z.map some := by
    intro y hy
    obtain ⟨k, -, hk⟩ := hs.part
    have : y ∈ sent (executeRows d q params bound answer).1 := by
      unfold sent
      exact List.mem_flatten.2 ⟨r.vals, List.mem_map_of_mem (f := Request.vals) hr, hy⟩
    rw [hk] at this
    obtain ⟨z, hz, rfl⟩ := List.mem_map.1 this
    exact ⟨z, List.mem_of_mem_take hz, rfl⟩
  have hfl : r.vals.flatten.length = r.vals.length * params := by
    refine flatten_length fun y hy => ?_
    obtain ⟨z, hz, rfl⟩ := hrow y hy
    rw [List.length_map]
    exact hev z hz
  have hnn : ∀ y ∈ r.vals.flatten, y ≠ none := by
    intro y hy
    obtain ⟨l, hl, hyl⟩ := List.mem_flatten.1 hy
    obtain ⟨z, hz, rfl⟩ := hrow l hl
    obtain ⟨t, -, rfl⟩ := List.mem_map.1 hyl
    simp
  have ca := List.count_eq_zero.2 ha
  have cb := List.count_eq_zero.2 hb2
  have cv := values_free hv
  have hu' : u = a ++ v ++ List.intercalate [44] (List.replicate r.vals.length g) ++ b := by
    rcases hu with ⟨-, hgt, a', v', g', b', e2, hv', hn', hg', rfl⟩ | ⟨hno, rfl⟩
    · have h1 : expand m r.vals.length = some (a ++ v ++ List.intercalate [44] (List.replicate r.vals.length g) ++ b) := (expand_correct _ _ _).2 ⟨a, v, g, b, e, hv, hn, hg, rfl⟩
      have h2 : expand m r.vals.length = some (a' ++ v' ++ List.intercalate [44] (List.replicate r.vals.length g') ++ b') := (expand_correct _ _ _).2 ⟨a', v', g', b', e2, hv', hn', hg', rfl⟩
      rw [h1] at h2
      exact (Option.some.inj h2).symm
    · have h1 := (processRows_bounds d params left hl0).1
      have : r.vals.length = 1 := by
        have : ¬ r.vals.length > 1 := fun h => hno ⟨by rw [hmv]; exact hd, h⟩
        omega
      rw [this, e]
      simp [List.intercalate]
  refine ⟨u, ?_, hnn, hu', textFor_of hP hE ht⟩
  rw [hfl, hu']
  simp only [List.count_append, ca, cb, cv, count_intercalate, hp]
  omega

theorem insert_iff (w : List UInt8) : Str.eqMaxInt true w insertWord 6 = true ↔ StartsInsert w := by
  rw [Str.eqMax_iff true w insertWord 6]
  constructor
  · intro ha
    exact ⟨w.take 6, w.drop 6, (List.take_append_drop 6 w).symm, ha⟩
  · rintro ⟨x, y, rfl, ha⟩
    have hl := alike_length ha
    simp at hl
    rw [List.take_left' hl]
    exact ha

/-- With PostgreSQL an insert of bound rows is a success exactly if all rows of the request were inserted, and otherwise a conflict;
other statements succeed whatever rows they affect.
Missing: inserts without bound values (`pgsql_insert_fails`). -/
theorem pgsql_insert_partial (text : List UInt8) (affected bound : Nat) :
    (StartsInsert text → bound ≠ 0 → pgsqlOutcome text affected bound = if affected = processRows .pgsql 1 bound then none else some .constraint) ∧
    (¬ StartsInsert text → pgsqlOutcome text affected bound = none) := by
  rw [← insert_iff]
  unfold pgsqlOutcome
  constructor
  · intro hi _
    rw [hi]
    simp only [true_and, processRows]
    by_cases e : affected = pgsqlRows bound
    · simp [e]
    · simp [e]
  · intro hi
    rw [if_neg (fun h => hi h.1)]

end Verif.SqlQuery
