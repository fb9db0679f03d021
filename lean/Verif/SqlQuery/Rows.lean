import Verif.SqlQuery.Model
/- The rows that are sent. -/
namespace Verif.SqlQuery

theorem processRows_bounds (d : Driver) (p r : Nat) (h : r ≠ 0) : 1 ≤ processRows d p r ∧ processRows d p r ≤ r := by
  cases d with
  | mysql =>
    simp only [processRows, mysqlRows]
    generalize 65535 / p = k
    split
    · omega
    · split
      · omega
      · split <;> omega
  | sqlite mp mc =>
    simp only [processRows, sqliteRows]
    generalize mp.toNat / p = k
    repeat' split
    all_goals omega
  | pgsql => simp only [processRows, pgsqlRows]; omega
  | odbc mv oc mr mp =>
    simp only [processRows, odbcRows]
    generalize mp / p = k
    split
    · split <;> omega
    · split
      · omega
      · split
        · omega
        · split
          · omega
          · split <;> omega
  | oracle => simp only [processRows]; omega

theorem div_mul_le' (a b k : Nat) (h : k ≤ a / b) : k * b ≤ a :=
  Nat.le_trans (Nat.mul_le_mul_right b h) (Nat.div_mul_le_self a b)

/-- All rows have the same number of values. -/
def Even (rows : List (List Value)) (cols : Nat) : Prop := ∀ r ∈ rows, r.length = cols

theorem bindRows_le {rows : List (List Value)} {o : Nat} (h : o ≤ rows.length) : bindRows rows o = rows.length - o := by
  unfold bindRows
  rw [if_neg (by omega)]

theorem range_get {α : Type} (l : List α) : (List.range l.length).map (fun i => l[i]?) = l.map some := by
  apply List.ext_getElem?
  intro i
  by_cases h : i < l.length
  · simp [h]
  · simp [h]

theorem range_drop_get {α β : Type} (l : List α) (o n : Nat) (f : α → β) (g : Nat → β) (h : o + n ≤ l.length)
    (hg : ∀ i, i < n → ∀ x, l[i + o]? = some x → g i = f x) : (List.range n).map g = ((l.drop o).take n).map f := by
  apply List.ext_getElem?
  intro i
  by_cases hi : i < n
  · have hl : i + o < l.length := by omega
    have e := hg i hi l[i + o] (List.getElem?_eq_getElem hl)
    simp only [List.getElem?_map, List.getElem?_range hi, Option.map_some, e]
    rw [List.getElem?_take_of_lt hi, List.getElem?_drop, Nat.add_comm o i, List.getElem?_eq_getElem hl]
    rfl
  · simp only [List.getElem?_map]
    rw [List.getElem?_eq_none (by simp; omega), List.getElem?_eq_none (by simp; omega)]
    rfl

theorem bindAll_eq {rows : List (List Value)} {cols o n : Nat} (he : Even rows cols) (hne : rows ≠ []) (h : o + n ≤ rows.length) :
    bindAll rows o n = ((rows.drop o).take n).map (·.map some) := by
  have hc : bindCnt rows = cols := by
    cases rows with
    | nil => exact absurd rfl hne
    | cons r rs => exact he r (by simp)
  unfold bindAll
  refine range_drop_get rows o n _ _ h ?_
  intro i hi x hx
  have hxl : x.length = cols := he x (List.mem_of_getElem? hx)
  rw [hc, ← hxl, ← range_get]
  apply List.map_congr_left
  intro k hk
  have hk' : k < x.length := List.mem_range.1 hk
  unfold bindGet
  rw [bindRows_le (by omega), hc, if_neg (by omega), hx]
  rfl

/-- The values of a list of requests, row by row. -/
def sent (log : List Request) : List (List (Option Value)) := (log.map Request.vals).flatten

theorem sent_snoc (log : List Request) (r : Request) : sent (log ++ [r]) = sent log ++ r.vals := by simp [sent]

structure LoopInv (d : Driver) (q : List UInt8) (params : Nat) (rows : List (List Value)) (answer : List Request → Request → Option Err)
    (log : List Request) (o : Nat) : Prop where
  sentRows : sent log = (rows.take o).map (·.map some)
  ok : ∀ l r k, log = l ++ r :: k → answer l r = none
  req : ∀ r ∈ log, queryformat q (flagsOf d) params r.vals.length = some r.text ∧ ∃ left, left ≠ 0 ∧ left ≤ rows.length ∧ r.vals.length = processRows d params left

/-- What a run of the loop did. -/
structure LoopOut (d : Driver) (q : List UInt8) (params : Nat) (rows : List (List Value)) (answer : List Request → Request → Option Err)
    (out : List Request × Result) : Prop where
  nohang : out.2 ≠ .hang
  done : out.2 = .done → sent out.1 = rows.map (·.map some) ∧ ∀ l r k, out.1 = l ++ r :: k → answer l r = none
  part : ∃ m, m ≤ rows.length ∧ sent out.1 = (rows.take m).map (·.map some)
  err : ∀ e, out.2 = .error e →
    (∃ l r, out.1 = l ++ [r] ∧ answer l r = some e ∧ ∀ l1 x k, l = l1 ++ x :: k → answer l1 x = none) ∨
    (e = .queryPrepare ∧ (∀ l r k, out.1 = l ++ r :: k → answer l r = none) ∧ (sent out.1).length < rows.length ∧
      ∃ left, left = rows.length - (sent out.1).length ∧ queryformat q (flagsOf d) params (processRows d params left) = none)
  req : ∀ r ∈ out.1, queryformat q (flagsOf d) params r.vals.length = some r.text ∧ ∃ left, left ≠ 0 ∧ left ≤ rows.length ∧ r.vals.length = processRows d params left

theorem snoc_cases {α : Type} {l : List α} {x : α} {a : List α} {y : α} {b : List α} (h : l ++ [x] = a ++ y :: b) :
    (b = [] ∧ a = l ∧ y = x) ∨ (∃ b', l = a ++ y :: b') := by
  rcases List.eq_nil_or_concat b with hb | ⟨b', z, hb⟩
  · subst hb
    have := List.append_inj' h rfl
    simp only [List.cons.injEq, and_true] at this
    exact Or.inl ⟨rfl, this.1.symm, this.2.symm⟩
  · subst hb
    right
    rw [List.concat_eq_append] at h
    have h' : l ++ [x] = (a ++ y :: b') ++ [z] := by rw [h]; simp
    have := List.append_inj' h' rfl
    exact ⟨b', this.1⟩

theorem executeLoop_spec (d : Driver) (q : List UInt8) (params : Nat) (rows : List (List Value)) (answer : List Request → Request → Option Err)
    (he : Even rows params) (hne : rows ≠ []) : ∀ fuel o log, o < rows.length → rows.length < o + fuel → LoopInv d q params rows answer log o →
    LoopOut d q params rows answer (executeLoop d q params rows answer fuel o log) := by
  have hc : bindCnt rows = params := by
    cases rows with
    | nil => exact absurd rfl hne
    | cons r rs => exact he r (by simp)
  intro fuel
  induction fuel with
  | zero => intro o log h1 h2; omega
  | succ fuel ih =>
    intro o log h1 h2 hi
    rw [executeLoop]
    have hlen : (sent log).length = o := by rw [hi.sentRows]; simp; omega
    rw [hc, bindRows_le (show o ≤ rows.length by omega)]
    cases hq : queryformat q (flagsOf d) params (processRows d params (rows.length - o)) with
    | none =>
      refine ⟨(by intro h; cases h), (by intro h; cases h), ⟨o, by omega, hi.sentRows⟩, ?_, hi.req⟩
      intro e hee
      simp only [Result.error.injEq] at hee
      subst hee
      refine Or.inr ⟨rfl, hi.ok, ?_, rows.length - o, ?_, hq⟩
      · show (sent log).length < _
        omega
      · show _ = rows.length - (sent log).length
        rw [hlen]
    | some text =>
      obtain ⟨b1, b2⟩ := processRows_bounds d params (rows.length - o) (by omega)
      generalize hn : processRows d params (rows.length - o) = n at *
      have hb : bindAll rows o n = ((rows.drop o).take n).map (·.map some) := bindAll_eq he hne (by omega)
      have hbl : (bindAll rows o n).length = n := by rw [hb]; simp; omega
      have hsent : sent (log ++ [⟨text, bindAll rows o n⟩]) = (rows.take (o + n)).map (·.map some) := by
        rw [sent_snoc, hi.sentRows, hb, ← List.map_append, List.take_add]
      have hreq : ∀ r ∈ log ++ [(⟨text, bindAll rows o n⟩ : Request)], queryformat q (flagsOf d) params r.vals.length = some r.text ∧ ∃ left, left ≠ 0 ∧ left ≤ rows.length ∧ r.vals.length = processRows d params left := by
        intro r hr
        rcases List.mem_append.1 hr with hr | hr
        · exact hi.req r hr
        · rw [List.mem_singleton.1 hr]
          dsimp only
          rw [hbl]
          exact ⟨hq, rows.length - o, by omega, by omega, hn.symm⟩
      dsimp only
      cases ha : answer log ⟨text, bindAll rows o n⟩ with
      | some e =>
        dsimp only
        refine ⟨(by intro h; cases h), (by intro h; cases h), ⟨o + n, by omega, hsent⟩, ?_, hreq⟩
        intro e' hee
        simp only [Result.error.injEq] at hee
        subst hee
        exact Or.inl ⟨log, _, rfl, ha, hi.ok⟩
      | none =>
        dsimp only
        have hok : ∀ l r k, log ++ [(⟨text, bindAll rows o n⟩ : Request)] = l ++ r :: k → answer l r = none := by
          intro l r k e
          rcases snoc_cases e with ⟨-, rfl, rfl⟩ | ⟨k', e'⟩
          · exact ha
          · exact hi.ok l r k' e'
        rw [bindRows_le (show o + n ≤ rows.length by omega)]
        by_cases hz : rows.length - (o + n) ≠ 0
        · rw [if_pos hz]
          exact ih (o + n) _ (by omega) (by omega) ⟨hsent, hok, hreq⟩
        · rw [if_neg hz]
          have hfull : rows.take (o + n) = rows := List.take_of_length_le (by omega)
          refine ⟨(by intro h; cases h), fun _ => ⟨by rw [hsent, hfull], hok⟩, ⟨o + n, by omega, hsent⟩, (by intro e h; cases h), hreq⟩

theorem executeRows_spec (d : Driver) (q : List UInt8) (params : Nat) (rows : List (List Value)) (answer : List Request → Request → Option Err)
    (he : Even rows params) (hne : rows ≠ []) : LoopOut d q params rows answer (executeRows d q params rows answer) := by
  have : 0 < rows.length := List.length_pos_iff.2 hne
  refine executeLoop_spec d q params rows answer he hne _ _ _ this (by omega) ⟨rfl, ?_, ?_⟩
  · intro l r k e; simp at e
  · intro r hr; cases hr

theorem executeRows_nil (d : Driver) (q : List UInt8) (params : Nat) (answer : List Request → Request → Option Err) :
    executeRows d q params [] answer = match queryformat q (flagsOf d) params (processRows d params 0) with
      | none => ([], .error .queryPrepare)
      | some text =>
        let req : Request := ⟨text, bindAll [] 0 (processRows d 0 0)⟩
        match answer [] req with
        | some e => ([req], .error e)
        | none => ([req], .done) := by
  have z : ∀ n, bindRows [] n = 0 := by
    intro n
    unfold bindRows
    simp
  unfold executeRows
  rw [List.length_nil, executeLoop, z]
  cases queryformat q (flagsOf d) params (processRows d params 0) with
  | none => rfl
  | some text =>
    dsimp only [bindCnt]
    cases answer [] _ with
    | some e => rfl
    | none =>
      dsimp only
      rw [z]
      rfl

theorem bindAll_nil (n : Nat) : (bindAll [] 0 n).flatten = [] := by
  simp [bindAll, bindCnt]

theorem typesLoop_iff (i t : Nat) (rs : List (List Value)) (h : ∀ r ∈ rs, ∃ v, r[i]? = some v ∧ v.type ≠ 0) (ht : t ≠ 0) :
    typesLoop i t rs = true ↔ ∀ r ∈ rs, ∀ v, r[i]? = some v → v.type = t := by
  induction rs generalizing t with
  | nil => simp [typesLoop]
  | cons r rs ih =>
    obtain ⟨v, hv, hvt⟩ := h r (by simp)
    have hrs := fun t ht => ih (t := t) (fun r hr => h r (by simp [hr])) ht
    rw [typesLoop]
    rw [hv]
    simp only [Option.map_some, Option.getD_some]
    by_cases e : v.type = t
    · rw [if_neg (by simp [e]), hrs v.type hvt]
      constructor
      · intro hh r' hr' w hw
        rcases List.mem_cons.1 hr' with rfl | hr'
        · rw [hv] at hw
          simp only [Option.some.injEq] at hw
          rw [← hw]; exact e
        · rw [← e]; exact hh r' hr' w hw
      · intro hh r' hr' w hw
        rw [e]
        exact hh r' (by simp [hr']) w hw
    · rw [if_pos ⟨ht, e⟩]
      simp only [Bool.false_eq_true, false_iff]
      intro hh
      exact e (hh r (by simp) v hv)

end Verif.SqlQuery
