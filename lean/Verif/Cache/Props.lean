import Verif.Cache.Model
import Verif.LList.Props
import Verif.Hash.AsMap
/- Property C12: the cache is an exact LRU of bounded size. -/
namespace Verif.Cache

open Verif

variable {P : Type _}

/-! ### Specification: the bindings, most recently used first, and the bound. -/

inductive Op (P : Type _) where
  | insert (k : Option P) (v : P)
  | get (k : Option P)
  | remove (k : Option P)
  | size
  | setMax (n : Nat)

inductive Res (P : Type _) where
  | bool (b : Bool)
  | val (v : Option P)
  | num (n : Nat)
  | unit
deriving DecidableEq

structure S (P : Type _) where
  max : Nat
  items : List (P × P)

/-- The binding of `k`. -/
def S.find (cmp : P → P → Int) (s : S P) (k : P) : Option (P × P) := s.items.find? fun e => decide (cmp e.1 k = 0)

/-- The bindings of the other keys, in order. -/
def S.others (cmp : P → P → Int) (s : S P) (k : P) : List (P × P) := s.items.filter fun e => decide (cmp e.1 k ≠ 0)

/-- `k` becomes the most recently used key; what exceeds the bound is dropped from the other end.  Which of the equal
key objects is kept is left open. -/
def Spec (cmp : P → P → Int) (s : S P) : Op P → Res P → S P → Prop
  | .insert none _, r, s' => r = .bool false ∧ s' = s
  | .insert (some k) v, r, s' =>
    if s.max = 0 then r = .bool false ∧ s' = s
    else r = .bool true ∧ ∃ k', cmp k' k = 0 ∧ s' = { s with items := ((k', v) :: s.others cmp k).take s.max }
  | .get none, r, s' => r = .val none ∧ s' = s
  | .get (some k), r, s' =>
    match s.find cmp k with
    | none => r = .val none ∧ s' = s
    | some e => r = .val (some e.2) ∧ s' = { s with items := e :: s.others cmp k }
  | .remove none, r, s' => r = .bool false ∧ s' = s
  | .remove (some k), r, s' => r = .bool (s.find cmp k).isSome ∧ s' = { s with items := s.others cmp k }
  | .size, r, s' => r = .num s.items.length ∧ s' = s
  | .setMax n, r, s' => r = .unit ∧ s' = { max := n, items := s.items.take n }

inductive SpecRun (cmp : P → P → Int) : S P → List (Op P) → List (Res P) → S P → Prop
  | nil (s) : SpecRun cmp s [] [] s
  | cons {s s' s'' op ops r rs} : Spec cmp s op r s' → SpecRun cmp s' ops rs s'' → SpecRun cmp s (op :: ops) (r :: rs) s''

/-! ### Execution of the model -/

def step (cb : Callbacks P) (c : C P) : Op P → Option (Res P × C P)
  | .insert k v => (insert cb c k v).map fun r => (.bool r.1, r.2)
  | .get k => (get cb c k).map fun r => (.val r.1, r.2)
  | .remove k => (remove cb c k).map fun r => (.bool r.1, r.2)
  | .size => some (.num (size c), c)
  | .setMax n => (setMaxSize cb c n).map fun c => (.unit, c)

def run (cb : Callbacks P) (c : C P) : List (Op P) → Option (List (Res P) × C P)
  | [] => some ([], c)
  | op :: ops => (step cb c op).bind fun r => (run cb r.2 ops).map fun r' => (r.1 :: r'.1, r'.2)

/-- What the callbacks must satisfy: a comparison consistent with the hash, and a duplicate key equal to the original. -/
structure Good (cb : Callbacks P) : Prop where
  cmp : LawfulCmp cb.cmp
  hash : ∀ a b, cb.cmp a b = 0 → cb.hash a = cb.hash b
  keyDup : ∀ f, cb.keyDup = some f → ∀ k, cb.cmp (f k) k = 0

/-! ### Proof -/

theorem cfg_lawful {cb : Callbacks P} (hg : Good cb) : Hash.Lawful (cfg cb) := ⟨hg.cmp, hg.hash, fun h => nomatch h⟩

/-- Where key `k` sits. -/
def loc (cb : Callbacks P) (t : List (Nat × (P × P))) (k : P) : Option Nat :=
  (t.find? fun e => decide (cb.cmp e.2.1 k = 0)).map (·.1)

structure Inv (cb : Callbacks P) (c : C P) (s : S P) (t : List (Nat × (P × P))) : Prop where
  rep : LList.Rep c.list t
  vals : t.map (·.2) = s.items
  lin : c.list.circular = false
  maps : Hash.Maps (cfg cb) c.table (loc cb t)
  max : c.max = s.max
  dist : t.Pairwise fun a b => cb.cmp a.2.1 b.2.1 ≠ 0
  bound : t.length ≤ s.max

theorem loc_none {cb : Callbacks P} {t : List (Nat × (P × P))} {k : P} (h : ∀ e ∈ t, cb.cmp e.2.1 k ≠ 0) : loc cb t k = none := by
  simp only [loc, Option.map_eq_none_iff, List.find?_eq_none, decide_eq_true_eq]
  exact h

theorem loc_cases {cb : Callbacks P} (hg : Good cb) {t : List (Nat × (P × P))} (hd : t.Pairwise fun a b => cb.cmp a.2.1 b.2.1 ≠ 0)
    (k : P) :
    (loc cb t k = none ∧ ∀ e ∈ t, cb.cmp e.2.1 k ≠ 0) ∨
    ∃ A p B, t = A ++ p :: B ∧ loc cb t k = some p.1 ∧ cb.cmp p.2.1 k = 0 ∧ (∀ e ∈ A, cb.cmp e.2.1 k ≠ 0) ∧
      (∀ e ∈ B, cb.cmp e.2.1 k ≠ 0) := by
  cases hf : t.find? (fun e => decide (cb.cmp e.2.1 k = 0)) with
  | none =>
    left
    refine ⟨by simp [loc, hf], ?_⟩
    simpa using hf
  | some p =>
    right
    obtain ⟨h1, A, B, h2, h3⟩ := List.find?_eq_some_iff_append.1 hf
    subst h2
    have hk : cb.cmp p.2.1 k = 0 := by simpa using h1
    refine ⟨A, p, B, rfl, by simp [loc, hf], hk, by simpa using h3, ?_⟩
    intro e he h0
    have := List.rel_of_pairwise_cons (List.pairwise_append.1 hd).2.1 he
    exact this (hg.cmp.eq_trans hk ((hg.cmp.eq_swap _ _).1 h0))

theorem loc_congr {cb : Callbacks P} (hg : Good cb) {t : List (Nat × (P × P))} {k k' : P} (h : cb.cmp k k' = 0) :
    loc cb t k = loc cb t k' := by
  unfold loc
  congr 2
  funext e
  have : cb.cmp e.2.1 k = 0 ↔ cb.cmp e.2.1 k' = 0 :=
    ⟨fun h1 => hg.cmp.eq_trans h1 h, fun h1 => hg.cmp.eq_trans h1 ((hg.cmp.eq_swap _ _).1 h)⟩
  simp [this]

/-- Removing the key of an entry from the table. -/
theorem removeMaps {cb : Callbacks P} (hg : Good cb) {h : Hash.HT P Nat} {A B : List (Nat × (P × P))} {p} {k : P}
    (hm : Hash.Maps (cfg cb) h (loc cb (A ++ p :: B))) (hk : cb.cmp p.2.1 k = 0)
    (ha : ∀ e ∈ A, cb.cmp e.2.1 k ≠ 0) (hb : ∀ e ∈ B, cb.cmp e.2.1 k ≠ 0) :
    ∃ b h', Hash.remove (cfg cb) h k = some (b, h') ∧ Hash.Maps (cfg cb) h' (loc cb (A ++ B)) := by
  obtain ⟨h', k1, k2⟩ := hm.remove (cfg_lawful hg) rfl k
  refine ⟨_, h', k1, k2.congr fun k' => ?_⟩
  show (if cb.cmp k k' = 0 then none else _) = _
  split
  next h =>
    rw [← loc_congr hg h, loc_none]
    intro e he
    exact (List.mem_append.1 he).elim (ha e) (hb e)
  next h =>
    have : cb.cmp p.2.1 k' ≠ 0 := fun h1 => h (hg.cmp.eq_trans ((hg.cmp.eq_swap _ _).1 hk) h1)
    simp [loc, List.find?_append, List.find?_cons, this]

/-- Adding a binding for a key that is not there; `t'` is any list with the same entries and the new one. -/
theorem insertMaps {cb : Callbacks P} (hg : Good cb) {h : Hash.HT P Nat} {A B : List (Nat × (P × P))} {n : Nat} {k v : P}
    (hm : Hash.Maps (cfg cb) h (loc cb (A ++ B))) (hno : ∀ e ∈ A ++ B, cb.cmp e.2.1 k ≠ 0) :
    ∃ h', Hash.insert (cfg cb) h k n = some h' ∧ Hash.Maps (cfg cb) h' (loc cb (A ++ (n, (k, v)) :: B)) := by
  obtain ⟨h', k1, k2⟩ := hm.insert (cfg_lawful hg) rfl k n
  refine ⟨h', k1, k2.congr fun k' => ?_⟩
  show (if cb.cmp k k' = 0 then some n else _) = _
  split
  next h =>
    have : A.find? (fun e => decide (cb.cmp e.2.1 k' = 0)) = none := by
      simp only [List.find?_eq_none, decide_eq_true_eq]
      intro e he h1
      exact hno e (by simp [he]) (hg.cmp.eq_trans h1 ((hg.cmp.eq_swap _ _).1 h))
    simp [loc, List.find?_append, this, h]
  next h => simp [loc, List.find?_append, List.find?_cons, h]

theorem move_front {cb : Callbacks P} {A B : List (Nat × (P × P))} {p}
    (hd : (A ++ p :: B).Pairwise fun a b => cb.cmp a.2.1 b.2.1 ≠ 0) (hg : Good cb) :
    (p :: (A ++ B)).Pairwise (fun a b => cb.cmp a.2.1 b.2.1 ≠ 0) := by
  have hp : (A ++ p :: B).Perm (p :: (A ++ B)) := List.perm_middle
  exact (hp.pairwise_iff (fun {a b} h h' => h ((hg.cmp.eq_swap _ _).1 h'))).1 hd

theorem loc_front {cb : Callbacks P} (hg : Good cb) {A B : List (Nat × (P × P))} {p}
    (hd : (A ++ p :: B).Pairwise fun a b => cb.cmp a.2.1 b.2.1 ≠ 0) (k : P) :
    loc cb (A ++ p :: B) k = loc cb (p :: (A ++ B)) k := by
  by_cases h : cb.cmp p.2.1 k = 0
  · have : A.find? (fun e => decide (cb.cmp e.2.1 k = 0)) = none := by
      simp only [List.find?_eq_none, decide_eq_true_eq]
      intro e he h1
      exact (List.pairwise_append.1 hd).2.2 e he p (by simp) (hg.cmp.eq_trans h1 ((hg.cmp.eq_swap _ _).1 h))
    simp [loc, List.find?_append, this, h]
  · simp [loc, List.find?_append, List.find?_cons, h]

theorem setVal_spec {l : LList.L (P × P)} {A B : List (Nat × (P × P))} {p : Nat} {w v : P × P}
    (hr : LList.Rep l (A ++ (p, w) :: B)) :
    ∃ l', setVal l p v = some l' ∧ LList.Rep l' (A ++ (p, v) :: B) ∧ l'.circular = l.circular := by
  have hv : l.val p = some w := hr.vals (p, w) (by simp)
  have hst := hr.str
  have hnd := hst.nodup
  unfold setVal
  rw [if_pos (by simp [hv])]
  refine ⟨_, rfl, ⟨⟨by simpa using hst.nodup, by simpa using hst.linked, by simpa using hst.head, by simpa using hst.tail, ?_⟩, ?_, ?_, ?_, ?_⟩, rfl⟩
  · intro x hx
    dsimp only [LList.upd]
    split
    · rfl
    · exact hst.live x (by simpa using hx)
  · intro q hq
    dsimp only [LList.upd]
    split
    next h =>
      have : q = (p, v) := by
        clear hst hr
        obtain ⟨q1, q2⟩ := q
        simp [List.nodup_append] at hnd hq h
        grind
      rw [this]
    next h =>
      refine hr.vals q ?_
      clear hst hnd hr
      obtain ⟨q1, q2⟩ := q
      simp at hq h ⊢
      grind
  · intro i hi
    dsimp only [LList.upd]
    split
    next h => subst h; simp at hi
    next h => exact hr.dead i (by simpa using hi)
  · simpa using hr.len
  · intro i hi; exact hr.fresh i (by simpa using hi)

theorem others_eq {cb : Callbacks P} {s : S P} {A B : List (Nat × (P × P))} {p k}
    (hv : (A ++ p :: B).map (·.2) = s.items) (hk : cb.cmp p.2.1 k = 0)
    (ha : ∀ e ∈ A, cb.cmp e.2.1 k ≠ 0) (hb : ∀ e ∈ B, cb.cmp e.2.1 k ≠ 0) :
    s.others cb.cmp k = (A ++ B).map (·.2) ∧ s.find cb.cmp k = some p.2 := by
  unfold S.others S.find
  rw [← hv]
  constructor
  · simp only [List.map_append, List.map_cons, List.filter_append]
    rw [List.filter_cons_of_neg (by simp [hk]), List.filter_eq_self.2, List.filter_eq_self.2]
    · intro a h; obtain ⟨e, he, rfl⟩ := List.mem_map.1 h; simpa using hb e he
    · intro a h; obtain ⟨e, he, rfl⟩ := List.mem_map.1 h; simpa using ha e he
  · have : (A.map (·.2)).find? (fun e => decide (cb.cmp e.1 k = 0)) = none := by
      simp only [List.find?_eq_none, decide_eq_true_eq]
      intro a h; obtain ⟨e, he, rfl⟩ := List.mem_map.1 h; exact ha e he
    simp [List.find?_append, this, hk]

theorem others_none {cb : Callbacks P} {s : S P} {t : List (Nat × (P × P))} {k}
    (hv : t.map (·.2) = s.items) (ha : ∀ e ∈ t, cb.cmp e.2.1 k ≠ 0) :
    s.others cb.cmp k = s.items ∧ s.find cb.cmp k = none := by
  unfold S.others S.find
  rw [← hv]
  constructor
  · rw [List.filter_eq_self]
    intro a h; obtain ⟨e, he, rfl⟩ := List.mem_map.1 h; simpa using ha e he
  · simp only [List.find?_eq_none, decide_eq_true_eq]
    intro a h; obtain ⟨e, he, rfl⟩ := List.mem_map.1 h; exact ha e he

theorem dupKey_eq {cb : Callbacks P} (hg : Good cb) (k : P) : cb.cmp (dupKey cb k) k = 0 := by
  unfold dupKey
  split
  next f h => exact hg.keyDup f h k
  next h => exact hg.cmp.refl k

theorem shrink_spec {cb : Callbacks P} (hg : Good cb) (n : Nat) (fuel : Nat) : ∀ {c : C P} {t},
    LList.Rep c.list t → c.list.circular = false → Hash.Maps (cfg cb) c.table (loc cb t) →
    (t.Pairwise fun a b => cb.cmp a.2.1 b.2.1 ≠ 0) → t.length < fuel →
    ∃ c', shrinkLoop cb n fuel c = some c' ∧ LList.Rep c'.list (t.take n) ∧ c'.list.circular = false ∧
      Hash.Maps (cfg cb) c'.table (loc cb (t.take n)) := by
  induction fuel with
  | zero => intro c t _ _ _ _ h; omega
  | succ fuel ih =>
    intro c t hr hl hm hd hf
    unfold shrinkLoop
    by_cases hgt : c.list.elements > n
    · rw [if_pos hgt]
      rw [hr.len] at hgt
      rcases List.eq_nil_or_concat t with rfl | ⟨A, ⟨p, w⟩, rfl⟩
      · simp at hgt
      · rw [List.concat_eq_append] at *
        obtain ⟨l', k1, k2, k3⟩ := LList.take_spec hr (by simp [hl])
        have ht : c.list.tail = some p := by rw [hr.str.tail]; simp
        have ha : ∀ e ∈ A, cb.cmp e.2.1 w.1 ≠ 0 := fun e he => (List.pairwise_append.1 hd).2.2 e he (p, w) (by simp)
        obtain ⟨b, h', j1, j2⟩ := removeMaps hg (B := []) hm (hg.cmp.refl _) ha (by simp)
        rw [List.append_nil] at k2 j2
        obtain ⟨c', i1, i2, i3, i4⟩ := ih (c := { c with table := h', list := l' }) k2 (by rw [k3, hl]) j2
          (List.pairwise_append.1 hd).1 (by simp at hf; omega)
        have e : (A ++ [(p, w)]).take n = A.take n := by
          rw [List.take_append_of_le_length (by simp at hgt; omega)]
        rw [e]
        refine ⟨c', ?_, i2, i3, i4⟩
        simp only [ht, bind, Option.bind_some, k1, j1]
        exact i1
    · rw [if_neg hgt]
      rw [hr.len] at hgt
      rw [List.take_of_length_le (by omega)]
      exact ⟨c, rfl, hr, hl, hm⟩

theorem sim_step {cb : Callbacks P} (hg : Good cb) (hvd : cb.valueDup = none) {c : C P} {s t} (I : Inv cb c s t) (op : Op P) :
    ∃ r c' s' t', step cb c op = some (r, c') ∧ Spec cb.cmp s op r s' ∧ Inv cb c' s' t' := by
  have hrep := I.rep
  have hm := I.maps
  have hget := hm.get (cfg_lawful hg) rfl
  cases op with
  | size => exact ⟨_, c, s, t, rfl, ⟨by simp [size, hrep.len, ← I.vals], rfl⟩, I⟩
  | insert k v =>
    cases k with
    | none => exact ⟨_, c, s, t, rfl, ⟨rfl, rfl⟩, I⟩
    | some k =>
      by_cases h0 : s.max = 0
      · refine ⟨.bool false, c, s, t, ?_, ?_, I⟩
        · simp [step, insert, I.max, h0]
        · rw [Spec, if_pos h0]; exact ⟨rfl, rfl⟩
      have hdv : dupValue cb k v = v := by simp [dupValue, hvd]
      have h0' : c.max ≠ 0 := by rw [I.max]; exact h0
      rcases loc_cases hg I.dist k with ⟨h1, h2⟩ | ⟨A, ⟨p, w⟩, B, rfl, h1, h2, h3, h4⟩
      · obtain ⟨ho, _⟩ := others_none I.vals h2
        have h2' : ∀ e ∈ t, cb.cmp e.2.1 (dupKey cb k) ≠ 0 := fun e he h => h2 e he (hg.cmp.eq_trans h (dupKey_eq hg k))
        by_cases hfull : c.list.elements = c.max
        · rcases List.eq_nil_or_concat t with rfl | ⟨A, ⟨p, w⟩, rfl⟩
          · rw [hrep.len] at hfull; exact absurd hfull.symm h0'
          · rw [List.concat_eq_append] at *
            have ht : c.list.tail = some p := by rw [hrep.str.tail]; simp
            have hval : c.list.val p = some w := hrep.vals (p, w) (by simp)
            have ha : ∀ e ∈ A, cb.cmp e.2.1 w.1 ≠ 0 := fun e he => (List.pairwise_append.1 I.dist).2.2 e he (p, w) (by simp)
            obtain ⟨b, h', j1, j2⟩ := removeMaps hg (B := []) hm (hg.cmp.refl _) ha (by simp)
            obtain ⟨l1, k1, k2, k3⟩ := setVal_spec (v := (dupKey cb k, v)) hrep
            obtain ⟨h'', i1, i2⟩ := insertMaps hg (n := p) (k := dupKey cb k) (v := v) j2 (fun e he => h2' e (by simp at he ⊢; exact Or.inl he))
            obtain ⟨l2, q1, q2, q3⟩ := LList.sim_setFirst k2
            rw [k3, I.lin, if_neg (by decide), List.append_nil] at q2
            have hd : (A ++ [(p, (dupKey cb k, v))]).Pairwise (fun a b => cb.cmp a.2.1 b.2.1 ≠ 0) := by
              rw [List.pairwise_append]
              refine ⟨(List.pairwise_append.1 I.dist).1, by simp, ?_⟩
              intro a ha b hb
              simp at hb; subst hb
              exact h2' a (by simp [ha])
            have hlen : A.length + 1 = s.max := by rw [← I.max, ← hfull, hrep.len]; simp
            refine ⟨.bool true, { c with table := h'', list := l2 }, { s with items := ((dupKey cb k, v) :: s.items).take s.max },
              (p, (dupKey cb k, v)) :: A, ?_, ?_, q2, ?_, by rw [q3, k3, I.lin], ?_, I.max, ?_, ?_⟩
            · simp only [step, insert, if_neg h0', hget, h1, bind, Option.bind_some, if_pos hfull, ht, hval, j1, hdv, k1, i1, q1,
                Option.map_some]
            · rw [Spec, if_neg h0]
              exact ⟨rfl, dupKey cb k, dupKey_eq hg k, by rw [ho]⟩
            · dsimp only
              rw [← I.vals, ← hlen]
              simp
            · refine i2.congr fun k' => ?_
              rw [loc_front hg hd, List.append_nil]
            · have := move_front hd hg
              rwa [List.append_nil] at this
            · dsimp only; simp; omega
        · have hlt : t.length < s.max := by
            have := I.bound
            rw [hrep.len, I.max] at hfull
            omega
          obtain ⟨l1, k1, k2, k3⟩ := LList.insertAt_none hrep (dupKey cb k, v)
          obtain ⟨h', i1, i2⟩ := insertMaps hg (A := []) (B := t) (n := c.list.fresh) (k := dupKey cb k) (v := v) hm h2'
          obtain ⟨l2, q1, q2, q3⟩ := LList.sim_setFirst (A := []) k2
          rw [k3, I.lin, if_neg (by decide)] at q2
          have kk : LList.insertFirst c.list (dupKey cb k, v) = some (c.list.fresh, l1) := by
            simp only [LList.insertFirst, k1]; rfl
          refine ⟨.bool true, { c with table := h', list := l2 }, { s with items := ((dupKey cb k, v) :: s.items).take s.max },
              (c.list.fresh, (dupKey cb k, v)) :: t, ?_, ?_, q2, ?_, by rw [q3, k3, I.lin], i2, I.max, ?_, ?_⟩
          · simp only [step, insert, if_neg h0', hget, h1, bind, Option.bind_some, if_neg hfull, hdv, kk, i1, q1,
                Option.map_some]
          · rw [Spec, if_neg h0]
            exact ⟨rfl, dupKey cb k, dupKey_eq hg k, by rw [ho]⟩
          · dsimp only
            rw [← I.vals, List.take_of_length_le (by simp; omega)]
            rfl
          · rw [List.pairwise_cons]
            exact ⟨fun e he h => h2' e he ((hg.cmp.eq_swap _ _).1 h), I.dist⟩
          · simp; omega
      · obtain ⟨ho, _⟩ := others_eq I.vals h2 h3 h4
        have hval : c.list.val p = some w := hrep.vals (p, w) (by simp)
        obtain ⟨l1, k1, k2, k3⟩ := setVal_spec (v := (w.1, v)) hrep
        obtain ⟨l2, q1, q2, q3⟩ := LList.sim_setFirst k2
        rw [k3, I.lin, if_neg (by decide)] at q2
        have hd : (A ++ (p, (w.1, v)) :: B).Pairwise (fun a b => cb.cmp a.2.1 b.2.1 ≠ 0) := by
          have := I.dist
          rw [List.pairwise_append, List.pairwise_cons] at this ⊢
          simpa using this
        have hlen := I.bound
        simp only [List.length_append, List.length_cons] at hlen
        refine ⟨.bool true, { c with list := l2 }, { s with items := ((w.1, v) :: s.others cb.cmp k).take s.max },
              (p, (w.1, v)) :: (A ++ B), ?_, ?_, q2, ?_, by rw [q3, k3, I.lin], ?_, I.max, move_front hd hg, ?_⟩
        · simp only [step, insert, if_neg h0', hget, h1, bind, Option.bind_some, hval, hdv, k1, q1, Option.map_some]
        · rw [Spec, if_neg h0]
          exact ⟨rfl, w.1, h2, rfl⟩
        · dsimp only
          rw [ho, List.take_of_length_le (by simp; omega)]
          rfl
        · refine hm.congr fun k' => ?_
          rw [← loc_front hg hd]
          simp [loc, List.find?_append, List.find?_cons]
          cases A.find? (fun e => decide (cb.cmp e.2.1 k' = 0)) <;> simp
          by_cases hh : cb.cmp w.1 k' = 0 <;> simp [hh]
        · simp; omega
  | get k =>
    cases k with
    | none => exact ⟨_, c, s, t, rfl, ⟨rfl, rfl⟩, I⟩
    | some k =>
      rcases loc_cases hg I.dist k with ⟨h1, h2⟩ | ⟨A, ⟨p, w⟩, B, rfl, h1, h2, h3, h4⟩
      · obtain ⟨_, hn⟩ := others_none I.vals h2
        refine ⟨.val none, c, s, t, by simp [step, get, hget, h1], ?_, I⟩
        simp [Spec, hn]
      · obtain ⟨ho, hn⟩ := others_eq I.vals h2 h3 h4
        obtain ⟨l2, q1, q2, q3⟩ := LList.sim_setFirst hrep
        rw [I.lin, if_neg (by decide)] at q2
        have hval : l2.val p = some w := q2.vals (p, w) (by simp)
        have hlen := I.bound
        simp only [List.length_append, List.length_cons] at hlen
        refine ⟨.val (some w.2), { c with list := l2 }, { s with items := w :: s.others cb.cmp k }, (p, w) :: (A ++ B), ?_, ?_,
          q2, ?_, by rw [q3, I.lin], ?_, I.max, move_front I.dist hg, ?_⟩
        · simp [step, get, hget, h1, q1, hval]
        · simp [Spec, hn]
        · rw [ho]; rfl
        · exact hm.congr fun k' => loc_front hg I.dist k'
        · simp; omega
  | remove k =>
    cases k with
    | none => exact ⟨_, c, s, t, rfl, ⟨rfl, rfl⟩, I⟩
    | some k =>
      rcases loc_cases hg I.dist k with ⟨h1, h2⟩ | ⟨A, ⟨p, w⟩, B, rfl, h1, h2, h3, h4⟩
      · obtain ⟨ho, hn⟩ := others_none I.vals h2
        refine ⟨.bool false, c, s, t, by simp [step, remove, hget, h1], ?_, I⟩
        simp [Spec, hn, ho]
      · obtain ⟨ho, hn⟩ := others_eq I.vals h2 h3 h4
        obtain ⟨l', k1, k2, k3⟩ := LList.take_spec hrep (by simp [I.lin])
        obtain ⟨b, h', j1, j2⟩ := removeMaps hg hm h2 h3 h4
        have hlen := I.bound
        simp only [List.length_append, List.length_cons] at hlen
        refine ⟨.bool true, { c with table := h', list := l' }, { s with items := s.others cb.cmp k }, A ++ B, ?_, ?_,
          k2, ?_, by rw [k3, I.lin], j2, I.max, ?_, ?_⟩
        · simp [step, remove, hget, h1, k1, j1]
        · simp [Spec, hn]
        · rw [ho]
        · exact (List.pairwise_cons.1 (move_front I.dist hg)).2
        · simp; omega
  | setMax n =>
    obtain ⟨c', i1, i2, i3, i4⟩ := shrink_spec hg n (c.list.elements + 1) hrep I.lin hm I.dist (by rw [hrep.len]; omega)
    refine ⟨.unit, { c' with max := n }, { max := n, items := s.items.take n }, t.take n, ?_, ⟨rfl, rfl⟩, i2, ?_, i3, i4, rfl,
      I.dist.sublist (List.take_sublist _ _), ?_⟩
    · simp only [step, setMaxSize, i1]; rfl
    · dsimp only; rw [← I.vals, List.map_take]
    · simp; omega

theorem sim_run {cb : Callbacks P} (hg : Good cb) (hvd : cb.valueDup = none) (ops : List (Op P)) : ∀ {c : C P} {s t}, Inv cb c s t →
    ∃ rs c' s' t', run cb c ops = some (rs, c') ∧ SpecRun cb.cmp s ops rs s' ∧ Inv cb c' s' t' := by
  induction ops with
  | nil => intro c s t I; exact ⟨[], c, s, t, rfl, .nil _, I⟩
  | cons op ops ih =>
    intro c s t I
    obtain ⟨r, c1, s1, t1, h1, h2, I1⟩ := sim_step hg hvd I op
    obtain ⟨rs, c2, s2, t2, j1, j2, I2⟩ := ih I1
    exact ⟨r :: rs, c2, s2, t2, by simp only [run, h1, Option.bind_some, j1]; rfl, .cons h2 j2, I2⟩

/-- C12 without a value-duplicate callback: whatever the history, every call returns what the bounded recency list
returns, and the cache never holds more than its bound.  Missing: the value-duplicate callback, for which the claim is
false (`valueDup_fails`). -/
theorem cache_is_lru_partial {cb : Callbacks P} (hg : Good cb) (hvd : cb.valueDup = none) (max : Nat) (ops : List (Op P)) :
    ∃ c rs c' s', create cb max = some c ∧ run cb c ops = some (rs, c') ∧
      SpecRun cb.cmp { max := max, items := [] } ops rs s' ∧ size c' = s'.items.length ∧ s'.items.length ≤ s'.max := by
  obtain ⟨h, h1, h2⟩ := Hash.Maps.create (c := cfg cb) (show 75 < 100 by decide) rfl rfl rfl rfl
  have I : Inv cb { table := h, list := LList.create false, max := max } { max := max, items := [] } [] :=
    ⟨LList.create_rep false, rfl, rfl, h2.congr fun _ => rfl, rfl, by simp, by simp⟩
  obtain ⟨rs, c', s', t', k1, k2, k3⟩ := sim_run hg hvd ops I
  refine ⟨_, rs, c', s', by unfold create; rw [h1]; rfl, k1, k2, ?_, ?_⟩
  · rw [size, k3.rep.len, ← k3.vals, List.length_map]
  · rw [← k3.vals, List.length_map]; exact k3.bound

/-- Keys modulo 10 as a comparison with distinct equal objects. -/
def exCb : Callbacks Nat := { hash := fun k => k % 10, cmp := fun a b => natCmp (a % 10) (b % 10), keyDup := some (· % 10), valueDup := none }

/-- The hypotheses are met; insertion into a full cache evicts key 2 because key 1 was used since. -/
example : Good exCb := by
  refine ⟨⟨fun a b => natCmp_lawful.swap _ _, fun a b c => natCmp_lawful.trans _ _ _⟩, ?_, ?_⟩
  · intro a b h; simp only [exCb, natCmp] at h ⊢; omega
  · intro f hf k; cases hf; simp only [exCb, natCmp]; omega

example : ((create exCb 2).bind fun c => run exCb c [.insert (some 1) 100, .insert (some 12) 200, .get (some 11), .insert (some 3) 300,
    .get (some 2), .get (some 1), .size]).map (·.1) =
    some [.bool true, .bool true, .val (some 100), .bool true, .val none, .val (some 100), .num 2] := by decide +kernel

/-- With a value-duplicate callback the stored value is a duplicate of the key: `get` does not return the value
inserted (here the callback is the identity). -/
theorem valueDup_fails :
    ((create { exCb with valueDup := some id } 2).bind fun c =>
      run { exCb with valueDup := some id } c [.insert (some 1) 100, .get (some 1)]).map (·.1) =
    some [.bool true, .val (some 1)] := by decide +kernel

end Verif.Cache
