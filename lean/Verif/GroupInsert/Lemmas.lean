import Verif.GroupInsert.Model
/-! What always holds: counting where the calls of a statement are. -/
namespace Verif.GroupInsert
open Verif.Sql (Err isError isRollback)

inductive Kind
  | J | H | M | S | A | W | R | F | G
deriving DecidableEq

def kind : PC → Kind
  | .joined => .J
  | .holding | .bound => .H
  | .begin | .close _ | .exec | .commit | .fin _ => .M
  | .spin _ => .S
  | .asleep => .A
  | .awake => .W
  | .returned _ _ => .R
  | .freeing _ _ => .F
  | .gone _ _ => .G

def is (k : Kind) (s : Nat) (p : Part) : Bool := p.s = s && kind p.pc = k

/-- How many calls of statement `s` are at a place of kind `k`. -/
def n (l : List Part) (k : Kind) (s : Nat) : Nat := l.countP (is k s)

theorem countP_set {α : Type _} (F : α → Bool) (l : List α) (i : Nat) (p p' : α) (h : l[i]? = some p) :
    (l.set i p').countP F + (if F p then 1 else 0) = l.countP F + (if F p' then 1 else 0) := by
  induction l generalizing i with
  | nil => simp at h
  | cons a t ih =>
    cases i with
    | zero =>
      simp only [List.getElem?_cons_zero, Option.some.injEq] at h
      subst h
      simp only [List.set_cons_zero, List.countP_cons]
      omega
    | succ i =>
      simp only [List.getElem?_cons_succ] at h
      have := ih i h
      simp only [List.set_cons_succ, List.countP_cons]
      omega

theorem countP_pos {α : Type _} (F : α → Bool) (l : List α) (i : Nat) (p : α) (h : l[i]? = some p) (hp : F p = true) : 0 < l.countP F :=
  List.countP_pos_iff.2 ⟨p, List.mem_of_getElem? h, hp⟩

theorem n_set (l : List Part) (i : Nat) (p : Part) (pc : PC) (h : l[i]? = some p) (k : Kind) :
    n (l.set i { p with pc := pc }) k p.s + (if kind p.pc = k then 1 else 0) = n l k p.s + (if kind pc = k then 1 else 0) := by
  have := countP_set (is k p.s) l i p { p with pc := pc } h
  simpa [n, is] using this

theorem n_set_ne (l : List Part) (i : Nat) (p : Part) (pc : PC) (h : l[i]? = some p) (k : Kind) (s : Nat) (hs : s ≠ p.s) :
    n (l.set i { p with pc := pc }) k s = n l k s := by
  have := countP_set (is k s) l i p { p with pc := pc } h
  simpa [n, is, Ne.symm hs] using this

theorem n_pos {l : List Part} {i : Nat} {p : Part} {k : Kind} (h : l[i]? = some p) (hk : kind p.pc = k) : 0 < n l k p.s :=
  countP_pos _ _ _ _ h (by simp [is, hk])

theorem n_exists {l : List Part} {k : Kind} {s : Nat} (h : 0 < n l k s) : ∃ (i : Nat) (p : Part), l[i]? = some p ∧ p.s = s ∧ kind p.pc = k := by
  obtain ⟨p, hp, h⟩ := List.countP_pos_iff.1 h
  obtain ⟨i, hi⟩ := List.getElem?_of_mem hp
  simp only [is, Bool.and_eq_true, decide_eq_true_eq] at h
  exact ⟨i, p, hi, h.1, h.2⟩

theorem n_rouse (l : List Part) (k : Kind) (s r : Nat) :
    n (l.map (rouse r)) k s =
      if s = r then (match k with | .A => 0 | .W => n l .W s + n l .A s | k => n l k s) else n l k s := by
  induction l with
  | nil => cases k <;> simp [n]
  | cons p t ih =>
    have e : ∀ k s, n (p :: t) k s = n t k s + if is k s p then 1 else 0 := fun k s => List.countP_cons
    have e' : n ((p :: t).map (rouse r)) k s = n (t.map (rouse r)) k s + if is k s (rouse r p) then 1 else 0 := List.countP_cons
    rw [e', ih]
    simp only [e]
    by_cases hs : s = r
    · subst hs
      simp only [if_true]
      by_cases hp : p.s = s
      · by_cases ha : p.pc = .asleep
        · have : rouse s p = { p with pc := .awake } := if_pos ⟨hp, ha⟩
          rw [this]
          cases k <;> simp [is, hp, kind, ha] <;> omega
        · have : rouse s p = p := if_neg fun c => ha c.2
          rw [this]
          have hk : kind p.pc ≠ .A := by
            intro c; apply ha; revert c; cases p.pc <;> simp [kind]
          cases k <;> simp [is, hp, hk] <;> omega
      · have : rouse s p = p := if_neg fun c => hp c.1
        rw [this]
        cases k <;> simp [is, hp]
    · simp only [if_neg hs]
      by_cases hp : p.s = r ∧ p.pc = .asleep
      · have : rouse r p = { p with pc := .awake } := if_pos hp
        rw [this]
        have : p.s ≠ s := fun c => hs (c ▸ hp.1)
        simp [is, this]
      · have : rouse r p = p := if_neg hp
        rw [this]

/-- What holds of a statement. -/
structure SInv (l : List Part) (s : Nat) (x : Stmt) : Prop where
  cnt : x.cnt = n l .J s + n l .H s + n l .M s + n l .S s + n l .A s + n l .W s + n l .R s
  lock : n l .H s = if x.locked then 1 else 0
  open_ : x.state ≠ .finished → n l .R s = 0 ∧ n l .F s = 0 ∧ n l .G s = 0 ∧ x.freed = false ∧
    x.cntExec = n l .M s + n l .S s + n l .A s + n l .W s ∧ n l .M s + n l .S s ≤ 1
  leader : x.state ≠ .finished → n l .M s + n l .S s = 0 → n l .A s = 0 ∧ n l .W s = 0 ∧ x.state = .new
  spin : x.state = .new → n l .S s = 0
  closed : x.state = .pending → n l .S s = 0 → n l .J s = 0 ∧ n l .H s = 0
  done : x.state = .finished → n l .J s = 0 ∧ n l .H s = 0 ∧ n l .M s = 0 ∧ n l .S s = 0 ∧ n l .A s = 0 ∧
    n l .F s + (if x.freed then 1 else 0) ≤ 1 ∧ (n l .F s + (if x.freed then 1 else 0) = 1 ↔ x.cnt = 0)

/-- What holds of the calls: where the statement is when it is executed. -/
def late : PC → Bool
  | .exec | .commit | .fin _ => true
  | _ => false

def hasBound : PC → Bool
  | .joined | .holding => false
  | _ => true

structure Inv (st : St) : Prop where
  bad : st.bad = false
  stmt : ∀ (s : Nat) (x : Stmt), st.stmts[s]? = some x → SInv st.parts s x
  table : ∀ (q : Query) (s : Nat), st.table q = some s → ∃ x : Stmt, st.stmts[s]? = some x ∧ x.state = .new ∧ x.query = q
  part : ∀ (i : Nat) (p : Part), st.parts[i]? = some p → ∃ x : Stmt, st.stmts[p.s]? = some x ∧ (late p.pc = true → x.state = .pending) ∧ x.query = p.q
  rows : ∀ (s : Nat) (x : Stmt), st.stmts[s]? = some x → x.rows.Nodup ∧ ∀ i, i ∈ x.rows ↔ ∃ p : Part, st.parts[i]? = some p ∧ p.s = s ∧ hasBound p.pc = true

theorem Inv.lt {st : St} (h : Inv st) {i : Nat} {p : Part} (hi : st.parts[i]? = some p) : ∃ x : Stmt, st.stmts[p.s]? = some x :=
  let ⟨x, hx, _⟩ := h.part i p hi
  ⟨x, hx⟩

/-- A statement is not freed while a call is still using it. -/
theorem SInv.alive {l : List Part} {s : Nat} {x : Stmt} (h : SInv l s x) {i : Nat} {p : Part} (hi : l[i]? = some p) (hs : p.s = s)
    (hk : kind p.pc ≠ .G) : x.freed = false := by
  subst hs
  by_cases hf : x.state = .finished
  · obtain ⟨h1, h2, h3, h4, h5, h6, h7⟩ := h.done hf
    have hc := h.cnt
    have hp := n_pos hi (rfl : kind p.pc = kind p.pc)
    cases hx : x.freed with
    | false => rfl
    | true =>
      rw [hx] at h6 h7
      simp only [if_true] at h6 h7
      have h8 := h7.1 (by omega)
      revert hp hk
      cases kind p.pc <;> intro hk hp <;> first | omega | exact absurd rfl hk
  · exact (h.open_ hf).2.2.2.1

/-- How a step of call `i` changes the list of calls. -/
structure Moved (l l' : List Part) (i : Nat) (p : Part) (pc : PC) : Prop where
  self : l'[i]? = some { p with pc := pc }
  fwd : ∀ (j : Nat) (q : Part), j ≠ i → l'[j]? = some q →
    ∃ q0 : Part, l[j]? = some q0 ∧ q.s = q0.s ∧ q.q = q0.q ∧ late q.pc = late q0.pc ∧ hasBound q.pc = hasBound q0.pc
  bwd : ∀ (j : Nat) (q0 : Part), j ≠ i → l[j]? = some q0 →
    ∃ q : Part, l'[j]? = some q ∧ q.s = q0.s ∧ hasBound q.pc = hasBound q0.pc
  other : ∀ (k : Kind) (s : Nat), s ≠ p.s → n l' k s = n l k s

theorem moved_set {l : List Part} {i : Nat} {p : Part} (hi : l[i]? = some p) (pc : PC) : Moved l (l.set i { p with pc := pc }) i p pc where
  self := by
    have : i < l.length := by
      rcases Nat.lt_or_ge i l.length with h | h
      · exact h
      · rw [List.getElem?_eq_none h] at hi; exact absurd hi (by simp)
    rw [List.getElem?_set_self this]
  fwd j q hj h := by
    rw [List.getElem?_set_ne (Ne.symm hj)] at h
    exact ⟨q, h, rfl, rfl, rfl, rfl⟩
  bwd j q hj h := ⟨q, by rw [List.getElem?_set_ne (Ne.symm hj)]; exact h, rfl, rfl⟩
  other k s hs := n_set_ne l i p pc hi k s hs

theorem rouse_s (r : Nat) (p : Part) : (rouse r p).s = p.s ∧ (rouse r p).q = p.q ∧ late (rouse r p).pc = late p.pc ∧
    hasBound (rouse r p).pc = hasBound p.pc := by
  by_cases h : p.s = r ∧ p.pc = .asleep
  · rw [rouse, if_pos h, h.2]
    exact ⟨rfl, rfl, rfl, rfl⟩
  · rw [rouse, if_neg h]
    exact ⟨rfl, rfl, rfl, rfl⟩

theorem moved_rouse {l : List Part} {i : Nat} {p : Part} (hi : l[i]? = some p) (hp : p.pc ≠ .asleep) (pc : PC) :
    Moved l ((l.map (rouse p.s)).set i { p with pc := pc }) i p pc := by
  have hi' : (l.map (rouse p.s))[i]? = some p := by
    rw [List.getElem?_map, hi]
    have : rouse p.s p = p := if_neg fun c => hp c.2
    simp [this]
  have h := moved_set hi' pc
  refine ⟨h.self, fun j q hj hq => ?_, fun j q hj hq => ?_, fun k s hs => ?_⟩
  · obtain ⟨q0, h0, e1, e2, e3, e4⟩ := h.fwd j q hj hq
    rw [List.getElem?_map] at h0
    cases hl : l[j]? with
    | none => rw [hl] at h0; exact absurd h0 (by simp)
    | some q1 =>
      rw [hl] at h0
      simp only [Option.map_some, Option.some.injEq] at h0
      obtain ⟨f1, f2, f3, f4⟩ := rouse_s p.s q1
      subst h0
      exact ⟨q1, rfl, e1.trans f1, e2.trans f2, e3.trans f3, e4.trans f4⟩
  · obtain ⟨f1, f2, f3, f4⟩ := rouse_s p.s q
    obtain ⟨q', h', e1, e2⟩ := h.bwd j (rouse p.s q) hj (by rw [List.getElem?_map, hq]; rfl)
    exact ⟨q', h', e1.trans f1, e2.trans f4⟩
  · rw [h.other k s hs, n_rouse, if_neg hs]

/-- A step of call `i`. -/
theorem Inv.move {st : St} (h : Inv st) {i : Nat} {p : Part} {x x' : Stmt} {pc : PC} {l : List Part} {t : Query → Option Nat}
    {c : List (Nat × List Nat)} (hi : st.parts[i]? = some p) (hx : st.stmts[p.s]? = some x) (hk : kind p.pc ≠ .G)
    (hm : Moved st.parts l i p pc) (hs : SInv l p.s x') (hq : x'.query = x.query)
    (ht : ∀ q s, t q = some s → st.table q = some s ∧ (s = p.s → x'.state = .new))
    (hl : ∀ (j : Nat) (q : Part), j ≠ i → st.parts[j]? = some q → q.s = p.s → late q.pc = true → x'.state = .pending)
    (hl' : late pc = true → x'.state = .pending)
    (hr : (x'.rows = x.rows ∧ hasBound pc = hasBound p.pc) ∨
      (x'.rows = x.rows ++ [i] ∧ hasBound p.pc = false ∧ hasBound pc = true)) :
    Inv ⟨t, st.stmts.set p.s x', l, c, st.bad || x.freed⟩ := by
  have hlt : p.s < st.stmts.length := by
    rcases Nat.lt_or_ge p.s st.stmts.length with h | h
    · exact h
    · rw [List.getElem?_eq_none h] at hx; exact absurd hx (by simp)
  have look : ∀ (s : Nat) (y : Stmt), (st.stmts.set p.s x')[s]? = some y → (s = p.s ∧ y = x') ∨ (s ≠ p.s ∧ st.stmts[s]? = some y) := by
    intro s y hy
    by_cases e : s = p.s
    · subst e
      rw [List.getElem?_set_self hlt] at hy
      exact .inl ⟨rfl, (Option.some.inj hy).symm⟩
    · rw [List.getElem?_set_ne (Ne.symm e)] at hy
      exact .inr ⟨e, hy⟩
  have get : ∀ (s : Nat) (y : Stmt), s ≠ p.s → st.stmts[s]? = some y → (st.stmts.set p.s x')[s]? = some y := by
    intro s y e hy
    rw [List.getElem?_set_ne (Ne.symm e)]
    exact hy
  have self : (st.stmts.set p.s x')[p.s]? = some x' := List.getElem?_set_self hlt
  refine ⟨?_, fun s y hy => ?_, fun q s hs => ?_, fun j q hj => ?_, fun s y hy => ?_⟩
  · show (st.bad || x.freed) = false
    rw [h.bad, (h.stmt _ _ hx).alive hi rfl hk]
    rfl
  · rcases look s y hy with ⟨rfl, rfl⟩ | ⟨e, hy⟩
    · exact hs
    · have := h.stmt s y hy
      have o := fun k => hm.other k s e
      exact ⟨by simp only [o]; exact this.cnt, by simp only [o]; exact this.lock, by simp only [o]; exact this.open_,
        by simp only [o]; exact this.leader, by simp only [o]; exact this.spin, by simp only [o]; exact this.closed,
        by simp only [o]; exact this.done⟩
  · obtain ⟨h1, h2⟩ := ht q s hs
    obtain ⟨y, hy, e1, e2⟩ := h.table q s h1
    by_cases e : s = p.s
    · subst e
      rw [hx] at hy
      obtain rfl := Option.some.inj hy
      exact ⟨x', self, h2 rfl, hq.trans e2⟩
    · exact ⟨y, get s y e hy, e1, e2⟩
  · by_cases e : j = i
    · subst e
      rw [hm.self] at hj
      obtain rfl := Option.some.inj hj
      obtain ⟨y, hy, _, e3⟩ := h.part _ p hi
      rw [hx] at hy
      obtain rfl := Option.some.inj hy
      exact ⟨x', self, hl', hq.trans e3⟩
    · obtain ⟨q0, h0, e1, e2, e3, e4⟩ := hm.fwd j q e hj
      obtain ⟨y, hy, f1, f2⟩ := h.part j q0 h0
      by_cases es : q0.s = p.s
      · rw [es, hx] at hy
        obtain rfl := Option.some.inj hy
        refine ⟨x', by rw [e1, es]; exact self, fun c => hl j q0 e h0 es (e3 ▸ c), ?_⟩
        rw [hq, f2, e2]
      · exact ⟨y, by rw [e1]; exact get _ y es hy, fun c => f1 (e3 ▸ c), f2.trans e2.symm⟩
  · rcases look s y hy with ⟨rfl, rfl⟩ | ⟨e, hy⟩
    · obtain ⟨r1, r2⟩ := h.rows _ x hx
      have key : ∀ j, j ≠ i → ((∃ q : Part, l[j]? = some q ∧ q.s = p.s ∧ hasBound q.pc = true) ↔
          ∃ q : Part, st.parts[j]? = some q ∧ q.s = p.s ∧ hasBound q.pc = true) := by
        intro j hj
        constructor
        · rintro ⟨q, a, b, c⟩
          obtain ⟨q0, h0, e1, e2, e3, e4⟩ := hm.fwd j q hj a
          exact ⟨q0, h0, e1 ▸ b, e4 ▸ c⟩
        · rintro ⟨q, a, b, c⟩
          obtain ⟨q', h0, e1, e2⟩ := hm.bwd j q hj a
          exact ⟨q', h0, e1.trans b, e2.trans c⟩
      have kold : (∃ q : Part, st.parts[i]? = some q ∧ q.s = p.s ∧ hasBound q.pc = true) ↔ hasBound p.pc = true := by
        constructor
        · rintro ⟨q, a, b, c⟩
          rw [hi] at a
          obtain rfl := Option.some.inj a
          exact c
        · exact fun c => ⟨p, hi, rfl, c⟩
      have knew : (∃ q : Part, l[i]? = some q ∧ q.s = p.s ∧ hasBound q.pc = true) ↔ hasBound pc = true := by
        constructor
        · rintro ⟨q, a, b, c⟩
          rw [hm.self] at a
          obtain rfl := Option.some.inj a
          exact c
        · exact fun c => ⟨_, hm.self, rfl, c⟩
      rcases hr with ⟨e1, e2⟩ | ⟨e1, e2, e3⟩
      · refine ⟨by rw [e1]; exact r1, fun j => ?_⟩
        rw [e1, r2 j]
        by_cases hj : j = i
        · subst hj
          rw [kold, knew, e2]
        · exact (key j hj).symm
      · have hn : i ∉ x.rows := by
          rw [r2, kold, e2]; simp
        refine ⟨by
          rw [e1, List.nodup_append]
          exact ⟨r1, by simp, fun a ha b hb => by
            rw [List.mem_singleton] at hb
            rintro rfl
            exact hn (hb ▸ ha)⟩, fun j => ?_⟩
        rw [e1, List.mem_append, List.mem_singleton, r2 j]
        by_cases hj : j = i
        · subst hj
          rw [knew, e3]; simp
        · rw [key j hj]
          simp [hj]
    · obtain ⟨r1, r2⟩ := h.rows s y hy
      refine ⟨r1, fun j => ?_⟩
      rw [r2 j]
      by_cases hj : j = i
      · subst hj
        constructor
        · rintro ⟨q, a, b, c⟩
          rw [hi] at a
          obtain rfl := Option.some.inj a
          exact absurd b.symm e
        · rintro ⟨q, a, b, c⟩
          rw [hm.self] at a
          obtain rfl := Option.some.inj a
          exact absurd b.symm e
      · constructor
        · rintro ⟨q, a, b, c⟩
          obtain ⟨q', h0, e1, e2⟩ := hm.bwd j q hj a
          exact ⟨q', h0, e1.trans b, e2.trans c⟩
        · rintro ⟨q, a, b, c⟩
          obtain ⟨q0, h0, e1, e2, e3, e4⟩ := hm.fwd j q hj a
          exact ⟨q0, h0, e1 ▸ b, e4 ▸ c⟩

end Verif.GroupInsert
