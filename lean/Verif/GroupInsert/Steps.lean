import Verif.GroupInsert.Lemmas
/-! Every step keeps the invariant. -/
namespace Verif.GroupInsert
open Verif.Sql (Err isError isRollback)

theorem two {l : List Part} {i j : Nat} {p q : Part} (hi : l[i]? = some p) (hj : l[j]? = some q) (hij : j ≠ i) (hs : q.s = p.s)
    (hp : kind p.pc = .M ∨ kind p.pc = .S) (hq : kind q.pc = .M ∨ kind q.pc = .S) : 2 ≤ n l .M p.s + n l .S p.s := by
  have a := n_set l i p .joined hi .M
  have b := n_set l i p .joined hi .S
  have hj' : (l.set i { p with pc := .joined })[j]? = some q := by rw [List.getElem?_set_ne (Ne.symm hij)]; exact hj
  rcases hq with hq | hq <;> have c := n_pos hj' hq <;> rw [hs] at c <;> rcases hp with hp | hp <;>
    rw [hp] at a b <;> simp [kind] at a b <;> omega

theorem late_M {pc : PC} (h : late pc = true) : kind pc = .M := by
  cases pc <;> first | rfl | exact absurd h (by simp [late])

/-- The nine counts after call `i` has moved from `p.pc` to `pc`. -/
def Counts (l l' : List Part) (p : Part) (pc : PC) : Prop :=
  ∀ k, n l' k p.s + (if kind p.pc = k then 1 else 0) = n l k p.s + (if kind pc = k then 1 else 0)

set_option hygiene false in
macro "nine " N:ident hp:ident hk:ident : tactic => `(tactic| (
  have aJ := $N .J; have aH := $N .H; have aM := $N .M; have aS := $N .S; have aA := $N .A; have aW := $N .W; have aR := $N .R
  have aF := $N .F; have aG := $N .G
  rw [$hp:ident, $hk:ident] at aJ aH aM aS aA aW aR aF aG
  simp only [reduceCtorEq, if_true, if_false, Nat.add_zero] at aJ aH aM aS aA aW aR aF aG))

/-- From one kind of place to another. -/
theorem SInv.sJH {l l' : List Part} {p : Part} {pc : PC} {x : Stmt} (h : SInv l p.s x) (N : Counts l l' p pc)
    (h1 : kind p.pc = .J) (h2 : kind pc = .H) (hx : x.locked = false) : SInv l' p.s { x with locked := true } := by
  nine N h1 h2
  obtain ⟨c1, c2, c3, c4, c5, c6, c7⟩ := h
  rw [hx] at c2
  refine ⟨by dsimp only; omega, ?_, fun e => ?_, fun e g => ?_, fun e => ?_, fun e g => ?_, fun e => ?_⟩
  · show _ = 1
    simp only [Bool.false_eq_true, if_false] at c2
    omega
  · obtain ⟨d1, d2, d3, d4, d5, d6⟩ := c3 e
    exact ⟨by omega, by omega, by omega, d4, by dsimp only; omega, by omega⟩
  · obtain ⟨d1, d2, d3⟩ := c4 e (by omega)
    exact ⟨by omega, by omega, d3⟩
  · have := c5 e; omega
  · obtain ⟨d1, d2⟩ := c6 e (by omega)
    omega
  · obtain ⟨d1, d2, d3, d4, d5, d6⟩ := c7 e
    omega

theorem SInv.same {l l' : List Part} {p : Part} {pc : PC} {x : Stmt} (h : SInv l p.s x) (N : Counts l l' p pc)
    (hk : kind pc = kind p.pc) : SInv l' p.s x := by
  have N' : ∀ k, n l' k p.s = n l k p.s := by
    intro k
    have := N k
    rw [hk] at this
    omega
  exact ⟨by simp only [N']; exact h.cnt, by simp only [N']; exact h.lock, by simp only [N']; exact h.open_,
        by simp only [N']; exact h.leader, by simp only [N']; exact h.spin, by simp only [N']; exact h.closed,
        by simp only [N']; exact h.done⟩

theorem SInv.call {l l' : List Part} {p : Part} {x : Stmt} (h : SInv l p.s x) (h1 : kind p.pc = .H)
    (hp : 0 < n l .H p.s) (N : Counts l l' p (execCall x).2) : SInv l' p.s (execCall x).1 := by
  have hnf : x.state ≠ .finished := fun e => by have := h.done e; omega
  have hl : x.locked = true := by
    have := h.lock
    cases e : x.locked with
    | true => rfl
    | false => rw [e] at this; simp at this; omega
  obtain ⟨c1, c2, c3, c4, c5, c6, c7⟩ := h
  obtain ⟨d1, d2, d3, d4, d5, d6⟩ := c3 hnf
  rw [hl] at c2
  simp only [if_true] at c2
  rw [execCall, if_neg hnf] at N ⊢
  by_cases h0 : x.cntExec + 1 ≠ 1
  · rw [if_pos h0] at N ⊢
    have h2 : kind PC.asleep = .A := rfl
    nine N h1 h2
    refine ⟨by dsimp only; omega, by simp; omega, fun _ => ?_, fun e g => ?_, fun e => ?_, fun e g => ?_, fun e => absurd e hnf⟩
    · exact ⟨by omega, by omega, by omega, d4, by dsimp only; omega, by omega⟩
    · have := c4 hnf (by omega)
      omega
    · have := c5 e; omega
    · have := c6 e (by omega)
      omega
  · rw [if_neg h0] at N ⊢
    have h2 : kind PC.begin = .M := rfl
    nine N h1 h2
    refine ⟨by dsimp only; omega, by simp; omega, fun _ => ?_, fun e g => ?_, fun e => ?_, fun e g => ?_, fun e => absurd e hnf⟩
    · exact ⟨by omega, by omega, by omega, d4, by dsimp only; omega, by omega⟩
    · omega
    · have := c5 e; omega
    · have := c6 e (by omega)
      omega

theorem SInv.wake {l l' : List Part} {p : Part} {x : Stmt} (h : SInv l p.s x) (h1 : kind p.pc = .W)
    (hp : 0 < n l .W p.s) (N : Counts l l' p (wake x)) : SInv l' p.s x := by
  obtain ⟨c1, c2, c3, c4, c5, c6, c7⟩ := h
  by_cases hf : x.state = .finished
  · rw [Verif.GroupInsert.wake, if_pos hf] at N
    have h2 : kind (PC.returned x.lastErr false) = .R := rfl
    nine N h1 h2
    refine ⟨by omega, by omega, fun e => absurd hf e, fun e => absurd hf e, fun e => ?_, fun e g => ?_, fun e => ?_⟩
    · rw [hf] at e; exact absurd e (by simp)
    · rw [hf] at e; exact absurd e (by simp)
    · have := c7 e
      omega
  · rw [Verif.GroupInsert.wake, if_neg hf] at N
    have h2 : kind PC.asleep = .A := rfl
    nine N h1 h2
    refine ⟨by omega, by omega, fun e => ?_, fun e g => ?_, fun e => ?_, fun e g => ?_, fun e => absurd e hf⟩
    · obtain ⟨d1, d2, d3, d4, d5, d6⟩ := c3 hf
      exact ⟨by omega, by omega, by omega, d4, by omega, by omega⟩
    · have := c4 hf (by omega)
      omega
    · have := c5 e; omega
    · have := c6 e (by omega)
      omega

theorem SInv.spurious {l l' : List Part} {p : Part} {x : Stmt} (h : SInv l p.s x) (h1 : kind p.pc = .A)
    (hp : 0 < n l .A p.s) (N : Counts l l' p .awake) : SInv l' p.s x := by
  obtain ⟨c1, c2, c3, c4, c5, c6, c7⟩ := h
  have hf : x.state ≠ .finished := by
    intro hf
    have := c7 hf
    omega
  have h2 : kind PC.awake = .W := rfl
  nine N h1 h2
  refine ⟨by omega, by omega, fun e => ?_, fun e g => ?_, fun e => ?_, fun e g => ?_, fun e => absurd e hf⟩
  · obtain ⟨d1, d2, d3, d4, d5, d6⟩ := c3 hf
    exact ⟨by omega, by omega, by omega, d4, by omega, by omega⟩
  · have := c4 hf (by omega)
    omega
  · have := c5 e; omega
  · have := c6 e (by omega)
    omega

/-- A statement that someone runs is not finished. -/
theorem SInv.running {l : List Part} {s : Nat} {x : Stmt} (h : SInv l s x) (hp : 0 < n l .M s + n l .S s) : x.state ≠ .finished := by
  intro e
  have := h.done e
  omega

theorem kind_after (k : After) : kind (after k) = .M := by cases k <;> rfl

theorem SInv.check {l l' : List Part} {p : Part} {x : Stmt} {k : After} (h : SInv l p.s x) (h1 : kind p.pc = .M ∨ kind p.pc = .S)
    (hp : kind p.pc = .M → x.state = .new) (h0 : 0 < n l .M p.s + n l .S p.s) (h3 : kind p.pc = .S → 0 < n l .S p.s) (N : Counts l l' p (check x k)) :
    SInv l' p.s { x with state := .pending } := by
  have hnf := h.running h0
  obtain ⟨c1, c2, c3, c4, c5, c6, c7⟩ := h
  obtain ⟨d1, d2, d3, d4, d5, d6⟩ := c3 hnf
  by_cases he : x.cnt = x.cntExec
  · rw [Verif.GroupInsert.check, if_pos he] at N
    have h2 := kind_after k
    rcases h1 with h1 | h1
    · have := c5 (hp h1)
      nine N h1 h2
      exact ⟨by dsimp only; omega, by dsimp only; omega, fun e => ⟨by omega, by omega, by omega, d4, by dsimp only; omega, by omega⟩,
        fun _ _ => by omega, fun e => by exact absurd e (by simp), fun _ _ => by omega, fun e => absurd e (by simp)⟩
    · nine N h1 h2
      exact ⟨by dsimp only; omega, by dsimp only; omega, fun e => ⟨by omega, by omega, by omega, d4, by dsimp only; omega, by omega⟩,
        fun _ _ => by omega, fun e => by exact absurd e (by simp), fun _ _ => by omega, fun e => absurd e (by simp)⟩
  · rw [Verif.GroupInsert.check, if_neg he] at N
    have h2 : kind (PC.spin k) = .S := rfl
    rcases h1 with h1 | h1
    · have := c5 (hp h1)
      nine N h1 h2
      exact ⟨by dsimp only; omega, by dsimp only; omega, fun e => ⟨by omega, by omega, by omega, d4, by dsimp only; omega, by omega⟩,
        fun _ _ => by omega, fun e => by exact absurd e (by simp), fun _ _ => by omega, fun e => absurd e (by simp)⟩
    · have := h3 h1
      nine N h1 h2
      exact ⟨by dsimp only; omega, by dsimp only; omega, fun e => ⟨by omega, by omega, by omega, d4, by dsimp only; omega, by omega⟩,
        fun _ _ => by omega, fun e => by exact absurd e (by simp), fun _ _ => by omega, fun e => absurd e (by simp)⟩

theorem SInv.destroy {l l' : List Part} {p : Part} {x : Stmt} {e : Err} {m : Bool} (h : SInv l p.s x) (h1 : kind p.pc = .R)
    (hp : 0 < n l .R p.s) (N : Counts l l' p (destroy x e m).2) : SInv l' p.s (destroy x e m).1 := by
  have hf : x.state = .finished := by
    refine Classical.byContradiction fun hf => ?_
    have := h.open_ hf
    omega
  obtain ⟨c1, c2, c3, c4, c5, c6, c7⟩ := h
  obtain ⟨d1, d2, d3, d4, d5, d6, d7⟩ := c7 hf
  rw [Verif.GroupInsert.destroy] at N ⊢
  have hd : ¬(n l .F p.s + (if x.freed then 1 else 0) = 1) := fun c => by have := d7.1 c; omega
  by_cases h0 : x.cnt - 1 ≠ 0
  · rw [if_pos h0] at N
    have h2 : kind (PC.gone e m) = .G := rfl
    nine N h1 h2
    exact ⟨by dsimp only; omega, by dsimp only; omega, fun c => absurd hf c, fun c => absurd hf c, fun c => by rw [hf] at c; exact absurd c (by simp),
      fun c => by rw [hf] at c; exact absurd c (by simp), fun _ => ⟨by omega, by omega, by omega, by omega, by omega, by dsimp only; omega,
        ⟨fun c => by dsimp only at c; omega, fun c => by dsimp only at c; omega⟩⟩⟩
  · rw [if_neg h0] at N
    have h2 : kind (PC.freeing e m) = .F := rfl
    nine N h1 h2
    exact ⟨by dsimp only; omega, by dsimp only; omega, fun c => absurd hf c, fun c => absurd hf c, fun c => by rw [hf] at c; exact absurd c (by simp),
      fun c => by rw [hf] at c; exact absurd c (by simp), fun _ => ⟨by omega, by omega, by omega, by omega, by omega, by dsimp only; omega,
        ⟨fun c => by dsimp only; omega, fun c => by dsimp only; omega⟩⟩⟩

theorem SInv.free {l l' : List Part} {p : Part} {x : Stmt} {e : Err} {m : Bool} (h : SInv l p.s x) (h1 : kind p.pc = .F)
    (hp : 0 < n l .F p.s) (N : Counts l l' p (.gone e m)) : SInv l' p.s (free x) := by
  have hf : x.state = .finished := by
    refine Classical.byContradiction fun hf => ?_
    have := h.open_ hf
    omega
  obtain ⟨c1, c2, c3, c4, c5, c6, c7⟩ := h
  obtain ⟨d1, d2, d3, d4, d5, d6, d7⟩ := c7 hf
  have h2 : kind (PC.gone e m) = .G := rfl
  nine N h1 h2
  have hfr : x.freed = false := by
    cases hx : x.freed with
    | false => rfl
    | true => rw [hx] at d6; simp at d6; omega
  rw [hfr] at d6 d7
  simp only [Bool.false_eq_true, if_false, Nat.add_zero] at d6 d7
  have d8 := d7.1 (by omega)
  rw [Verif.GroupInsert.free]
  exact ⟨by dsimp only; omega, by dsimp only; omega, fun c => absurd hf c, fun c => absurd hf c, fun c => by rw [hf] at c; exact absurd c (by simp),
      fun c => by rw [hf] at c; exact absurd c (by simp), fun _ => ⟨by omega, by omega, by omega, by omega, by omega, by simp only [if_true]; omega,
        ⟨fun _ => by exact d8, fun _ => by simp only [if_true]; omega⟩⟩⟩

theorem SInv.finish {l l' : List Part} {p : Part} {x : Stmt} {e : Err} (h : SInv l p.s x) (h1 : kind p.pc = .M)
    (hs : x.state = .pending) (hp : 0 < n l .M p.s)
    (N : Counts (l.map (rouse p.s)) l' p (.returned e true)) : SInv l' p.s (finish x) := by
  obtain ⟨c1, c2, c3, c4, c5, c6, c7⟩ := h
  obtain ⟨d1, d2, d3, d4, d5, d6⟩ := c3 (by rw [hs]; simp)
  obtain ⟨e1, e2⟩ := c6 hs (by omega)
  have R := fun k => n_rouse l k p.s p.s
  have N' : ∀ k, _ := fun k => N k
  have h2 : kind (PC.returned e true) = .R := rfl
  nine N' h1 h2
  simp only [R, if_true] at aJ aH aM aS aA aW aR aF aG
  rw [Verif.GroupInsert.finish]
  refine ⟨by dsimp only; omega, by dsimp only; omega, fun c => absurd rfl c, fun c => absurd rfl c, fun c => absurd c (by simp),
    fun c => absurd c (by simp), fun _ => ⟨by omega, by omega, by omega, by omega, by omega, ?_, ?_⟩⟩
  · dsimp only
    rw [d4]; simp; omega
  · dsimp only
    rw [d4]; simp; omega

theorem kind_ne {pc : PC} {k : Kind} (h : kind pc = k) (hk : k ≠ .G) : kind pc ≠ .G := h ▸ hk

theorem counts {l : List Part} {i : Nat} {p : Part} (hi : l[i]? = some p) (pc : PC) : Counts l (l.set i { p with pc := pc }) p pc :=
  fun k => n_set l i p pc hi k

theorem part_state {st : St} (h : Inv st) {i : Nat} {p : Part} {x : Stmt} (hi : st.parts[i]? = some p) (hx : st.stmts[p.s]? = some x)
    (hl : late p.pc = true) : x.state = .pending := by
  obtain ⟨y, hy, a, _⟩ := h.part i p hi
  rw [hx] at hy
  obtain rfl := Option.some.inj hy
  exact a hl

/-- A step that leaves the state of the statement. -/
theorem Inv.stay {st : St} (h : Inv st) {i : Nat} {p : Part} {x x' : Stmt} {pc : PC}
    {c : List (Nat × List Nat)} (hi : st.parts[i]? = some p) (hx : st.stmts[p.s]? = some x) (hk : kind p.pc ≠ .G)
    (hs : SInv (st.parts.set i { p with pc := pc }) p.s x') (hq : x'.query = x.query) (hst : x'.state = x.state)
    (hl' : late pc = true → x'.state = .pending)
    (hr : (x'.rows = x.rows ∧ hasBound pc = hasBound p.pc) ∨
      (x'.rows = x.rows ++ [i] ∧ hasBound p.pc = false ∧ hasBound pc = true)) :
    Inv { upd st i p x x' pc with committed := c } := by
  refine h.move hi hx hk (moved_set hi pc) hs hq (fun q s hq => ⟨hq, fun e => ?_⟩) (fun j q hj hq e hl => ?_) hl' hr
  · obtain ⟨y, hy, a, _⟩ := h.table q s hq
    rw [e, hx] at hy
    obtain rfl := Option.some.inj hy
    rw [hst, a]
  · rw [hst]
    exact part_state h hq (by rw [e]; exact hx) hl

theorem after_bound (k : After) : hasBound (after k) = true := by cases k <;> rfl
theorem check_bound (x : Stmt) (k : After) : hasBound (check x k) = true := by
  rw [check]
  split
  · exact after_bound k
  · rfl

theorem work_inv {env : Env} {st st' : St} (h : Inv st) (w : Work env st st') : Inv st' := by
  cases w with
  | lock i p x hi hx hp hl =>
    have hk : kind p.pc = .J := by rw [hp]; rfl
    exact h.stay hi hx (kind_ne hk (by simp)) ((h.stmt _ _ hx).sJH (counts hi _) hk rfl hl) rfl rfl (by simp [late])
      (.inl ⟨rfl, by rw [hp]; rfl⟩)
  | bind i p x hi hx hp =>
    have hk : kind p.pc = .H := by rw [hp]; rfl
    have hs := (h.stmt _ _ hx).same (counts hi .bound) (by rw [hk]; rfl)
    exact h.stay hi hx (kind_ne hk (by simp)) (x' := bind x i) ⟨hs.cnt, hs.lock, hs.open_, hs.leader, hs.spin, hs.closed, hs.done⟩ rfl rfl
      (by simp [late]) (.inr ⟨rfl, by rw [hp]; rfl, rfl⟩)
  | call i p x hi hx hp =>
    have hk : kind p.pc = .H := by rw [hp]; rfl
    have hs := (h.stmt _ _ hx).call hk (n_pos hi hk) (counts hi _)
    have hnf : x.state ≠ .finished := fun e => by
      have := (h.stmt _ _ hx).done e
      have := n_pos hi hk
      omega
    by_cases h0 : x.cntExec + 1 ≠ 1
    · have e : execCall x = ({ x with cntExec := x.cntExec + 1, locked := false }, .asleep) := by rw [execCall, if_neg hnf, if_pos h0]
      rw [e] at hs ⊢
      exact h.stay hi hx (kind_ne hk (by simp)) hs rfl rfl (by simp [late]) (.inl ⟨rfl, by rw [hp]; rfl⟩)
    · have e : execCall x = ({ x with cntExec := x.cntExec + 1, locked := false }, .begin) := by rw [execCall, if_neg hnf, if_neg h0]
      rw [e] at hs ⊢
      exact h.stay hi hx (kind_ne hk (by simp)) hs rfl rfl (by simp [late]) (.inl ⟨rfl, by rw [hp]; rfl⟩)
  | wake i p x hi hx hp hl =>
    have hk : kind p.pc = .W := by rw [hp]; rfl
    have hs := (h.stmt _ _ hx).wake hk (n_pos hi hk) (counts hi _)
    refine h.stay hi hx (kind_ne hk (by simp)) hs rfl rfl ?_ (.inl ⟨rfl, ?_⟩)
    · rw [wake]; split <;> simp [late]
    · rw [wake, hp]; split <;> rfl
  | begin i p x e hi hx hp ha hf =>
    have hk : kind p.pc = .M := by rw [hp]; rfl
    have hs := (h.stmt _ _ hx).same (counts hi (beginRes e)) (by rw [hk, beginRes]; split <;> (try split) <;> rfl)
    refine h.stay hi hx (kind_ne hk (by simp)) hs rfl rfl ?_ (.inl ⟨rfl, ?_⟩)
    · rw [beginRes]; split <;> (try split) <;> simp [late]
    · rw [beginRes, hp]; split <;> (try split) <;> rfl
  | close i p x k hi hx hp hl =>
    have hk : kind p.pc = .M := by rw [hp]; rfl
    have hb : hasBound p.pc = true := by rw [hp]; rfl
    have hpos := n_pos hi hk
    by_cases hn : x.state = .new
    · have e : close st.table x k = (setKey st.table x.query none, { x with state := .pending }, check x k) := by
        rw [close, if_neg (by simp [hn])]
      rw [e]
      have hs := (h.stmt _ _ hx).check (k := k) (.inl hk) (fun _ => hn) (by omega) (fun c => by rw [hk] at c; exact absurd c (by simp))
        (counts hi _)
      refine h.move hi hx (kind_ne hk (by simp)) (moved_set hi _) hs rfl (fun q s hq => ?_) (fun _ _ _ _ _ _ => rfl) (fun _ => rfl)
        (.inl ⟨rfl, by rw [hb]; exact check_bound x k⟩)
      dsimp only [setKey] at hq
      by_cases hqx : q = x.query
      · rw [if_pos hqx] at hq; exact absurd hq (by simp)
      · rw [if_neg hqx] at hq
        refine ⟨hq, fun es => ?_⟩
        obtain ⟨y, hy, _, b⟩ := h.table q s hq
        rw [es, hx] at hy
        obtain rfl := Option.some.inj hy
        exact absurd b.symm hqx
    · have e : close st.table x k = (st.table, x, after k) := by rw [close, if_pos hn]
      rw [e]
      have hpend : x.state = .pending := by
        have := (h.stmt _ _ hx).running (by omega)
        revert hn this
        cases x.state <;> simp
      exact h.stay hi hx (kind_ne hk (by simp)) ((h.stmt _ _ hx).same (counts hi _) (by rw [hk]; exact kind_after k)) rfl rfl
        (fun _ => hpend) (.inl ⟨rfl, by rw [hb]; exact after_bound k⟩)
  | spin i p x k hi hx hp hl hc =>
    have hk : kind p.pc = .S := by rw [hp]; rfl
    have hb : hasBound p.pc = true := by rw [hp]; rfl
    have hpos := n_pos hi hk
    have hpend : x.state = .pending := by
      have a := (h.stmt _ _ hx).running (by omega)
      have b := (h.stmt _ _ hx).spin
      cases hx : x.state with
      | new => have := b hx; omega
      | pending => rfl
      | finished => exact absurd hx a
    have hs := (h.stmt _ _ hx).check (k := k) (.inr hk) (fun c => by rw [hk] at c; exact absurd c (by simp)) (by omega) (fun _ => hpos)
        (counts hi _)
    have e : { x with state := .pending } = x := by rw [← hpend]
    rw [e] at hs
    exact h.stay hi hx (kind_ne hk (by simp)) hs rfl rfl (fun _ => hpend) (.inl ⟨rfl, by rw [hb]; exact check_bound x k⟩)
  | exec i p x e hi hx hp ha =>
    have hk : kind p.pc = .M := by rw [hp]; rfl
    have hpend := part_state h hi hx (by rw [hp]; rfl)
    have hs := (h.stmt _ _ hx).same (counts hi (execRes x e).2) (by rw [hk, execRes]; dsimp only; split <;> (try split) <;> rfl)
    refine h.stay hi hx (kind_ne hk (by simp)) (x' := (execRes x e).1)
      ⟨hs.cnt, hs.lock, hs.open_, hs.leader, hs.spin, hs.closed, hs.done⟩ rfl rfl (fun _ => hpend) (.inl ⟨rfl, ?_⟩)
    rw [execRes, hp]; dsimp only; split <;> (try split) <;> rfl
  | commit i p x e hi hx hp ha hf =>
    have hk : kind p.pc = .M := by rw [hp]; rfl
    have hpend := part_state h hi hx (by rw [hp]; rfl)
    have hs := (h.stmt _ _ hx).same (counts hi (commitRes e)) (by rw [hk, commitRes]; split <;> (try split) <;> rfl)
    refine h.stay hi hx (kind_ne hk (by simp)) hs rfl rfl (fun _ => hpend) (.inl ⟨rfl, ?_⟩)
    rw [commitRes, hp]; split <;> (try split) <;> rfl
  | finish i p x e hi hx hp hl =>
    have hk : kind p.pc = .M := by rw [hp]; rfl
    have hpend := part_state h hi hx (by rw [hp]; rfl)
    have hi' : (st.parts.map (rouse p.s))[i]? = some p := by
      rw [List.getElem?_map, hi]
      have : rouse p.s p = p := if_neg fun c => by rw [hp] at c; exact absurd c.2 (by simp)
      simp [this]
    have hs := (h.stmt _ _ hx).finish hk hpend (n_pos hi hk) (counts hi' (.returned e true))
    refine h.move hi hx (kind_ne hk (by simp)) (moved_rouse hi (by rw [hp]; simp) _) hs rfl (fun q s hq => ⟨hq, fun es => ?_⟩)
      (fun j q hj hq es hlt => ?_) (by simp [late]) (.inl ⟨rfl, by rw [hp]; rfl⟩)
    · obtain ⟨y, hy, a, _⟩ := h.table q s hq
      rw [es, hx] at hy
      obtain rfl := Option.some.inj hy
      rw [hpend] at a
      exact absurd a (by simp)
    · have h2 := two hi hq hj es (.inl hk) (.inl (late_M hlt))
      have := (h.stmt _ _ hx).open_ (by rw [hpend]; simp)
      omega
  | destroy i p x e m hi hx hp hl =>
    have hk : kind p.pc = .R := by rw [hp]; rfl
    have hs := (h.stmt _ _ hx).destroy (e := e) (m := m) hk (n_pos hi hk) (counts hi _)
    refine h.stay hi hx (kind_ne hk (by simp)) hs rfl rfl ?_ (.inl ⟨rfl, ?_⟩)
    · rw [destroy]; dsimp only; split <;> simp [late]
    · rw [destroy, hp]; dsimp only; split <;> rfl
  | free i p x e m hi hx hp =>
    have hk : kind p.pc = .F := by rw [hp]; rfl
    have hs := (h.stmt _ _ hx).free (e := e) (m := m) hk (n_pos hi hk) (counts hi _)
    exact h.stay hi hx (kind_ne hk (by simp)) hs rfl rfl (by simp [late]) (.inl ⟨rfl, by rw [hp]; rfl⟩)

theorem n_append (l : List Part) (p : Part) (k : Kind) (s : Nat) : n (l ++ [p]) k s = n l k s + if is k s p then 1 else 0 := by
  rw [n, n, List.countP_append, List.countP_singleton]

theorem get_append {α : Type _} {l : List α} {a b : α} {i : Nat} (h : (l ++ [a])[i]? = some b) :
    (i = l.length ∧ b = a) ∨ (i < l.length ∧ l[i]? = some b) := by
  rcases Nat.lt_trichotomy i l.length with hi | hi | hi
  · rw [List.getElem?_append_left hi] at h
    exact .inr ⟨hi, h⟩
  · subst hi
    simp at h
    exact .inl ⟨rfl, h.symm⟩
  · rw [List.getElem?_eq_none (by simp; omega)] at h
    exact absurd h (by simp)

theorem get_lt {α : Type _} {l : List α} {a : α} {i : Nat} (h : l[i]? = some a) : i < l.length := by
  rcases Nat.lt_or_ge i l.length with h' | h'
  · exact h'
  · rw [List.getElem?_eq_none h'] at h; exact absurd h (by simp)

/-- The bound rows are not affected by a new call. -/
theorem rows_append {l : List Part} {q : Query} {s s' : Nat} {r : List Nat}
    (h : ∀ i, i ∈ r ↔ ∃ p : Part, l[i]? = some p ∧ p.s = s ∧ hasBound p.pc = true) (i : Nat) :
    i ∈ r ↔ ∃ p : Part, (l ++ [⟨q, s', .joined⟩])[i]? = some p ∧ p.s = s ∧ hasBound p.pc = true := by
  rw [h i]
  constructor
  · rintro ⟨p, a, b⟩
    exact ⟨p, by rw [List.getElem?_append_left (get_lt a)]; exact a, b⟩
  · rintro ⟨p, a, b, c⟩
    rcases get_append a with ⟨_, rfl⟩ | ⟨_, a⟩
    · exact absurd c (by simp [hasBound])
    · exact ⟨p, a, b, c⟩

theorem new_inv {st : St} (h : Inv st) {q : Query} (e : Err) (hq : trim q = q) (ht : st.table q = none) : Inv (prepareNew st q e) := by
  have zero : ∀ k, n st.parts k st.stmts.length = 0 := by
    intro k
    rcases Nat.eq_zero_or_pos (n st.parts k st.stmts.length) with h0 | h0
    · exact h0
    · obtain ⟨i, p, hi, hs, _⟩ := n_exists h0
      obtain ⟨x, hx, _⟩ := h.part i p hi
      have := get_lt hx
      omega
  refine ⟨h.bad, fun s y hy => ?_, fun q' s hs => ?_, fun j p hj => ?_, fun s y hy => ?_⟩
  · dsimp only [prepareNew] at hy ⊢
    rcases get_append hy with ⟨rfl, rfl⟩ | ⟨hs, hy⟩
    · refine ⟨?_, ?_, fun _ => ?_, fun _ _ => ?_, fun _ => ?_, fun c => absurd c (by simp), fun c => absurd c (by simp)⟩ <;>
        simp [n_append, zero, is, kind]
    · have hi := h.stmt s y hy
      have N : ∀ k, n (st.parts ++ [⟨q, st.stmts.length, .joined⟩]) k s = n st.parts k s := by
        intro k
        rw [n_append, if_neg]
        · rfl
        · simp [is]
          omega
      exact ⟨by simp only [N]; exact hi.cnt, by simp only [N]; exact hi.lock, by simp only [N]; exact hi.open_,
        by simp only [N]; exact hi.leader, by simp only [N]; exact hi.spin, by simp only [N]; exact hi.closed,
        by simp only [N]; exact hi.done⟩
  · dsimp only [prepareNew, setKey] at hs ⊢
    by_cases e1 : q' = q
    · rw [if_pos e1] at hs
      obtain rfl := Option.some.inj hs
      exact ⟨_, by simp; rfl, rfl, by rw [e1]; exact hq⟩
    · rw [if_neg e1] at hs
      obtain ⟨x, hx, a⟩ := h.table q' s hs
      exact ⟨x, by rw [List.getElem?_append_left (get_lt hx)]; exact hx, a⟩
  · dsimp only [prepareNew] at hj ⊢
    rcases get_append hj with ⟨_, rfl⟩ | ⟨_, hj⟩
    · exact ⟨⟨trim q, 1, 0, .new, false, [], e, false⟩, by simp, by simp [late], hq⟩
    · obtain ⟨x, hx, a⟩ := h.part j p hj
      exact ⟨x, by rw [List.getElem?_append_left (get_lt hx)]; exact hx, a⟩
  · dsimp only [prepareNew] at hy ⊢
    rcases get_append hy with ⟨rfl, rfl⟩ | ⟨_, hy⟩
    · refine ⟨by simp, fun i => ?_⟩
      simp only [List.not_mem_nil, false_iff]
      rintro ⟨p, a, b, c⟩
      rcases get_append a with ⟨_, rfl⟩ | ⟨_, a⟩
      · exact absurd c (by simp [hasBound])
      · obtain ⟨x, hx, _⟩ := h.part i p a
        have := get_lt hx
        omega
    · obtain ⟨r1, r2⟩ := h.rows s y hy
      exact ⟨r1, rows_append r2⟩

theorem join_inv {st : St} (h : Inv st) {q : Query} {s : Nat} {x : Stmt} (ht : st.table q = some s) (hx : st.stmts[s]? = some x) :
    Inv (prepareJoin st q s x) := by
  obtain ⟨x0, hx0, hnew, hqe⟩ := h.table q s ht
  rw [hx] at hx0
  obtain rfl := Option.some.inj hx0
  have hlt := get_lt hx
  have look : ∀ (r : Nat) (y : Stmt), (st.stmts.set s { x with cnt := x.cnt + 1 })[r]? = some y →
      (r = s ∧ y = { x with cnt := x.cnt + 1 }) ∨ (r ≠ s ∧ st.stmts[r]? = some y) := by
    intro r y hy
    by_cases e : r = s
    · subst e
      rw [List.getElem?_set_self hlt] at hy
      exact .inl ⟨rfl, (Option.some.inj hy).symm⟩
    · rw [List.getElem?_set_ne (Ne.symm e)] at hy
      exact .inr ⟨e, hy⟩
  have put : ∀ (r : Nat) (y : Stmt), st.stmts[r]? = some y →
      ∃ y' : Stmt, (st.stmts.set s { x with cnt := x.cnt + 1 })[r]? = some y' ∧ y'.state = y.state ∧ y'.query = y.query := by
    intro r y hy
    by_cases e : r = s
    · subst e
      rw [hx] at hy
      obtain rfl := Option.some.inj hy
      exact ⟨_, List.getElem?_set_self hlt, rfl, rfl⟩
    · exact ⟨y, by rw [List.getElem?_set_ne (Ne.symm e)]; exact hy, rfl, rfl⟩
  have hnf : x.state ≠ .finished := by rw [hnew]; simp
  refine ⟨?_, fun r y hy => ?_, fun q' r hr => ?_, fun j p hj => ?_, fun r y hy => ?_⟩
  · dsimp only [prepareJoin]
    rw [h.bad, ((h.stmt s x hx).open_ hnf).2.2.2.1]
    rfl
  · dsimp only [prepareJoin] at hy ⊢
    rcases look r y hy with ⟨rfl, rfl⟩ | ⟨hr, hy⟩
    · obtain ⟨c1, c2, c3, c4, c5, c6, c7⟩ := h.stmt _ x hx
      refine ⟨?_, ?_, ?_, ?_, ?_, ?_, fun c => absurd c hnf⟩
      · simp [n_append, is, kind]; omega
      · simp only [n_append]; simpa [is, kind] using c2
      · simp only [n_append]; simpa [is, kind] using c3
      · simp only [n_append]; simpa [is, kind] using c4
      · simp only [n_append]; simpa [is, kind] using c5
      · dsimp only; rw [hnew]; exact fun c => absurd c (by simp)
    · have hi := h.stmt r y hy
      have N : ∀ k, n (st.parts ++ [⟨q, s, .joined⟩]) k r = n st.parts k r := by
        intro k
        rw [n_append, if_neg]
        · rfl
        · simp [is, Ne.symm hr]
      exact ⟨by simp only [N]; exact hi.cnt, by simp only [N]; exact hi.lock, by simp only [N]; exact hi.open_,
        by simp only [N]; exact hi.leader, by simp only [N]; exact hi.spin, by simp only [N]; exact hi.closed,
        by simp only [N]; exact hi.done⟩
  · obtain ⟨y, hy, a, b⟩ := h.table q' r hr
    obtain ⟨y', hy', e1, e2⟩ := put r y hy
    exact ⟨y', hy', e1.trans a, e2.trans b⟩
  · dsimp only [prepareJoin] at hj ⊢
    rcases get_append hj with ⟨_, rfl⟩ | ⟨_, hj⟩
    · exact ⟨_, List.getElem?_set_self hlt, by simp [late], hqe⟩
    · obtain ⟨y, hy, a, b⟩ := h.part j p hj
      obtain ⟨y', hy', e1, e2⟩ := put p.s y hy
      exact ⟨y', hy', fun c => e1.trans (a c), e2.trans b⟩
  · dsimp only [prepareJoin] at hy ⊢
    rcases look r y hy with ⟨rfl, rfl⟩ | ⟨_, hy⟩
    · obtain ⟨r1, r2⟩ := h.rows _ x hx
      exact ⟨r1, rows_append r2⟩
    · obtain ⟨r1, r2⟩ := h.rows r y hy
      exact ⟨r1, rows_append r2⟩

theorem step_inv {env : Env} (henv : ∀ q, env.query q → trim q = q) {st st' : St} (h : Inv st) (w : Step env st st') : Inv st' := by
  cases w with
  | work w => exact work_inv h w
  | new q e hq ht => exact new_inv h e (henv q hq) ht
  | join q s x _ ht hx => exact join_inv h ht hx
  | spurious i p x hi hx hp =>
    have hk : kind p.pc = .A := by rw [hp]; rfl
    exact h.stay hi hx (kind_ne hk (by simp)) ((h.stmt _ _ hx).spurious hk (n_pos hi hk) (counts hi _)) rfl rfl (by simp [late])
      (.inl ⟨rfl, by rw [hp]; rfl⟩)
  | round i p x k hi hx hp hl =>
    have hk : kind p.pc = .S := by rw [hp]; rfl
    have hb : hasBound p.pc = true := by rw [hp]; rfl
    have hpos := n_pos hi hk
    have hpend : x.state = .pending := by
      have a := (h.stmt _ _ hx).running (by omega)
      have b := (h.stmt _ _ hx).spin
      cases hx : x.state with
      | new => have := b hx; omega
      | pending => rfl
      | finished => exact absurd hx a
    have hs := (h.stmt _ _ hx).check (k := k) (.inr hk) (fun c => by rw [hk] at c; exact absurd c (by simp)) (by omega) (fun _ => hpos)
        (counts hi _)
    have e : { x with state := .pending } = x := by rw [← hpend]
    rw [e] at hs
    exact h.stay hi hx (kind_ne hk (by simp)) hs rfl rfl (fun _ => hpend) (.inl ⟨rfl, by rw [hb]; exact check_bound x k⟩)

theorem init_inv : Inv init :=
  ⟨rfl, fun s x h => by simp [init] at h, fun q s h => by simp [init] at h, fun i p h => by simp [init] at h, fun s x h => by simp [init] at h⟩

theorem reach_inv {env : Env} (henv : ∀ q, env.query q → trim q = q) {st : St} (h : Reach env st) : Inv st := by
  induction h with
  | init => exact init_inv
  | step _ w ih => exact step_inv henv ih w

end Verif.GroupInsert
