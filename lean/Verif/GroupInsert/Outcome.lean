import Verif.GroupInsert.Steps
/-! What the calls are told and what is in the database. -/
namespace Verif.GroupInsert
open Verif.Sql (Err isError isRollback)

/-- The result a call has or is about to have, and whether it runs the statement. -/
def verdict : PC → Option (Err × Bool)
  | .close (.finish e) | .spin (.finish e) | .fin e => some (e, true)
  | .returned e m | .freeing e m | .gone e m => some (e, m)
  | _ => none

def okPC (pc : PC) : Prop := pc = .asleep ∨ pc = .awake ∨ ∃ e m, verdict pc = some (e, m) ∧ isError e = false

def Com (st : St) (s : Nat) : Prop := s ∈ st.committed.map (·.1)

structure Out (env : Env) (st : St) : Prop where
  rows : ∀ (s : Nat) (l : List Nat), (s, l) ∈ st.committed →
    ∃ x : Stmt, st.stmts[s]? = some x ∧ x.rows = l ∧ x.lastErr = .success ∧ x.state ≠ .new
  nodup : (st.committed.map (·.1)).Nodup
  com : ∀ (i : Nat) (p : Part), st.parts[i]? = some p → Com st p.s → okPC p.pc
  ncom : ∀ (i : Nat) (p : Part) (x : Stmt), st.parts[i]? = some p → st.stmts[p.s]? = some x → ¬Com st p.s →
    ∀ e m, verdict p.pc = some (e, m) → ((m = true ∨ ¬env.fail) → isError e = true) ∧ (¬env.fail → isError x.lastErr = true)
  commit : ∀ (i : Nat) (p : Part) (x : Stmt), st.parts[i]? = some p → st.stmts[p.s]? = some x → p.pc = .commit → x.lastErr = .success
  fin : ∀ (s : Nat) (x : Stmt), st.stmts[s]? = some x → x.state = .finished → ¬Com st s → ¬env.fail → isError x.lastErr = true

theorem verdict_kind {pc : PC} {v : Err × Bool} (h : verdict pc = some v) :
    kind pc = .M ∨ kind pc = .S ∨ kind pc = .R ∨ kind pc = .F ∨ kind pc = .G := by
  cases pc <;> first | (simp [kind]; done) | exact absurd h (by simp [verdict])

/-- Nobody else has a result while someone runs the statement. -/
theorem only {st : St} (h : Inv st) {i j : Nat} {p q : Part} {x : Stmt} (hi : st.parts[i]? = some p) (hx : st.stmts[p.s]? = some x)
    (hk : kind p.pc = .M ∨ kind p.pc = .S) (hj : j ≠ i) (hq : st.parts[j]? = some q) (hs : q.s = p.s) :
    verdict q.pc = none ∧ kind q.pc ≠ .M := by
  have hn : 0 < n st.parts .M p.s + n st.parts .S p.s := by
    rcases hk with hk | hk <;> have := n_pos hi hk <;> omega
  obtain ⟨a, b, c, d, e, f⟩ := (h.stmt _ _ hx).open_ ((h.stmt _ _ hx).running hn)
  have g := fun hk' => two hi hq hj hs hk hk'
  constructor
  · cases hv : verdict q.pc with
    | none => rfl
    | some v =>
      rcases verdict_kind hv with hk' | hk' | hk' | hk' | hk'
      · have := g (.inl hk'); omega
      · have := g (.inr hk'); omega
      all_goals have hp := n_pos hq hk'; rw [hs] at hp; omega
  · intro hk'
    have := g (.inl hk'); omega

/-- How the other calls change. -/
def Others (l l' : List Part) (i : Nat) (p : Part) (pc : PC) : Prop :=
  l'[i]? = some { p with pc := pc } ∧
  ∀ (j : Nat) (q : Part), j ≠ i → l'[j]? = some q → ∃ q0 : Part, l[j]? = some q0 ∧ (q = q0 ∨ (q0.pc = .asleep ∧ q = { q0 with pc := .awake }))

theorem others_set {l : List Part} {i : Nat} {p : Part} (hi : l[i]? = some p) (pc : PC) : Others l (l.set i { p with pc := pc }) i p pc := by
  refine ⟨(moved_set hi pc).self, fun j q hj h => ?_⟩
  rw [List.getElem?_set_ne (Ne.symm hj)] at h
  exact ⟨q, h, .inl rfl⟩

theorem others_rouse {l : List Part} {i : Nat} {p : Part} (hi : l[i]? = some p) (hp : p.pc ≠ .asleep) (pc : PC) :
    Others l ((l.map (rouse p.s)).set i { p with pc := pc }) i p pc := by
  refine ⟨(moved_rouse hi hp pc).self, fun j q hj h => ?_⟩
  rw [List.getElem?_set_ne (Ne.symm hj), List.getElem?_map] at h
  cases hl : l[j]? with
  | none => rw [hl] at h; exact absurd h (by simp)
  | some q1 =>
    rw [hl] at h
    simp only [Option.map_some, Option.some.injEq] at h
    refine ⟨q1, rfl, ?_⟩
    by_cases c : q1.s = p.s ∧ q1.pc = .asleep
    · rw [rouse, if_pos c] at h
      exact .inr ⟨c.2, h.symm⟩
    · rw [rouse, if_neg c] at h
      exact .inl h.symm

/-- A step of call `i` that commits nothing. -/
theorem Out.move {env : Env} {st : St} (o : Out env st) {i : Nat} {p : Part} {x x' : Stmt} {pc : PC} {l : List Part}
    {t : Query → Option Nat} {b : Bool} (hi : st.parts[i]? = some p) (hx : st.stmts[p.s]? = some x) (hm : Others st.parts l i p pc)
    (hr : x'.rows = x.rows ∨ ¬Com st p.s) (hn : x'.state = .new → x.state = .new)
    (hf : x'.state = .finished → ¬Com st p.s → ¬env.fail → isError x'.lastErr = true)
    (h1 : Com st p.s → okPC pc)
    (h2 : ¬Com st p.s → ∀ e m, verdict pc = some (e, m) →
      ((m = true ∨ ¬env.fail) → isError e = true) ∧ (¬env.fail → isError x'.lastErr = true))
    (h3 : pc = .commit → x'.lastErr = .success)
    (hE : x'.lastErr = x.lastErr ∨ (¬Com st p.s ∧ ∀ (j : Nat) (q : Part), j ≠ i → st.parts[j]? = some q → q.s = p.s →
      verdict q.pc = none ∧ kind q.pc ≠ .M)) :
    Out env ⟨t, st.stmts.set p.s x', l, st.committed, b⟩ := by
  have hlt := get_lt hx
  have self : (st.stmts.set p.s x')[p.s]? = some x' := List.getElem?_set_self hlt
  have look : ∀ (s : Nat) (y : Stmt), (st.stmts.set p.s x')[s]? = some y → (s = p.s ∧ y = x') ∨ (s ≠ p.s ∧ st.stmts[s]? = some y) := by
    intro s y hy
    by_cases e : s = p.s
    · subst e
      rw [self] at hy
      exact .inl ⟨rfl, (Option.some.inj hy).symm⟩
    · rw [List.getElem?_set_ne (Ne.symm e)] at hy
      exact .inr ⟨e, hy⟩
  refine ⟨fun s r hs => ?_, o.nodup, fun j q hj hc => ?_, fun j q y hj hy hc e m hv => ?_, fun j q y hj hy hc => ?_, fun s y hy hs hc hfail => ?_⟩
  · obtain ⟨y, hy, a, b, c⟩ := o.rows s r hs
    by_cases e : s = p.s
    · subst e
      rw [hx] at hy
      obtain rfl := Option.some.inj hy
      have hcom : Com st p.s := List.mem_map.2 ⟨_, hs, rfl⟩
      refine ⟨x', self, ?_, ?_, fun d => c (hn d)⟩
      · rcases hr with hr | hr
        · rw [hr, a]
        · exact absurd hcom hr
      · rcases hE with hE | hE
        · rw [hE, b]
        · exact absurd hcom hE.1
    · exact ⟨y, by rw [List.getElem?_set_ne (Ne.symm e)]; exact hy, a, b, c⟩
  · by_cases e : j = i
    · subst e
      rw [hm.1] at hj
      obtain rfl := Option.some.inj hj
      exact h1 hc
    · obtain ⟨q0, h0, rfl | ⟨ha, rfl⟩⟩ := hm.2 j q e hj
      · exact o.com j q h0 hc
      · exact .inr (.inl rfl)
  · by_cases ej : j = i
    · subst ej
      rw [hm.1] at hj
      obtain rfl := Option.some.inj hj
      rw [self] at hy
      obtain rfl := Option.some.inj hy
      exact h2 hc e m hv
    · obtain ⟨q0, h0, rfl | ⟨ha, rfl⟩⟩ := hm.2 j q ej hj
      · rcases look _ y hy with ⟨es, rfl⟩ | ⟨es, hy⟩
        · rcases hE with hE | ⟨_, hE⟩
          · have := o.ncom j q x h0 (by rw [es]; exact hx) hc e m hv
            rw [hE]
            exact this
          · rw [(hE j q ej h0 es).1] at hv
            exact absurd hv (by simp)
        · exact o.ncom j q y h0 hy hc e m hv
      · exact absurd hv (by simp [verdict])
  · by_cases ej : j = i
    · subst ej
      rw [hm.1] at hj
      obtain rfl := Option.some.inj hj
      rw [self] at hy
      obtain rfl := Option.some.inj hy
      exact h3 hc
    · obtain ⟨q0, h0, rfl | ⟨ha, rfl⟩⟩ := hm.2 j q ej hj
      · rcases look _ y hy with ⟨es, rfl⟩ | ⟨es, hy⟩
        · rcases hE with hE | ⟨_, hE⟩
          · rw [hE]
            exact o.commit j q x h0 (by rw [es]; exact hx) hc
          · exact absurd (by rw [hc]; rfl) (hE j q ej h0 es).2
        · exact o.commit j q y h0 hy hc
      · exact absurd hc (by simp)
  · rcases look s y hy with ⟨rfl, rfl⟩ | ⟨_, hy⟩
    · exact hf hs hc hfail
    · exact o.fin s y hy hs hc hfail

/-- A step whose call has no result, before or after, and that leaves the statement's last error. -/
theorem Out.plain {env : Env} {st : St} (o : Out env st) {i : Nat} {p : Part} {x x' : Stmt} {pc : PC}
    (hi : st.parts[i]? = some p) (hx : st.stmts[p.s]? = some x) (hp : ¬okPC p.pc) (hv : verdict pc = none) (hc : pc ≠ .commit)
    (hn : x'.state = x.state) (he : x'.lastErr = x.lastErr) : Out env (upd st i p x x' pc) := by
  have hcom : ¬Com st p.s := fun c => hp (o.com i p hi c)
  refine o.move hi hx (others_set hi pc) (.inr hcom) (fun c => hn ▸ c) (fun c c2 c3 => ?_) (fun c => absurd c hcom)
    (fun _ e m c => by rw [hv] at c; exact absurd c (by simp)) (fun c => absurd c hc) (.inl he)
  rw [he]
  exact o.fin _ x hx (hn ▸ c) c2 c3

theorem notOk {pc : PC} (h1 : pc ≠ .asleep) (h2 : pc ≠ .awake) (h3 : verdict pc = none) : ¬okPC pc := by
  rintro (h | h | ⟨e, m, h, _⟩)
  · exact h1 h
  · exact h2 h
  · rw [h3] at h; exact absurd h (by simp)

theorem isError_success : isError .success = false := by decide

theorem work_out {env : Env} {st st' : St} (h : Inv st) (o : Out env st) (w : Work env st st') : Out env st' := by
  cases w with
  | lock i p x hi hx hp hl =>
    exact o.plain hi hx (by rw [hp]; exact notOk (by simp) (by simp) rfl) rfl (by simp) rfl rfl
  | bind i p x hi hx hp =>
    exact o.plain hi hx (by rw [hp]; exact notOk (by simp) (by simp) rfl) rfl (by simp) rfl rfl
  | call i p x hi hx hp =>
    have hk : kind p.pc = .H := by rw [hp]; rfl
    have hnf : x.state ≠ .finished := fun e => by
      have := (h.stmt _ _ hx).done e
      have := n_pos hi hk
      omega
    by_cases h0 : x.cntExec + 1 ≠ 1
    · have e : execCall x = ({ x with cntExec := x.cntExec + 1, locked := false }, .asleep) := by rw [execCall, if_neg hnf, if_pos h0]
      rw [e]
      exact o.plain hi hx (by rw [hp]; exact notOk (by simp) (by simp) rfl) rfl (by simp) rfl rfl
    · have e : execCall x = ({ x with cntExec := x.cntExec + 1, locked := false }, .begin) := by rw [execCall, if_neg hnf, if_neg h0]
      rw [e]
      exact o.plain hi hx (by rw [hp]; exact notOk (by simp) (by simp) rfl) rfl (by simp) rfl rfl
  | wake i p x hi hx hp hl =>
    by_cases hs : x.state = .finished
    · rw [wake, if_pos hs]
      refine o.move hi hx (others_set hi _) (.inl rfl) (fun c => c) (fun c c2 c3 => o.fin _ x hx c c2 c3) (fun c => ?_)
        (fun c e m hv => ?_) (fun c => absurd c (by simp)) (.inl rfl)
      · obtain ⟨⟨s, l⟩, hm, hl⟩ := List.mem_map.1 c
        dsimp only at hl
        subst hl
        obtain ⟨y, hy, _, b, _⟩ := o.rows _ _ hm
        rw [hx] at hy
        obtain rfl := Option.some.inj hy
        exact .inr (.inr ⟨_, _, rfl, by rw [b]; rfl⟩)
      · obtain ⟨rfl, rfl⟩ := Prod.mk.inj (Option.some.inj hv)
        refine ⟨fun d => ?_, fun d => o.fin _ x hx hs c d⟩
        rcases d with d | d
        · exact absurd d (by simp)
        · exact o.fin _ x hx hs c d
    · rw [wake, if_neg hs]
      exact o.move hi hx (others_set hi _) (.inl rfl) (fun c => c) (fun c c2 c3 => o.fin _ x hx c c2 c3) (fun c => .inl rfl)
        (fun c e m hv => absurd hv (by simp [verdict])) (fun c => absurd c (by simp)) (.inl rfl)
  | begin i p x e hi hx hp ha hf =>
    have hno : ¬okPC p.pc := by rw [hp]; exact notOk (by simp) (by simp) rfl
    have hcom : ¬Com st p.s := fun c => hno (o.com i p hi c)
    rw [beginRes]
    by_cases he : isError e = true
    · rw [if_pos he]
      by_cases hr : isRollback e = true
      · rw [if_pos hr]
        exact o.plain hi hx hno rfl (by simp) rfl rfl
      · rw [if_neg hr]
        have hfail := hf he (by simpa using hr)
        refine o.move hi hx (others_set hi _) (.inl rfl) (fun c => c) (fun c c2 c3 => o.fin _ x hx c c2 c3) (fun c => absurd c hcom)
          (fun c e' m hv => ?_) (fun c => absurd c (by simp)) (.inl rfl)
        obtain ⟨rfl, rfl⟩ := Prod.mk.inj (Option.some.inj hv)
        exact ⟨fun _ => he, fun d => absurd hfail d⟩
    · rw [if_neg he]
      exact o.plain hi hx hno rfl (by simp) rfl rfl
  | close i p x k hi hx hp hl =>
    have hk : kind p.pc = .M := by rw [hp]; rfl
    have key : ∀ (t : Query → Option Nat) (x' : Stmt) (pc : PC), x'.state ≠ .finished → x'.state ≠ .new → x'.rows = x.rows →
        x'.lastErr = x.lastErr →
        verdict pc = verdict (.close k) → pc ≠ .commit → Out env { upd st i p x x' pc with table := t } := by
      intro t x' pc hs hn hr he hv hc
      refine o.move hi hx (others_set hi _) (.inl hr) (fun c => absurd c hn) (fun c => absurd c hs) (fun c => ?_) (fun c e m hv' => ?_)
        (fun c => absurd c hc) (.inl he)
      · rcases o.com i p hi c with d | d | ⟨e, m, d, d2⟩
        · rw [hp] at d; exact absurd d (by simp)
        · rw [hp] at d; exact absurd d (by simp)
        · exact .inr (.inr ⟨e, m, by rw [hv, ← hp]; exact d, d2⟩)
      · rw [he]
        exact o.ncom i p x hi hx c e m (by rw [hp, ← hv]; exact hv')
    have va : verdict (after k) = verdict (.close k) := by cases k <;> rfl
    have ca : after k ≠ .commit := by cases k <;> simp [after]
    by_cases hn : x.state = .new
    · have e : close st.table x k = (setKey st.table x.query none, { x with state := .pending }, check x k) := by
        rw [close, if_neg (by simp [hn])]
      rw [e]
      refine key _ _ _ (by simp) (by simp) rfl rfl ?_ ?_
      · rw [check]; split
        · exact va
        · cases k <;> rfl
      · rw [check]; split
        · exact ca
        · simp
    · have e : close st.table x k = (st.table, x, after k) := by rw [close, if_pos hn]
      rw [e]
      exact key _ _ _ ((h.stmt _ _ hx).running (by have := n_pos hi hk; omega)) hn rfl rfl va ca
  | spin i p x k hi hx hp hl hc =>
    refine o.move hi hx (others_set hi _) (.inl rfl) (fun c => c) (fun c c2 c3 => o.fin _ x hx c c2 c3) (fun c => ?_) (fun c e m hv' => ?_)
        (fun c => ?_) (.inl rfl)
    · rcases o.com i p hi c with d | d | ⟨e, m, d, d2⟩
      · rw [hp] at d; exact absurd d (by simp)
      · rw [hp] at d; exact absurd d (by simp)
      · refine .inr (.inr ⟨e, m, ?_, d2⟩)
        rw [← d, hp, check]
        split <;> cases k <;> rfl
    · refine o.ncom i p x hi hx c e m ?_
      rw [← hv', hp, check]
      split <;> cases k <;> rfl
    · revert c
      rw [check]
      split <;> cases k <;> simp [after]
  | exec i p x e hi hx hp ha =>
    have hk : kind p.pc = .M := by rw [hp]; rfl
    have hno : ¬okPC p.pc := by rw [hp]; exact notOk (by simp) (by simp) rfl
    have hcom : ¬Com st p.s := fun c => hno (o.com i p hi c)
    have hst := (h.stmt _ _ hx).running (by have := n_pos hi hk; omega)
    have hE : (execRes x e).1.lastErr = x.lastErr ∨ (¬Com st p.s ∧ ∀ (j : Nat) (q : Part), j ≠ i → st.parts[j]? = some q → q.s = p.s →
      verdict q.pc = none ∧ kind q.pc ≠ .M) := .inr ⟨hcom, fun j q hj hq hs => only h hi hx (.inl hk) hj hq hs⟩
    refine o.move hi hx (others_set hi _) (.inl rfl) (fun c => c) (fun c => absurd c hst) (fun c => absurd c hcom) (fun c e' m hv => ?_)
      (fun c => ?_) hE
    · revert hv
      rw [execRes]
      dsimp only
      by_cases he : isError e = true
      · rw [if_pos he]
        by_cases hr : isRollback e = true
        · rw [if_pos hr]
          exact fun c => absurd c (by simp [verdict])
        · rw [if_neg hr]
          intro hv
          obtain ⟨rfl, rfl⟩ := Prod.mk.inj (Option.some.inj hv)
          exact ⟨fun _ => he, fun _ => he⟩
      · rw [if_neg he]
        exact fun c => absurd c (by simp [verdict])
    · revert c
      rw [execRes]
      dsimp only
      rcases ha with ha | ha
      · exact fun _ => ha
      · rw [if_pos ha]
        split <;> exact fun c => absurd c (by simp)
  | commit i p x e hi hx hp ha hf =>
    have hk : kind p.pc = .M := by rw [hp]; rfl
    have hno : ¬okPC p.pc := by rw [hp]; exact notOk (by simp) (by simp) rfl
    have hcom : ¬Com st p.s := fun c => hno (o.com i p hi c)
    have hst := (h.stmt _ _ hx).running (by have := n_pos hi hk; omega)
    have hlast := o.commit i p x hi hx hp
    have hpend := part_state h hi hx (by rw [hp]; rfl)
    rw [commitRes, record]
    by_cases he : isError e = true
    · rw [if_pos he, if_pos he]
      by_cases hr : isRollback e = true
      · rw [if_pos hr]
        exact o.plain hi hx hno rfl (by simp) rfl rfl
      · rw [if_neg hr]
        have hfail := hf he (by simpa using hr)
        refine o.move hi hx (others_set hi _) (.inl rfl) (fun c => c) (fun c => absurd c hst) (fun c => absurd c hcom)
          (fun c e' m hv => ?_) (fun c => absurd c (by simp)) (.inl rfl)
        obtain ⟨rfl, rfl⟩ := Prod.mk.inj (Option.some.inj hv)
        exact ⟨fun _ => he, fun d => absurd hfail d⟩
    · rw [if_neg he, if_neg he]
      have hsucc : e = .success := ha.resolve_right he
      subst hsucc
      have hlt := get_lt hx
      have hsame : st.stmts.set p.s x = st.stmts := by
        apply List.ext_getElem?
        intro r
        by_cases er : r = p.s
        · subst er; rw [List.getElem?_set_self hlt, hx]
        · rw [List.getElem?_set_ne (Ne.symm er)]
      have hcom' : ∀ s, (s ∈ (st.committed ++ [(p.s, x.rows)]).map (·.1)) ↔ (Com st s ∨ s = p.s) := by
        intro s
        rw [List.map_append, List.mem_append]
        simp [Com]
      rw [upd, hsame]
      refine ⟨fun s r hs => ?_, ?_, fun j q hj hc => ?_, fun j q y hj hy hc e m hv => ?_, fun j q y hj hy hc => ?_, fun s y hy hs hc hfail => ?_⟩
      · rcases List.mem_append.1 hs with hs | hs
        · exact o.rows s r hs
        · obtain ⟨rfl, rfl⟩ := Prod.mk.inj (List.mem_singleton.1 hs)
          exact ⟨x, hx, rfl, hlast, by rw [hpend]; simp⟩
      · dsimp only
        rw [List.map_append, List.nodup_append]
        refine ⟨o.nodup, by simp, fun a ha b hb => ?_⟩
        simp only [List.map_cons, List.map_nil, List.mem_singleton] at hb
        subst hb
        rintro rfl
        exact hcom ha
      · by_cases ej : j = i
        · subst ej
          rw [(others_set hi (.close (.finish .success))).1] at hj
          obtain rfl := Option.some.inj hj
          exact .inr (.inr ⟨.success, true, rfl, isError_success⟩)
        · obtain ⟨q0, h0, rfl | ⟨ha, rfl⟩⟩ := (others_set hi (.close (.finish .success))).2 j q ej hj
          · rcases (hcom' q.s).1 hc with c | c
            · exact o.com j q h0 c
            · obtain ⟨v, hkq⟩ := only h hi hx (.inl hk) ej h0 c
              have hpos := n_pos hi hk
              obtain ⟨a, b, c1, d, e, f⟩ := (h.stmt _ _ hx).open_ hst
              obtain ⟨g1, g2⟩ := (h.stmt _ _ hx).closed hpend (by omega)
              have hq := n_pos h0 (rfl : kind q.pc = kind q.pc)
              rw [c] at hq
              revert hq hkq
              cases q.pc <;> simp only [kind] <;> intro hkq hq <;>
                first | exact .inl rfl | exact .inr (.inl rfl) | exact absurd rfl hkq | omega
          · exact .inr (.inl rfl)
      · have hc2 : ¬(Com st q.s ∨ q.s = p.s) := fun d => hc ((hcom' q.s).2 d)
        by_cases ej : j = i
        · subst ej
          rw [(others_set hi (.close (.finish .success))).1] at hj
          obtain rfl := Option.some.inj hj
          exact (hc2 (Or.inr rfl)).elim
        · obtain ⟨q0, h0, rfl | ⟨ha, rfl⟩⟩ := (others_set hi (.close (.finish .success))).2 j q ej hj
          · exact o.ncom j q y h0 hy (fun d => hc2 (.inl d)) e m hv
          · exact absurd hv (by simp [verdict])
      · by_cases ej : j = i
        · subst ej
          rw [(others_set hi (.close (.finish .success))).1] at hj
          obtain rfl := Option.some.inj hj
          exact absurd hc (by simp)
        · obtain ⟨q0, h0, rfl | ⟨ha, rfl⟩⟩ := (others_set hi (.close (.finish .success))).2 j q ej hj
          · exact o.commit j q y h0 hy hc
          · exact absurd hc (by simp)
      · exact o.fin s y hy hs (fun d => hc ((hcom' s).2 (.inl d))) hfail
  | finish i p x e hi hx hp hl =>
    refine o.move hi hx (others_rouse hi (by rw [hp]; simp) _) (.inl rfl) (fun c => absurd c (by simp [finish])) (fun c c2 c3 => ?_)
      (fun c => ?_) (fun c e' m hv => ?_) (fun c => absurd c (by simp)) (.inl rfl)
    · exact (o.ncom i p x hi hx c2 e true (by rw [hp]; rfl)).2 c3
    · rcases o.com i p hi c with d | d | ⟨e', m, d, d2⟩
      · rw [hp] at d; exact absurd d (by simp)
      · rw [hp] at d; exact absurd d (by simp)
      · rw [hp] at d
        obtain ⟨rfl, rfl⟩ := Prod.mk.inj (Option.some.inj d)
        exact .inr (.inr ⟨_, _, rfl, d2⟩)
    · obtain ⟨rfl, rfl⟩ := Prod.mk.inj (Option.some.inj hv)
      exact o.ncom i p x hi hx c _ true (by rw [hp]; rfl)
  | destroy i p x e m hi hx hp hl =>
    have hv : verdict (destroy x e m).2 = some (e, m) := by rw [destroy]; dsimp only; split <;> rfl
    refine o.move hi hx (others_set hi _) (.inl rfl) (fun c => c) (fun c c2 c3 => o.fin _ x hx c c2 c3) (fun c => ?_) (fun c e' m' hv' => ?_)
        (fun c => ?_) (.inl rfl)
    · rcases o.com i p hi c with d | d | ⟨e', m', d, d2⟩
      · rw [hp] at d; exact absurd d (by simp)
      · rw [hp] at d; exact absurd d (by simp)
      · rw [hp] at d
        obtain ⟨rfl, rfl⟩ := Prod.mk.inj (Option.some.inj d)
        exact .inr (.inr ⟨_, _, hv, d2⟩)
    · rw [hv] at hv'
      obtain ⟨rfl, rfl⟩ := Prod.mk.inj (Option.some.inj hv')
      exact o.ncom i p x hi hx c _ _ (by rw [hp]; rfl)
    · rw [c] at hv; exact absurd hv (by simp [verdict])
  | free i p x e m hi hx hp =>
    refine o.move hi hx (others_set hi _) (.inl rfl) (fun c => c) (fun c c2 c3 => o.fin _ x hx c c2 c3) (fun c => ?_) (fun c e' m' hv' => ?_)
        (fun c => absurd c (by simp)) (.inl rfl)
    · rcases o.com i p hi c with d | d | ⟨e', m', d, d2⟩
      · rw [hp] at d; exact absurd d (by simp)
      · rw [hp] at d; exact absurd d (by simp)
      · rw [hp] at d
        obtain ⟨rfl, rfl⟩ := Prod.mk.inj (Option.some.inj d)
        exact .inr (.inr ⟨_, _, rfl, d2⟩)
    · obtain ⟨rfl, rfl⟩ := Prod.mk.inj (Option.some.inj hv')
      exact o.ncom i p x hi hx c _ _ (by rw [hp]; rfl)

theorem step_out {env : Env} {st st' : St} (h : Inv st) (o : Out env st) (w : Step env st st') : Out env st' := by
  cases w with
  | work w => exact work_out h o w
  | new q e hq ht =>
    have old : ∀ (s : Nat) (x : Stmt), st.stmts[s]? = some x →
        (st.stmts ++ [(⟨trim q, 1, 0, .new, false, [], e, false⟩ : Stmt)])[s]? = some x := fun s x hx => by
      rw [List.getElem?_append_left (get_lt hx)]; exact hx
    refine ⟨fun s r hs => ?_, o.nodup, fun j p hj hc => ?_, fun j p y hj hy hc e' m hv => ?_, fun j p y hj hy hc => ?_, fun s y hy hs hc hfail => ?_⟩
    · obtain ⟨x, hx, a⟩ := o.rows s r hs
      exact ⟨x, old s x hx, a⟩
    · rcases get_append hj with ⟨_, rfl⟩ | ⟨_, hj⟩
      · obtain ⟨⟨s, r⟩, hm, hl⟩ := List.mem_map.1 hc
        obtain ⟨x, hx, _⟩ := o.rows s r hm
        have := get_lt hx
        dsimp only at hl
        omega
      · exact o.com j p hj hc
    · rcases get_append hj with ⟨_, rfl⟩ | ⟨_, hj⟩
      · exact absurd hv (by simp [verdict])
      · obtain ⟨x, hx, _⟩ := h.part j p hj
        have := old p.s x hx
        rw [show (st.stmts ++ _)[p.s]? = some y from hy] at this
        obtain rfl := Option.some.inj this
        exact o.ncom j p y hj hx hc e' m hv
    · rcases get_append hj with ⟨_, rfl⟩ | ⟨_, hj⟩
      · exact absurd hc (by simp)
      · obtain ⟨x, hx, _⟩ := h.part j p hj
        have := old p.s x hx
        rw [show (st.stmts ++ _)[p.s]? = some y from hy] at this
        obtain rfl := Option.some.inj this
        exact o.commit j p y hj hx hc
    · rcases get_append hy with ⟨_, rfl⟩ | ⟨_, hy⟩
      · exact absurd hs (by simp)
      · exact o.fin s y hy hs hc hfail
  | join q s x _ ht hx =>
    obtain ⟨x0, hx0, hnew, hqe⟩ := h.table q s ht
    rw [hx] at hx0
    obtain rfl := Option.some.inj hx0
    have hlt := get_lt hx
    have hcom : ¬Com st s := fun c => by
      obtain ⟨⟨s', r⟩, hm, hl⟩ := List.mem_map.1 c
      dsimp only at hl
      subst hl
      obtain ⟨y, hy, _, _, b⟩ := o.rows _ r hm
      rw [hx] at hy
      obtain rfl := Option.some.inj hy
      exact b hnew
    have look : ∀ (r : Nat) (y : Stmt), (st.stmts.set s { x with cnt := x.cnt + 1 })[r]? = some y →
        ∃ y0 : Stmt, st.stmts[r]? = some y0 ∧ y.lastErr = y0.lastErr ∧ y.state = y0.state := by
      intro r y hy
      by_cases e : r = s
      · subst e
        rw [List.getElem?_set_self hlt] at hy
        obtain rfl := Option.some.inj hy
        exact ⟨x, hx, rfl, rfl⟩
      · rw [List.getElem?_set_ne (Ne.symm e)] at hy
        exact ⟨y, hy, rfl, rfl⟩
    refine ⟨fun s' r hs => ?_, o.nodup, fun j p hj hc => ?_, fun j p y hj hy hc e' m hv => ?_, fun j p y hj hy hc => ?_, fun s' y hy hs hc hfail => ?_⟩
    · obtain ⟨y, hy, a⟩ := o.rows s' r hs
      have e : s' ≠ s := fun e => hcom (e ▸ List.mem_map.2 ⟨_, hs, rfl⟩)
      exact ⟨y, by dsimp only [prepareJoin]; rw [List.getElem?_set_ne (Ne.symm e)]; exact hy, a⟩
    · rcases get_append hj with ⟨_, rfl⟩ | ⟨_, hj⟩
      · exact absurd hc hcom
      · exact o.com j p hj hc
    · rcases get_append hj with ⟨_, rfl⟩ | ⟨_, hj⟩
      · exact absurd hv (by simp [verdict])
      · obtain ⟨y0, hy0, e1, e2⟩ := look _ y hy
        rw [e1]
        exact o.ncom j p y0 hj hy0 hc e' m hv
    · rcases get_append hj with ⟨_, rfl⟩ | ⟨_, hj⟩
      · exact absurd hc (by simp)
      · obtain ⟨y0, hy0, e1, e2⟩ := look _ y hy
        rw [e1]
        exact o.commit j p y0 hj hy0 hc
    · obtain ⟨y0, hy0, e1, e2⟩ := look _ y hy
      rw [e1]
      exact o.fin s' y0 hy0 (e2 ▸ hs) hc hfail
  | spurious i p x hi hx hp =>
    exact o.move hi hx (others_set hi _) (.inl rfl) (fun c => c) (fun c c2 c3 => o.fin _ x hx c c2 c3) (fun c => .inr (.inl rfl))
        (fun c e m hv => absurd hv (by simp [verdict])) (fun c => absurd c (by simp)) (.inl rfl)
  | round i p x k hi hx hp hl =>
    refine o.move hi hx (others_set hi _) (.inl rfl) (fun c => c) (fun c c2 c3 => o.fin _ x hx c c2 c3) (fun c => ?_) (fun c e m hv' => ?_)
        (fun c => ?_) (.inl rfl)
    · rcases o.com i p hi c with d | d | ⟨e, m, d, d2⟩
      · rw [hp] at d; exact absurd d (by simp)
      · rw [hp] at d; exact absurd d (by simp)
      · refine .inr (.inr ⟨e, m, ?_, d2⟩)
        rw [← d, hp, check]
        split <;> cases k <;> rfl
    · refine o.ncom i p x hi hx c e m ?_
      rw [← hv', hp, check]
      split <;> cases k <;> rfl
    · revert c
      rw [check]
      split <;> cases k <;> simp [after]

theorem init_out (env : Env) : Out env init :=
  ⟨fun s l h => by simp [init] at h, by simp [init], fun i p h => by simp [init] at h, fun i p x h => by simp [init] at h,
    fun i p x h => by simp [init] at h, fun s x h => by simp [init] at h⟩

theorem reach_out {env : Env} (henv : ∀ q, env.query q → trim q = q) {st : St} (h : Reach env st) : Inv st ∧ Out env st := by
  induction h with
  | init => exact ⟨init_inv, init_out env⟩
  | step _ w ih => exact ⟨step_inv henv ih.1 w, step_out ih.1 ih.2 w⟩

end Verif.GroupInsert
