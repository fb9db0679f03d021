import Verif.GroupInsert.Outcome
/-! What users of group inserts rely on, for any number of calls in any threads and any interleaving. -/
namespace Verif.GroupInsert
open Verif.Sql (Err isError isRollback)

/-- All queries are as `M_strdup_trim` would leave them. -/
def Tidy (env : Env) : Prop := ∀ q, env.query q → trim q = q

theorem mem_inserted {st : St} {i : Nat} : i ∈ inserted st ↔ ∃ s l, (s, l) ∈ st.committed ∧ i ∈ l := by
  rw [inserted, List.mem_flatMap]
  constructor
  · rintro ⟨⟨s, l⟩, a, b⟩; exact ⟨s, l, a, b⟩
  · rintro ⟨s, l, a, b⟩; exact ⟨⟨s, l⟩, a, b⟩

theorem result_verdict {pc : PC} {v : Err × Bool} (h : result pc = some v) : verdict pc = some v ∧ hasBound pc = true := by
  cases pc <;> first | exact ⟨h, rfl⟩ | exact absurd h (by simp [result])

/-- A row is in the database if and only if its statement was committed. -/
theorem inserted_iff {env : Env} {st : St} (h : Inv st) (o : Out env st) {i : Nat} {p : Part} (hi : st.parts[i]? = some p)
    (hb : hasBound p.pc = true) : i ∈ inserted st ↔ Com st p.s := by
  rw [mem_inserted]
  constructor
  · rintro ⟨s, l, a, b⟩
    obtain ⟨x, hx, rfl, _⟩ := o.rows s l a
    obtain ⟨p', hp', e, _⟩ := ((h.rows s x hx).2 i).1 b
    rw [hi] at hp'
    obtain rfl := Option.some.inj hp'
    rw [e]
    exact List.mem_map.2 ⟨_, a, rfl⟩
  · intro c
    obtain ⟨⟨s, l⟩, a, e⟩ := List.mem_map.1 c
    dsimp only at e
    subst e
    obtain ⟨x, hx, rfl, _⟩ := o.rows _ l a
    exact ⟨_, _, a, ((h.rows _ x hx).2 i).2 ⟨p, hi, rfl, hb⟩⟩

theorem nodup_flat {l : List (Nat × List Nat)} (h1 : ∀ a ∈ l, a.2.Nodup) (h2 : l.Pairwise fun a b => ∀ i ∈ a.2, i ∉ b.2) :
    (l.flatMap (·.2)).Nodup := by
  induction l with
  | nil => simp
  | cons a t ih =>
    rw [List.flatMap_cons, List.nodup_append]
    obtain ⟨h3, h4⟩ := List.pairwise_cons.1 h2
    refine ⟨h1 a (by simp), ih (fun b hb => h1 b (by simp [hb])) h4, fun i hi j hj => ?_⟩
    rintro rfl
    obtain ⟨b, hb, hib⟩ := List.mem_flatMap.1 hj
    exact h3 b hb i hi hib

/-- No row is inserted twice. -/
theorem inserted_once {env : Env} (ht : Tidy env) {st : St} (h : Reach env st) : (inserted st).Nodup := by
  obtain ⟨inv, o⟩ := reach_out ht h
  refine nodup_flat (fun a ha => ?_) ?_
  · obtain ⟨x, hx, e, _⟩ := o.rows a.1 a.2 ha
    rw [← e]
    exact (inv.rows _ x hx).1
  · have hn := o.nodup
    rw [List.Nodup, List.pairwise_map] at hn
    refine hn.imp_of_mem fun {a b} ha hb hab i hia hib => ?_
    obtain ⟨x, hx, e, _⟩ := o.rows a.1 a.2 ha
    obtain ⟨y, hy, e', _⟩ := o.rows b.1 b.2 hb
    rw [← e] at hia
    rw [← e'] at hib
    obtain ⟨p, hp, e1, _⟩ := ((inv.rows _ x hx).2 i).1 hia
    obtain ⟨q, hq, e2, _⟩ := ((inv.rows _ y hy).2 i).1 hib
    rw [hp] at hq
    obtain rfl := Option.some.inj hq
    exact hab (e1.symm.trans e2)

/-- A call that was told of an error has no row in the database. -/
theorem error_not_inserted {env : Env} (ht : Tidy env) {st : St} (h : Reach env st) {i : Nat} {p : Part} {e : Err} {m : Bool}
    (hi : st.parts[i]? = some p) (hr : result p.pc = some (e, m)) (he : isError e = true) : i ∉ inserted st := by
  obtain ⟨inv, o⟩ := reach_out ht h
  obtain ⟨hv, hb⟩ := result_verdict hr
  rw [inserted_iff inv o hi hb]
  intro c
  rcases o.com i p hi c with d | d | ⟨e', m', d, d2⟩
  · rw [d] at hr; exact absurd hr (by simp [result])
  · rw [d] at hr; exact absurd hr (by simp [result])
  · rw [hv] at d
    obtain ⟨rfl, rfl⟩ := Prod.mk.inj (Option.some.inj d)
    rw [he] at d2
    exact absurd d2 (by simp)

/-- The call that ran the statement and was told of success has its row in the database. -/
theorem success_inserted_runner {env : Env} (ht : Tidy env) {st : St} (h : Reach env st) {i : Nat} {p : Part} {e : Err}
    (hi : st.parts[i]? = some p) (hr : result p.pc = some (e, true)) (he : isError e = false) : i ∈ inserted st := by
  obtain ⟨inv, o⟩ := reach_out ht h
  obtain ⟨hv, hb⟩ := result_verdict hr
  rw [inserted_iff inv o hi hb]
  refine Classical.byContradiction fun c => ?_
  obtain ⟨x, hx⟩ := inv.lt hi
  have := (o.ncom i p x hi hx c e true hv).1 (.inl rfl)
  rw [he] at this
  exact absurd this (by simp)

/-- Any call that was told of success has its row in the database, if starting and committing transactions never fail for good.  The full
statement is without this condition; see `success_inserted_fails`. -/
theorem success_inserted_partial {env : Env} (ht : Tidy env) (hf : ¬env.fail) {st : St} (h : Reach env st) {i : Nat} {p : Part} {e : Err}
    {m : Bool} (hi : st.parts[i]? = some p) (hr : result p.pc = some (e, m)) (he : isError e = false) : i ∈ inserted st := by
  obtain ⟨inv, o⟩ := reach_out ht h
  obtain ⟨hv, hb⟩ := result_verdict hr
  rw [inserted_iff inv o hi hb]
  refine Classical.byContradiction fun c => ?_
  obtain ⟨x, hx⟩ := inv.lt hi
  have := (o.ncom i p x hi hx c e m hv).1 (.inr hf)
  rw [he] at this
  exact absurd this (by simp)

/-- All the rows of one commit are those of calls with the same query. -/
theorem same_query {env : Env} (ht : Tidy env) {st : St} (h : Reach env st) {s : Nat} {l : List Nat} (hl : (s, l) ∈ st.committed) :
    ∃ q, ∀ i ∈ l, ∃ p : Part, st.parts[i]? = some p ∧ p.q = q := by
  obtain ⟨inv, o⟩ := reach_out ht h
  obtain ⟨x, hx, rfl, _⟩ := o.rows s l hl
  refine ⟨x.query, fun i hi => ?_⟩
  obtain ⟨p, hp, e, _⟩ := ((inv.rows s x hx).2 i).1 hi
  obtain ⟨y, hy, _, e2⟩ := inv.part i p hp
  rw [e, hx] at hy
  obtain rfl := Option.some.inj hy
  exact ⟨p, hp, e2.symm⟩

/-- No call uses a statement after it was freed, and none is freed twice. -/
theorem no_use_after_free_partial {env : Env} (ht : Tidy env) {st : St} (h : Reach env st) : st.bad = false := (reach_inv ht h).bad

/-- `M_sql_stmt_destroy` counts down under another lock than `M_sql_stmt_groupinsert_prepare` counts up: that does no harm, as nobody can
still be given the statement. -/
theorem no_race_partial {env : Env} (ht : Tidy env) {st : St} (h : Reach env st) {i : Nat} {p : Part} {r : Err × Bool}
    (hi : st.parts[i]? = some p) (hr : result p.pc = some r) (q : Query) : st.table q ≠ some p.s := by
  intro c
  have inv := reach_inv ht h
  obtain ⟨x, hx, hn, _⟩ := inv.table q p.s c
  obtain ⟨a, b, d, _⟩ := (inv.stmt _ x hx).open_ (by rw [hn]; simp)
  revert hr
  have hp := n_pos hi (rfl : kind p.pc = kind p.pc)
  revert hp
  cases p.pc <;> simp only [kind, result] <;> intro hp hr <;> first | omega | exact absurd hr (by simp)

theorem keep_s {l l' : List Part} {i : Nat} {p : Part} {pc : PC} (hm : Moved l l' i p pc) (hi : l[i]? = some p) {j : Nat} {q : Part}
    (hj : l[j]? = some q) : ∃ q' : Part, l'[j]? = some q' ∧ q'.s = q.s := by
  by_cases e : j = i
  · subst e
    rw [hi] at hj
    obtain rfl := Option.some.inj hj
    exact ⟨_, hm.self, rfl⟩
  · obtain ⟨q', a, b, _⟩ := hm.bwd j q e hj
    exact ⟨q', a, b⟩

theorem keep_work {env : Env} {st st' : St} (w : Work env st st') : st'.stmts.length = st.stmts.length ∧
    ∀ (j : Nat) (q : Part), st.parts[j]? = some q → ∃ q' : Part, st'.parts[j]? = some q' ∧ q'.s = q.s := by
  cases w <;> refine ⟨List.length_set .., fun j q hj => ?_⟩
  case finish i p x e hi hx hp hl => exact keep_s (moved_rouse hi (by rw [hp]; simp) _) hi hj
  all_goals rename_i hi _ _; exact keep_s (moved_set (by first | exact hi | assumption) _) (by first | exact hi | assumption) hj

/-- Every statement has a call that it was made for. -/
theorem has_call {env : Env} {st : St} (h : Reach env st) : ∀ s, s < st.stmts.length → ∃ (i : Nat) (p : Part), st.parts[i]? = some p ∧ p.s = s := by
  induction h with
  | init => intro s hs; exact absurd hs (by simp [init])
  | @step st _ _ w ih =>
    intro s hs
    cases w with
    | work w =>
      obtain ⟨e, k⟩ := keep_work w
      obtain ⟨i, p, hi, hp⟩ := ih s (e ▸ hs)
      obtain ⟨q, hq, e2⟩ := k i p hi
      exact ⟨i, q, hq, e2.trans hp⟩
    | new q e _ _ =>
      simp only [prepareNew, List.length_append, List.length_singleton] at hs
      rcases Nat.lt_or_ge s st.stmts.length with hs' | hs'
      · obtain ⟨i, p, hi, hp⟩ := ih s hs'
        exact ⟨i, p, by dsimp only [prepareNew]; rw [List.getElem?_append_left (get_lt hi)]; exact hi, hp⟩
      · exact ⟨st.parts.length, ⟨q, st.stmts.length, .joined⟩, by simp [prepareNew], by dsimp only; omega⟩
    | join q r x _ _ hx =>
      simp only [prepareJoin, List.length_set] at hs
      obtain ⟨i, p, hi, hp⟩ := ih s hs
      exact ⟨i, p, by dsimp only [prepareJoin]; rw [List.getElem?_append_left (get_lt hi)]; exact hi, hp⟩
    | spurious i p x hi hx hp =>
      obtain ⟨j, q, hj, hq⟩ := ih s (by simpa [upd] using hs)
      obtain ⟨q', a, b⟩ := keep_s (moved_set hi .awake) hi hj
      exact ⟨j, q', a, b.trans hq⟩
    | round i p x k hi hx hp hl =>
      obtain ⟨j, q, hj, hq⟩ := ih s (by simpa [upd] using hs)
      obtain ⟨q', a, b⟩ := keep_s (moved_set hi (check x k)) hi hj
      exact ⟨j, q', a, b.trans hq⟩

/-- When all calls are done, every statement was freed. -/
theorem all_freed_partial {env : Env} (ht : Tidy env) {st : St} (h : Reach env st) (hg : ∀ p ∈ st.parts, ∃ e m, p.pc = .gone e m) :
    ∀ x ∈ st.stmts, x.freed = true := by
  intro x hx
  have inv := reach_inv ht h
  obtain ⟨s, hs⟩ := List.getElem?_of_mem hx
  have z : ∀ k, k ≠ .G → n st.parts k s = 0 := by
    intro k hk
    rcases Nat.eq_zero_or_pos (n st.parts k s) with h0 | h0
    · exact h0
    · obtain ⟨i, p, hi, _, hk'⟩ := n_exists h0
      obtain ⟨e, m, hp⟩ := hg p (List.mem_of_getElem? hi)
      rw [hp] at hk'
      exact absurd hk'.symm hk
  have si := inv.stmt s x hs
  have hc : x.cnt = 0 := by
    have := si.cnt
    rw [z .J (by simp), z .H (by simp), z .M (by simp), z .S (by simp), z .A (by simp), z .W (by simp), z .R (by simp)] at this
    exact this
  have hf : x.state = .finished := by
    refine Classical.byContradiction fun hf => ?_
    obtain ⟨i, p, hi, hp⟩ := has_call h s (get_lt hs)
    obtain ⟨e, m, hpc⟩ := hg p (List.mem_of_getElem? hi)
    have hpos := n_pos hi (show kind p.pc = .G by rw [hpc]; rfl)
    rw [hp] at hpos
    have := si.open_ hf
    omega
  have := (si.done hf).2.2.2.2.2.2.2 hc
  rw [z .F (by simp)] at this
  cases hx : x.freed with
  | true => rfl
  | false => rw [hx] at this; simp at this

/-- Whatever state is reached, as long as a call is not done some call can go on. -/
theorem progress {env : Env} (ht : Tidy env) {st : St} (h : Reach env st) {i : Nat} {p : Part} (hi : st.parts[i]? = some p)
    (hp : ∀ e m, p.pc ≠ .gone e m) : ∃ st', Work env st st' := by
  have inv := reach_inv ht h
  by_cases hH : ∃ (j : Nat) (q : Part), st.parts[j]? = some q ∧ kind q.pc = .H
  · obtain ⟨j, q, hj, hk⟩ := hH
    obtain ⟨y, hy⟩ := inv.lt hj
    cases hpc : q.pc with
    | holding => exact ⟨_, .bind j q y hj hy hpc⟩
    | bound => exact ⟨_, .call j q y hj hy hpc⟩
    | _ => rw [hpc] at hk; exact absurd hk (by simp [kind])
  · have free : ∀ (s : Nat) (y : Stmt), st.stmts[s]? = some y → n st.parts .H s = 0 ∧ y.locked = false := by
      intro s y hy
      have h0 : n st.parts .H s = 0 := by
        rcases Nat.eq_zero_or_pos (n st.parts .H s) with h0 | h0
        · exact h0
        · obtain ⟨j, q, hj, _, hk⟩ := n_exists h0
          exact absurd ⟨j, q, hj, hk⟩ hH
      refine ⟨h0, ?_⟩
      have := (inv.stmt s y hy).lock
      rw [h0] at this
      cases hl : y.locked with
      | false => rfl
      | true => rw [hl] at this; simp at this
    have run : ∀ (j : Nat) (q : Part), st.parts[j]? = some q → (kind q.pc = .M ∨ kind q.pc = .S) → ∃ st', Work env st st' := by
      intro j q hj hk
      obtain ⟨y, hy⟩ := inv.lt hj
      obtain ⟨hH0, hl⟩ := free _ y hy
      have ok : isError .success = true → isRollback .success = false → env.fail := fun c => absurd c (by decide)
      cases hpc : q.pc with
      | begin => exact ⟨_, .begin j q y .success hj hy hpc (.inl rfl) ok⟩
      | close k => exact ⟨_, .close j q y k hj hy hpc hl⟩
      | exec => exact ⟨_, .exec j q y .success hj hy hpc (.inl rfl)⟩
      | commit => exact ⟨_, .commit j q y .success hj hy hpc (.inl rfl) ok⟩
      | fin e => exact ⟨_, .finish j q y e hj hy hpc hl⟩
      | spin k =>
        have hkS : kind q.pc = .S := by rw [hpc]; rfl
        have si := inv.stmt _ y hy
        have hpos := n_pos hj hkS
        obtain ⟨a, b, c, d, e, f⟩ := si.open_ (si.running (by omega))
        rcases Nat.eq_zero_or_pos (n st.parts .J q.s) with h0 | h0
        · refine ⟨_, .spin j q y k hj hy hpc hl ?_⟩
          have := si.cnt
          omega
        · obtain ⟨j', q', hj', es, hk'⟩ := n_exists h0
          have hpc' : q'.pc = .joined := by
            revert hk'; cases q'.pc <;> simp [kind]
          exact ⟨_, .lock j' q' y hj' (by rw [es]; exact hy) hpc' hl⟩
      | _ => rw [hpc] at hk; exact absurd hk (by simp [kind])
    obtain ⟨x, hx⟩ := inv.lt hi
    obtain ⟨hH0, hl⟩ := free _ x hx
    have si := inv.stmt _ x hx
    cases hpc : p.pc with
    | joined => exact ⟨_, .lock i p x hi hx hpc hl⟩
    | holding => exact ⟨_, .bind i p x hi hx hpc⟩
    | bound => exact ⟨_, .call i p x hi hx hpc⟩
    | asleep =>
      have hk : kind p.pc = .A := by rw [hpc]; rfl
      have hpos := n_pos hi hk
      have hnf : x.state ≠ .finished := fun e => by have := si.done e; omega
      have hM : 0 < n st.parts .M p.s + n st.parts .S p.s := by
        rcases Nat.eq_zero_or_pos (n st.parts .M p.s + n st.parts .S p.s) with h0 | h0
        · have := si.leader hnf h0; omega
        · exact h0
      rcases Nat.eq_zero_or_pos (n st.parts .M p.s) with h0 | h0
      · obtain ⟨j, q, hj, _, hk'⟩ := n_exists (k := .S) (s := p.s) (l := st.parts) (by omega)
        exact run j q hj (.inr hk')
      · obtain ⟨j, q, hj, _, hk'⟩ := n_exists h0
        exact run j q hj (.inl hk')
    | awake => exact ⟨_, .wake i p x hi hx hpc hl⟩
    | begin => exact run i p hi (.inl (by rw [hpc]; rfl))
    | close k => exact run i p hi (.inl (by rw [hpc]; rfl))
    | spin k => exact run i p hi (.inr (by rw [hpc]; rfl))
    | exec => exact run i p hi (.inl (by rw [hpc]; rfl))
    | commit => exact run i p hi (.inl (by rw [hpc]; rfl))
    | fin e => exact run i p hi (.inl (by rw [hpc]; rfl))
    | returned e m => exact ⟨_, .destroy i p x e m hi hx hpc hl⟩
    | freeing e m => exact ⟨_, .free i p x e m hi hx hpc⟩
    | gone e m => exact absurd hpc (hp e m)

end Verif.GroupInsert
