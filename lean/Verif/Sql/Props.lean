import Verif.Sql.Model
/-! # C89: transactions are applied once or not at all

The specification is a database: a list of the transactions that were committed, each with what was done in it, and for every
connection the transaction that is open on it.  It looks only at what the driver was asked and what it answered. -/
namespace Verif.Sql

/-- The codes that are no errors. -/
def Good (e : Err) : Prop := e ∈ [Err.success, .successRow, .userSuccess, .userBypass]

instance (e : Err) : Decidable (Good e) := by unfold Good; infer_instance

/-- The connection is lost. -/
def Lost (e : Err) : Prop := e ∈ [Err.connNodriver, .connDriverload, .connDriverver, .connParams, .connFailed, .connBadauth, .connLost]

instance (e : Err) : Decidable (Lost e) := by unfold Lost; infer_instance

/-- The transaction is to be tried again. -/
def Again (e : Err) : Prop := Lost e ∨ e = .queryDeadlock ∨ e = .userRetry

instance (e : Err) : Decidable (Again e) := by unfold Again; infer_instance

abbrev Log := List (Act × Err)

/-- The database, as seen from outside. -/
structure Db where
  /-- the committed transactions -/
  done : List Log
  /-- the transaction that is open on a connection -/
  opened : Nat → Option Log

/-- The effect of an event. -/
def see (w : Db) : Ev → Db
  | .begin c e => if e = .success then { w with opened := fun d => if d = c then some [] else w.opened d } else w
  | .act c a e => { w with opened := fun d => if d = c then (w.opened c).map (· ++ [(a, e)]) else w.opened d }
  | .rollback c e => if Good e then { w with opened := fun d => if d = c then none else w.opened d } else w
  | .commit c e => { done := if Good e then w.done ++ (w.opened c).toList else w.done, opened := fun d => if d = c then none else w.opened d }
  | .release c true => { w with opened := fun d => if d = c then none else w.opened d }
  | .auto _ s e => if Good e then { w with done := w.done ++ [[(.exec s, e)]] } else w
  | _ => w

/-- The database after some events: nothing is open in the beginning. -/
def db (t : List Ev) : Db := t.foldl see ⟨[], fun _ => none⟩

/-- The user's function, getting these results, does this and returns that. -/
inductive Runs : Prog → Log → Err → Prop
  | ret (e : Err) : Runs (.ret e) [] e
  | act {a k r l e} : Runs (k r) l e → Runs (.act a k) ((a, r) :: l) e

/-- What is required of a driver: `M_sql_driver_cb_begin_t` gives no code for success other than `M_SQL_ERROR_SUCCESS`, and a rollback that
fails loses the connection (`include/mstdlib/sql/m_sql_driver.h:256-269`). -/
structure Contract (env : Env) : Prop where
  begin : ∀ t, env.begin t = .success ∨ ¬ Good (env.begin t)
  rollback : ∀ t, Good (env.rollback t) ∨ Lost (env.rollback t)

/-! ### Codes -/

theorem isError_iff (e : Err) : isError e = true ↔ ¬ Good e := by cases e <;> decide
theorem isDisconnect_iff (e : Err) : isDisconnect e = true ↔ Lost e := by cases e <;> decide
theorem isRollback_iff (e : Err) : isRollback e = true ↔ Again e := by cases e <;> decide
theorem isFatal_iff (e : Err) : isFatal e = true ↔ ¬ Good e ∧ ¬ Again e := by cases e <;> decide
theorem again_bad {e : Err} (h : Again e) : ¬ Good e := by revert h; cases e <;> decide
theorem again_of_lost {e : Err} (h : Lost e) : Again e := Or.inl h

theorem setState_ok {st : CState} {e : Err} : setState st e = .ok ↔ st = .ok ∧ ¬ Again e := by
  revert st; cases e <;> intro st <;> cases st <;> decide
theorem setState_lost {st : CState} {e : Err} (h : Lost e) : setState st e = .failed := by
  have := (isDisconnect_iff e).2 h
  simp [setState, this]

/-! ### The database -/

theorem db_snoc (t : List Ev) (e : Ev) : db (t ++ [e]) = see (db t) e := by simp [db]

/-- Nothing is open. -/
def Clean (w : Db) (D : List Log) : Prop := w = ⟨D, fun _ => none⟩
/-- One transaction is open. -/
def Open (w : Db) (c : Nat) (l : Log) (D : List Log) : Prop := w = ⟨D, fun d => if d = c then some l else none⟩

theorem clean_release {t D} (h : Clean (db t) D) (c : Nat) (b : Bool) : Clean (db (t ++ [.release c b])) D := by
  unfold Clean at *
  rw [db_snoc, h]
  cases b <;> simp [see]

theorem open_release {t c l D} (h : Open (db t) c l D) : Clean (db (t ++ [.release c true])) D := by
  unfold Clean Open at *
  rw [db_snoc, h]
  simp only [see, Db.mk.injEq, true_and]
  funext d
  split <;> simp_all

theorem begin_db {env : Env} (hc : Contract env) {D} : ∀ (n : Nat) {t err tr t'}, begin env n t = some (err, tr, t') → Clean (db t) D →
    (tr = none ∧ ¬ Good err ∧ Clean (db t') D) ∨ ∃ c, tr = some ⟨c, .ok⟩ ∧ err = .success ∧ Open (db t') c [] D := by
  intro n
  induction n with
  | zero => intro t err tr t' h; simp [begin] at h
  | succ n ih =>
    intro t err tr t' h h0
    rw [begin] at h
    split at h
    · simp only [Option.some.injEq, Prod.mk.injEq] at h
      obtain ⟨rfl, rfl, rfl⟩ := h
      refine .inl ⟨rfl, by decide, ?_⟩
      unfold Clean at *
      rw [db_snoc, h0]; rfl
    · rename_i c _
      have h1 : Clean (db (t ++ [.acquire c])) D := by unfold Clean at *; rw [db_snoc, h0]; rfl
      simp only at h
      generalize t ++ [.acquire c] = t1 at h h1
      rcases hc.begin t1 with he | he
      · rw [he] at h
        simp only [ne_eq, not_true_eq_false, if_false] at h
        rw [if_neg (by simp [isError])] at h
        simp only [Option.some.injEq, Prod.mk.injEq] at h
        obtain ⟨rfl, rfl, rfl⟩ := h
        refine .inr ⟨c, rfl, rfl, ?_⟩
        unfold Clean Open at *
        rw [db_snoc, h1]
        simp [see]
      · have hne : env.begin t1 ≠ .success := by intro h; rw [h] at he; exact he (by decide)
        simp only [ne_eq, hne, not_false_eq_true, if_true] at h
        have h2 : Clean (db (t1 ++ [.begin c (env.begin t1)])) D := by
          unfold Clean at *
          rw [db_snoc, h1]
          simp [see, hne]
        have h3 := clean_release h2 c (decide (setState .ok (env.begin t1) = .failed) || env.expired (t1 ++ [.begin c (env.begin t1)]))
        split at h
        · exact ih h h3
        · simp only [Option.some.injEq, Prod.mk.injEq] at h
          obtain ⟨rfl, rfl, rfl⟩ := h
          exact .inl ⟨rfl, he, h3⟩

theorem rollback_db {env : Env} (hc : Contract env) {c st t l D} (h : Open (db t) c l D) : Clean (db (rollback env (some ⟨c, st⟩) t).2.2) D := by
  unfold rollback
  simp only
  split
  · rcases hc.rollback t with hr | hr
    · apply clean_release
      unfold Open at h; unfold Clean
      rw [db_snoc, h]
      simp only [see, hr, if_true, Db.mk.injEq, true_and]
      funext d; split <;> rfl
    · simp only [release, setState_lost hr, decide_true, Bool.true_or]
      apply open_release (l := l)
      have hg : ¬ Good (env.rollback t) := again_bad (again_of_lost hr)
      unfold Open at *
      rw [db_snoc, h]
      simp [see, hg]
  · rename_i hs
    have hs : st = .failed := Classical.byContradiction fun hn => hs hn
    subst hs
    simpa [release] using open_release h

theorem commit_db {env : Env} (hc : Contract env) {c st t l D o t'} (h : Open (db t) c l D) (hr : commit env (some ⟨c, st⟩) t = (o, t')) :
    (∃ e, o = .ret e ∧ Good e ∧ st = .ok ∧ Clean (db t') (D ++ [l])) ∨ (∃ e, o = .ret e ∧ ¬ Good e ∧ Clean (db t') D) ∨ (o = .ub ∧ st ≠ .ok) := by
  unfold commit at hr
  simp only at hr
  split at hr
  · rename_i hs
    have hcl := rollback_db (st := st) hc h
    split at hr
    · cases hr; exact .inr (.inr ⟨rfl, hs⟩)
    · split at hr <;> cases hr <;> exact .inr (.inl ⟨_, rfl, by decide, hcl⟩)
  · rename_i hs
    have hs : st = .ok := Classical.byContradiction fun hn => hs hn
    cases hr
    by_cases hg : Good (env.commit t)
    · refine .inl ⟨_, rfl, hg, hs, ?_⟩
      apply clean_release
      unfold Open at h; unfold Clean
      rw [db_snoc, h]
      simp only [see, hg, if_true, Db.mk.injEq, Option.toList_some, true_and]
      funext d; split <;> rfl
    · refine .inr (.inl ⟨_, rfl, hg, ?_⟩)
      apply clean_release
      unfold Open at h; unfold Clean
      rw [db_snoc, h]
      simp only [see, hg, if_false, Db.mk.injEq, true_and]
      funext d; split <;> rfl

theorem act_run {env : Env} {a c t l D} (h : Open (db t) c l D) :
    Open (db (t ++ [.act c a (env.act t)])) c (l ++ [(a, env.act t)]) D := by
  unfold Open at *
  rw [db_snoc, h]
  simp only [see, if_true, Option.map_some, Db.mk.injEq, true_and]
  funext d; split <;> rfl

theorem act_db {env : Env} {a c st t l D} (h : Open (db t) c l D) :
    ∃ e st' l' t', act env a (some ⟨c, st⟩) t = (e, some ⟨c, st'⟩, t') ∧ Open (db t') c (l ++ l') D ∧
      (st' = .ok → st = .ok ∧ ¬ Again e ∧ l' = [(a, e)]) := by
  unfold act
  have hrun := act_run (env := env) (a := a) h
  cases a with
  | exec s =>
    simp only
    split
    · rename_i hs
      exact ⟨_, _, [], _, rfl, by simpa using h, fun h => absurd h hs⟩
    · exact ⟨_, _, _, _, rfl, hrun, fun h => ⟨(setState_ok.1 h).1, (setState_ok.1 h).2, rfl⟩⟩
  | fetch s => exact ⟨_, _, _, _, rfl, hrun, fun h => ⟨(setState_ok.1 h).1, (setState_ok.1 h).2, rfl⟩⟩

theorem cmd_db {env : Env} {D} : ∀ (p : Prog) {c st t l}, Open (db t) c l D →
    ∃ e st' l' t', runCmd env p (some ⟨c, st⟩) t = (e, some ⟨c, st'⟩, t') ∧ Open (db t') c (l ++ l') D ∧
      (st' = .ok → st = .ok ∧ Runs p l' e ∧ ∀ x ∈ l', ¬ Again x.2) := by
  intro p
  induction p with
  | ret e =>
    intro c st t l h
    refine ⟨e, st, [], _, rfl, ?_, fun h => ⟨h, .ret e, by simp⟩⟩
    unfold Open at *
    rw [db_snoc, h, List.append_nil]; rfl
  | act a k ih =>
    intro c st t l h
    obtain ⟨e, st1, l1, t1, ha, h1, hs1⟩ := act_db (env := env) (a := a) (st := st) h
    obtain ⟨e2, st2, l2, t2, hr, h2, hs2⟩ := ih e (st := st1) h1
    refine ⟨e2, st2, l1 ++ l2, t2, by simp only [runCmd, ha]; exact hr, by rw [← List.append_assoc]; exact h2, fun h => ?_⟩
    obtain ⟨a1, a2, a3⟩ := hs2 h
    obtain ⟨b1, b2, b3⟩ := hs1 a1
    subst b3
    refine ⟨b1, .act a2, ?_⟩
    intro x hx
    rcases List.mem_append.1 hx with h | h
    · rw [List.mem_singleton.1 h]; exact b2
    · exact a3 x h

/-! ### Events are only added -/

theorem release_ext (env : Env) (tr : Trans) (t : List Ev) : t <+: (release env tr t).2 := ⟨_, rfl⟩

theorem begin_ext {env : Env} : ∀ (n : Nat) {t err tr t'}, begin env n t = some (err, tr, t') → t <+: t' := by
  intro n
  induction n with
  | zero => intro t err tr t' h; simp [begin] at h
  | succ n ih =>
    intro t err tr t' h
    rw [begin] at h
    split at h
    · cases h; exact ⟨_, rfl⟩
    · rename_i c _
      simp only at h
      have h1 : t <+: t ++ [.acquire c] ++ [.begin c (env.begin (t ++ [.acquire c]))] := ⟨_, (List.append_assoc _ _ _).symm⟩
      generalize t ++ [.acquire c] = t0 at h h1
      have h2 : ∀ tr, t <+: (release env tr (t0 ++ [.begin c (env.begin t0)])).2 := fun tr => h1.trans (release_ext ..)
      split at h
      · refine List.IsPrefix.trans ?_ (ih h)
        split
        · exact h2 _
        · exact h1
      · simp only [Option.some.injEq, Prod.mk.injEq] at h
        obtain ⟨_, _, rfl⟩ := h
        split
        · exact h2 _
        · exact h1

theorem rollback_ext (env : Env) (tr : Option Trans) (t : List Ev) : t <+: (rollback env tr t).2.2 := by
  unfold rollback
  split
  · exact List.prefix_refl _
  · simp only
    split
    · exact List.IsPrefix.trans ⟨_, rfl⟩ (release_ext ..)
    · exact release_ext ..

theorem commit_ext (env : Env) (tr : Option Trans) (t : List Ev) : t <+: (commit env tr t).2 := by
  unfold commit
  split
  · exact List.prefix_refl _
  · simp only
    split
    · split
      · exact rollback_ext ..
      · split <;> exact rollback_ext ..
    · exact List.IsPrefix.trans ⟨_, rfl⟩ (release_ext ..)

theorem act_ext (env : Env) (a : Act) (tr : Option Trans) (t : List Ev) : t <+: (act env a tr t).2.2 := by
  unfold act
  split
  · exact List.prefix_refl _
  · cases a <;> simp only
    · split
      · exact List.prefix_refl _
      · exact ⟨_, rfl⟩
    · exact ⟨_, rfl⟩

theorem runCmd_ext (env : Env) : ∀ (p : Prog) (tr : Option Trans) (t : List Ev), t <+: (runCmd env p tr t).2.2 := by
  intro p
  induction p with
  | ret e => intro tr t; exact ⟨_, rfl⟩
  | act a k ih => intro tr t; exact (act_ext env a tr t).trans (ih _ _ _)

/-! ### The transactions -/

/-- **C89**, `M_sql_trans_process`.  Whatever the pool, the driver and the user's function do and however often the transaction is tried: if an
error is returned the database is as before; if not, exactly one transaction has been added, namely what the user's function did in one
run (it was called after `t1`) that returned the very code that is returned here, and in that run neither the connection was lost nor a rollback demanded.  No
transaction is left open. -/
theorem process_atomic {env : Env} (hc : Contract env) {n k t e t' D} (h : process env n k t = some (.ret e, t'))
    (h0 : db t = ⟨D, fun _ => none⟩) :
    (¬ Good e ∧ db t' = ⟨D, fun _ => none⟩) ∨
    (Good e ∧ ∃ t1 l, t <+: t1 ∧ t1 <+: t' ∧ Runs (env.cmd t1) l e ∧ (∀ x ∈ l, ¬ Again x.2) ∧ db t' = ⟨D ++ [l], fun _ => none⟩) := by
  induction k generalizing t with
  | zero => simp [process] at h
  | succ k ih =>
    rw [process] at h
    split at h
    · simp at h
    · rename_i err tr t1 hb
      have hpre := begin_ext n hb
      rcases begin_db hc n hb h0 with ⟨rfl, hg, h1⟩ | ⟨c, rfl, rfl, h1⟩
      · rw [if_pos ((isError_iff _).2 hg)] at h
        split at h
        · exact Or.imp_right (And.imp_right fun ⟨t1, l, hp, h⟩ => ⟨t1, l, hpre.trans hp, h⟩) (ih h h1)
        · cases h; exact .inl ⟨hg, h1⟩
      · rw [if_neg (by decide)] at h
        obtain ⟨ce, st', l', t2, hr, h2, hs⟩ := cmd_db (env := env) (env.cmd t1) (st := .ok) h1
        have hpre2 : t <+: t2 := hpre.trans (by have := runCmd_ext env (env.cmd t1) (some ⟨c, .ok⟩) t1; rwa [hr] at this)
        simp only [hr] at h
        simp only [List.nil_append] at h2
        split at h
        · rename_i hbad
          rw [if_neg (by simp)] at h
          have h3 := rollback_db (st := st') hc h2
          split at h
          · exact Or.imp_right (And.imp_right fun ⟨t1, l, hp, h⟩ => ⟨t1, l, (hpre2.trans (rollback_ext ..)).trans hp, h⟩) (ih h h3)
          · cases h; exact .inl ⟨(isError_iff _).1 hbad, h3⟩
        · rename_i hgood
          split at h
          · cases h; exact .inl ⟨by decide, rollback_db hc h2⟩
          · rename_i hrow
            split at h
            · cases h
            · rename_i er t3 hcm
              have hpre3 : t2 <+: t3 := by have := commit_ext env (some ⟨c, st'⟩) t2; rwa [hcm] at this
              rcases commit_db hc h2 hcm with ⟨e', he, hg', hst, h3⟩ | ⟨e', he, hg', h3⟩ | ⟨he, _⟩
              · cases he
                rw [if_neg (by simp [isError_iff, hg'])] at h
                cases h
                obtain ⟨_, hrun, hal⟩ := hs hst
                refine .inr ⟨?_, t1, l', hpre, ?_, hrun, hal, h3⟩
                rotate_left
                · have := runCmd_ext env (env.cmd t1) (some ⟨c, .ok⟩) t1
                  rw [hr] at this
                  exact this.trans hpre3
                simpa [isError_iff] using hgood
              · cases he
                rw [if_pos ((isError_iff _).2 hg')] at h
                split at h
                · exact Or.imp_right (And.imp_right fun ⟨t1, l, hp, h⟩ => ⟨t1, l, (hpre2.trans hpre3).trans hp, h⟩) (ih h h3)
                · cases h; exact .inl ⟨hg', h3⟩
              · cases he

/-- **C89**, `M_sql_stmt_execute`: likewise, for one statement. -/
theorem stmt_atomic {env : Env} (hc : Contract env) {n s multi k t e t' D} (h : stmtExecute env n s multi k t = some (.ret e, t'))
    (h0 : db t = ⟨D, fun _ => none⟩) :
    (¬ Good e ∧ db t' = ⟨D, fun _ => none⟩) ∨
    (Good e ∧ ∃ r, Good r ∧ db t' = ⟨D ++ [[(.exec s, r)]], fun _ => none⟩) := by
  induction k generalizing t with
  | zero => simp [stmtExecute] at h
  | succ k ih =>
    rw [stmtExecute] at h
    split at h
    · rename_i hm
      split at h
      · simp at h
      · rename_i err tr t1 hb
        rcases begin_db hc n hb h0 with ⟨rfl, hg, h1⟩ | ⟨c, rfl, rfl, h1⟩
        · rw [if_pos ((isError_iff _).2 hg)] at h
          split at h
          · exact ih h h1
          · cases h; exact .inl ⟨hg, h1⟩
        · rw [if_neg (by decide)] at h
          obtain ⟨ce, st', l', t2, hr, h2, hs⟩ := act_db (env := env) (a := .exec s) (st := .ok) h1
          simp only [hr] at h
          simp only [List.nil_append] at h2
          split at h
          · rename_i hbad
            have h3 := rollback_db (st := st') hc h2
            split at h
            · exact ih h h3
            · cases h; exact .inl ⟨(isError_iff _).1 hbad, h3⟩
          · rename_i hgood
            split at h
            · cases h
            · rename_i er t3 hcm
              rcases commit_db hc h2 hcm with ⟨e', he, hg', hst, h3⟩ | ⟨e', he, hg', h3⟩ | ⟨he, _⟩
              · cases he
                rw [if_neg (by simp [isError_iff, hg'])] at h
                cases h
                obtain ⟨_, _, rfl⟩ := hs hst
                exact .inr ⟨hg', ce, by simpa [isError_iff] using hgood, h3⟩
              · cases he
                rw [if_pos ((isError_iff _).2 hg')] at h
                split at h
                · exact ih h h3
                · cases h; exact .inl ⟨hg', h3⟩
              · cases he
    · split at h
      · cases h
        refine .inl ⟨by decide, ?_⟩
        rw [db_snoc, h0]; rfl
      · rename_i c _
        simp only at h
        have h1 : db (t ++ [.acquire c]) = ⟨D, fun _ => none⟩ := by rw [db_snoc, h0]; rfl
        generalize t ++ [.acquire c] = t1 at h h1
        have hcl : ∀ D, db (t1 ++ [.auto c s (env.auto t1)]) = ⟨D, fun _ => none⟩ →
            ∀ b, db (t1 ++ [.auto c s (env.auto t1)] ++ [.release c b]) = ⟨D, fun _ => none⟩ := fun D h b => clean_release h c b
        have hk : ∀ D, db (t1 ++ [.auto c s (env.auto t1)]) = ⟨D, fun _ => none⟩ →
            db (t1 ++ [.auto c s (env.auto t1)] ++ [.keep c]) = ⟨D, fun _ => none⟩ := fun D h => by rw [db_snoc, h]; rfl
        by_cases hg : Good (env.auto t1)
        · have h2 : db (t1 ++ [.auto c s (env.auto t1)]) = ⟨D ++ [[(.exec s, env.auto t1)]], fun _ => none⟩ := by
            rw [db_snoc, h1]; simp [see, hg]
          rw [if_neg (by simp [isError_iff, hg])] at h
          split at h <;> cases h
          · exact .inr ⟨hg, _, hg, hk _ h2⟩
          · exact .inr ⟨hg, _, hg, hcl _ h2 _⟩
        · have h2 : db (t1 ++ [.auto c s (env.auto t1)]) = ⟨D, fun _ => none⟩ := by
            rw [db_snoc, h1]; simp [see, hg]
          split at h
          · exact ih h (hcl _ h2 _)
          · split at h <;> cases h
            · exact .inl ⟨hg, hk _ h2⟩
            · exact .inl ⟨hg, hcl _ h2 _⟩

/-- A driver whose first commit fails with a deadlock, and a user's function of two statements that stops at the first error. -/
def sample : Env where
  acquire := fun _ => some 7
  begin := fun _ => .success
  act := fun _ => .success
  rollback := fun _ => .success
  commit := fun t => if (t.any fun | .commit .. => true | _ => false) then .success else .queryDeadlock
  auto := fun t => if t.length < 3 then .connLost else .successRow
  cmd := fun _ => .act (.exec 1) fun e => if e = .success then .act (.exec 2) fun e => .ret (if e = .success then .userSuccess else e) else .ret e
  expired := fun _ => false
  other := fun _ => .ok
  more := fun _ => true
  noRetry := false

theorem sample_ok : Contract sample := ⟨fun _ => .inl rfl, fun _ => .inl (by show Good .success; decide)⟩

example : ∃ t, process sample 5 5 [] = some (.ret .userSuccess, t) ∧ (db t).done = [[(.exec 1, .success), (.exec 2, .success)]] ∧
    (t.filter fun | .commit .. => true | _ => false).length = 2 := ⟨_, rfl, rfl, rfl⟩

example : ∃ t, stmtExecute sample 5 9 false 5 [] = some (.ret .successRow, t) ∧ (db t).done = [[(.exec 9, .successRow)]] ∧ t.length = 6 :=
  ⟨_, rfl, rfl, rfl⟩

example : ∃ t, stmtExecute sample 5 9 true 5 [] = some (.ret .success, t) ∧ (db t).done = [[(.exec 9, .success)]] ∧ t.length = 10 :=
  ⟨_, rfl, rfl, rfl⟩

/-! ### No needless and no missing retries -/

/-- After this the transaction must not be tried again: the user's function failed for good or left rows unread, or the driver
committed or failed for good. -/
def Final : Ev → Prop
  | .noConn => True
  | .begin _ e => ¬ Good e ∧ ¬ Again e
  | .cmd e => e = .successRow ∨ ¬ Good e ∧ ¬ Again e
  | .commit _ e => ¬ Again e
  | _ => False

/-- The driver is asked to begin a transaction. -/
def Begins : Ev → Prop
  | .begin _ _ => True
  | _ => False

/-- The event that is the reason for returning the error. -/
def Reason (e : Err) : Ev → Prop
  | .noConn => e = .invalidUse
  | .begin _ f => e = f
  | .cmd f => e = f ∨ f = .successRow ∧ e = .queryFailure
  | .commit _ f => e = f
  | _ => False

/-- Nothing begins after something final. -/
def Ordered (l : List Ev) : Prop := l.Pairwise fun x y => Final x → ¬ Begins y

theorem ordered_append {A B : List Ev} (ha : ∀ x ∈ A, ¬ Final x) (hb : Ordered B) : Ordered (A ++ B) := by
  refine List.pairwise_append.2 ⟨?_, hb, fun x hx y _ h => absurd h (ha x hx)⟩
  exact List.pairwise_of_forall_mem_list fun x hx y _ h => absurd h (ha x hx)

theorem ordered_nobegin {B : List Ev} (hb : ∀ x ∈ B, ¬ Begins x) : Ordered B :=
  List.pairwise_of_forall_mem_list fun _ _ y hy _ => hb y hy

theorem begin_final {env : Env} (hc : Contract env) : ∀ (n : Nat) {t err tr t'}, begin env n t = some (err, tr, t') →
    ∃ A, t' = t ++ A ∧ Ordered A ∧ ((Good err ∨ Again err) → ∀ x ∈ A, ¬ Final x) ∧
      (¬ Good err → ¬ Again err → ∃ x ∈ A, Final x ∧ Reason err x) := by
  intro n
  induction n with
  | zero => intro t err tr t' h; simp [begin] at h
  | succ n ih =>
    intro t err tr t' h
    rw [begin] at h
    split at h
    · simp only [Option.some.injEq, Prod.mk.injEq] at h
      obtain ⟨rfl, rfl, rfl⟩ := h
      exact ⟨[.noConn], rfl, List.pairwise_singleton .., fun h => absurd h (by decide), fun _ _ => ⟨_, List.mem_singleton_self _, trivial, rfl⟩⟩
    · rename_i c _
      simp only at h
      rcases hc.begin (t ++ [.acquire c]) with he | he
      · rw [he] at h
        simp only [ne_eq, not_true_eq_false, if_false] at h
        rw [if_neg (by simp [isError])] at h
        simp only [Option.some.injEq, Prod.mk.injEq] at h
        obtain ⟨rfl, rfl, rfl⟩ := h
        have hf : ∀ x ∈ [Ev.acquire c, .begin c .success], ¬ Final x := by
          intro x hx
          simp only [List.mem_cons, List.not_mem_nil, or_false] at hx
          rcases hx with rfl | rfl
          · exact id
          · exact fun h => h.1 (by decide)
        refine ⟨[.acquire c, .begin c .success], by simp, ?_, fun _ => hf, fun h => absurd h (by decide)⟩
        simpa using ordered_append hf List.Pairwise.nil
      · have hne : env.begin (t ++ [.acquire c]) ≠ .success := by intro h; rw [h] at he; exact he (by decide)
        simp only [ne_eq, hne, not_false_eq_true, if_true, release] at h
        generalize hb : (decide (setState CState.ok (env.begin (t ++ [.acquire c])) = .failed) || env.expired (t ++ [.acquire c] ++ [.begin c (env.begin (t ++ [.acquire c]))])) = b at h
        have hrw : t ++ [.acquire c] ++ [.begin c (env.begin (t ++ [.acquire c]))] ++ [.release c b] =
            t ++ [.acquire c, .begin c (env.begin (t ++ [.acquire c])), .release c b] := by simp
        rw [hrw] at h
        generalize hee : env.begin (t ++ [.acquire c]) = ee at h he
        have hf : Again ee → ∀ x ∈ [Ev.acquire c, .begin c ee, .release c b], ¬ Final x := by
          intro ha x hx
          simp only [List.mem_cons, List.not_mem_nil, or_false] at hx
          rcases hx with rfl | rfl | rfl
          · exact id
          · exact fun h => h.2 ha
          · exact id
        split at h
        · rename_i hcond
          obtain ⟨A, rfl, h1, h2, h3⟩ := ih h
          have ha : Again ee := by
            simp only [Bool.and_eq_true, Bool.not_eq_true', ← Bool.not_eq_true, isFatal_iff] at hcond
            exact Classical.byContradiction fun hn => hcond.2.1 ⟨he, hn⟩
          refine ⟨_ ++ A, List.append_assoc _ _ _, ordered_append (hf ha) h1, ?_, ?_⟩
          · intro h x hx
            rcases List.mem_append.1 hx with hx | hx
            · exact hf ha x hx
            · exact h2 h x hx
          · intro g1 g2
            obtain ⟨x, hx, hx2⟩ := h3 g1 g2
            exact ⟨x, List.mem_append_right _ hx, hx2⟩
        · simp only [Option.some.injEq, Prod.mk.injEq] at h
          obtain ⟨rfl, rfl, rfl⟩ := h
          refine ⟨_, rfl, ?_, ?_, ?_⟩
          · simp [Ordered, Begins, Final]
          · intro h x hx
            exact hf (h.resolve_left he) x hx
          · intro h1 h2
            exact ⟨.begin c ee, by simp, ⟨h1, h2⟩, rfl⟩

theorem rollback_final (env : Env) (tr : Option Trans) (t : List Ev) :
    ∃ A, (rollback env tr t).2.2 = t ++ A ∧ ∀ x ∈ A, ¬ Final x ∧ ¬ Begins x := by
  unfold rollback
  split
  · exact ⟨[], by simp, by simp⟩
  · simp only
    split
    · exact ⟨[_, _], by simp only [release, List.append_assoc]; rfl, by simp [Final, Begins]⟩
    · exact ⟨[_], rfl, by simp [Final, Begins]⟩

theorem commit_final (env : Env) (tr : Option Trans) (t : List Ev) {o t'} (h : commit env tr t = (o, t')) (htr : tr ≠ none) :
    ∃ A, t' = t ++ A ∧ (∀ x ∈ A, ¬ Begins x) ∧ (∀ e, o = .ret e → Again e → ∀ x ∈ A, ¬ Final x) ∧
      ∀ e, o = .ret e → ¬ Good e → ¬ Again e → ∃ x ∈ A, Final x ∧ Reason e x := by
  unfold commit at h
  split at h
  · exact absurd rfl htr
  · rename_i tr
    simp only at h
    split at h
    · obtain ⟨A, hA, hA2⟩ := rollback_final env (some tr) t
      have key : ∀ o, (∀ e, o = Out.ret e → Again e) → (o, (rollback env (some tr) t).2.2) = (o, t') →
          ∃ A, t' = t ++ A ∧ (∀ x ∈ A, ¬ Begins x) ∧ (∀ e, o = .ret e → Again e → ∀ x ∈ A, ¬ Final x) ∧
          ∀ e, o = .ret e → ¬ Good e → ¬ Again e → ∃ x ∈ A, Final x ∧ Reason e x := by
        intro o ho h
        rw [Prod.mk.injEq] at h
        exact ⟨A, by rw [← h.2, hA], fun x hx => (hA2 x hx).2, fun _ _ _ x hx => (hA2 x hx).1, fun e he _ h2 => absurd (ho e he) h2⟩
      split at h
      · have ho := (Prod.mk.inj h).1
        subst ho
        exact key _ (by simp) h
      · split at h
        · have ho := (Prod.mk.inj h).1
          subst ho
          exact key _ (by simp [Again, Lost]) h
        · have ho := (Prod.mk.inj h).1
          subst ho
          exact key _ (by simp [Again]) h
    · simp only [release, List.append_assoc, List.singleton_append, Prod.mk.injEq] at h
      obtain ⟨rfl, rfl⟩ := h
      refine ⟨_, rfl, by simp [Begins], ?_, ?_⟩
      · intro e he ha x hx
        cases he
        simp only [List.mem_cons, List.not_mem_nil, or_false] at hx
        rcases hx with rfl | rfl
        · exact fun h => h ha
        · exact id
      · intro e he _ h2
        cases he
        exact ⟨_, List.mem_cons_self .., h2, rfl⟩

theorem act_final (env : Env) (a : Act) (tr : Option Trans) (t : List Ev) :
    ∃ A, (act env a tr t).2.2 = t ++ A ∧ ∀ x ∈ A, ¬ Final x ∧ ¬ Begins x := by
  unfold act
  split
  · exact ⟨[], by simp, by simp⟩
  · cases a <;> simp only
    · split
      · exact ⟨[], by simp, by simp⟩
      · exact ⟨[_], rfl, by simp [Final, Begins]⟩
    · exact ⟨[_], rfl, by simp [Final, Begins]⟩

theorem runCmd_final (env : Env) : ∀ (p : Prog) (tr : Option Trans) (t : List Ev),
    ∃ A, (runCmd env p tr t).2.2 = t ++ A ∧ (∀ x ∈ A, ¬ Begins x ∧ (Final x → x = .cmd (runCmd env p tr t).1)) ∧
      .cmd (runCmd env p tr t).1 ∈ A := by
  intro p
  induction p with
  | ret e => intro tr t; exact ⟨_, rfl, by simp [Begins, runCmd], by simp [runCmd]⟩
  | act a k ih =>
    intro tr t
    obtain ⟨A, hA, hA2⟩ := act_final env a tr t
    obtain ⟨B, hB, hB2, hB3⟩ := ih (act env a tr t).1 (act env a tr t).2.1 (act env a tr t).2.2
    refine ⟨A ++ B, ?_, ?_, List.mem_append_right _ hB3⟩
    · exact hB.trans (by rw [hA, List.append_assoc])
    · intro x hx
      rcases List.mem_append.1 hx with h | h
      · exact ⟨(hA2 x h).2, fun hf => absurd hf (hA2 x h).1⟩
      · exact hB2 x h

theorem runCmd_some (env : Env) : ∀ (p : Prog) (tr : Option Trans) (t : List Ev), tr ≠ none → (runCmd env p tr t).2.1 ≠ none := by
  intro p
  induction p with
  | ret e => intro tr t h; exact h
  | act a k ih =>
    intro tr t h
    refine ih _ _ _ ?_
    unfold act
    split
    · exact absurd rfl h
    · cases a <;> simp only
      · split <;> simp
      · simp

theorem begin_ok {env : Env} (hc : Contract env) : ∀ (n : Nat) {t err tr t'}, begin env n t = some (err, tr, t') → Good err → ∃ c, tr = some ⟨c, .ok⟩ := by
  intro n
  induction n with
  | zero => intro t err tr t' h; simp [begin] at h
  | succ n ih =>
    intro t err tr t' h hg
    rw [begin] at h
    split at h
    · cases h; exact absurd hg (by decide)
    · rename_i c _
      simp only at h
      split at h
      · exact ih h hg
      · simp only [Option.some.injEq, Prod.mk.injEq] at h
        obtain ⟨rfl, rfl, rfl⟩ := h
        rw [(hc.begin _).resolve_right (fun hn => hn hg)]
        exact ⟨c, by simp [setState, isDisconnect, isRollback]⟩

theorem begin_some {env : Env} (hc : Contract env) (n : Nat) {t err tr t'} (h : begin env n t = some (err, tr, t')) (hg : Good err) : tr ≠ none := by
  obtain ⟨c, rfl⟩ := begin_ok hc n h hg
  simp

/-- **C89**: the transaction is not tried again after it was committed, or the pool, the driver or the user's function failed for good;
an error that is returned is one of those; and an error that asks for another try is never returned. -/
theorem process_retries {env : Env} (hc : Contract env) {n k t o t'} (h : process env n k t = some (o, t')) :
    ∃ A, t' = t ++ A ∧ (A.Pairwise fun x y => Final x → ¬ Begins y) ∧
      ∀ e, o = .ret e → ¬ Good e → ¬ Again e ∧ ∃ x ∈ A, Final x ∧ Reason e x := by
  induction k generalizing t with
  | zero => simp [process] at h
  | succ k ih =>
    -- a round that is followed by another one
    have step : ∀ A, (∀ x ∈ A, ¬ Final x) → process env n k (t ++ A) = some (o, t') → ∃ A, t' = t ++ A ∧ Ordered A ∧
        ∀ e, o = .ret e → ¬ Good e → ¬ Again e ∧ ∃ x ∈ A, Final x ∧ Reason e x := by
      intro A hA h
      obtain ⟨B, rfl, hB, hr⟩ := ih h
      refine ⟨A ++ B, List.append_assoc .., ordered_append hA hB, fun e he hb => ?_⟩
      obtain ⟨h1, x, hx, h2⟩ := hr e he hb
      exact ⟨h1, x, List.mem_append_right _ hx, h2⟩
    rw [process] at h
    split at h
    · simp at h
    · rename_i err tr t1 hb
      obtain ⟨A, rfl, hA1, hA2, hA3⟩ := begin_final hc n hb
      split at h
      · rename_i hbad
        have hbad := (isError_iff _).1 hbad
        split at h
        · rename_i hag
          have hag := (isRollback_iff _).1 hag
          obtain ⟨B, hB, hB2⟩ := rollback_final env tr (t ++ A)
          rw [hB, List.append_assoc] at h
          refine step _ ?_ h
          intro x hx
          rcases List.mem_append.1 hx with h | h
          · exact hA2 (.inr hag) x h
          · exact (hB2 x h).1
        · rename_i hag
          cases h
          refine ⟨A, rfl, hA1, fun e he hb => ?_⟩
          cases he
          rw [isRollback_iff] at hag
          exact ⟨hag, hA3 hb hag⟩
      · rename_i hgood
        have hgood : Good err := by simpa [isError_iff] using hgood
        have hAn := hA2 (.inl hgood)
        obtain ⟨B, hB, hB2, hB3⟩ := runCmd_final env (env.cmd (t ++ A)) tr (t ++ A)
        simp only at h
        have hne := runCmd_some env (env.cmd (t ++ A)) tr (t ++ A) (begin_some hc n hb hgood)
        generalize runCmd env (env.cmd (t ++ A)) tr (t ++ A) = r at h hB hB2 hB3 hne
        obtain ⟨ce, tr2, t2⟩ := r
        simp only at h hB hB2 hB3 hne
        subst hB
        -- the last round
        have last : ∀ B, (∀ x ∈ B, ¬ Begins x) → ∀ t', t' = t ++ A ++ B → (∀ e, o = .ret e → ¬ Good e → ¬ Again e ∧ ∃ x ∈ B, Final x ∧ Reason e x) →
            ∃ A, t' = t ++ A ∧ Ordered A ∧ ∀ e, o = .ret e → ¬ Good e → ¬ Again e ∧ ∃ x ∈ A, Final x ∧ Reason e x := by
          intro B hB t' ht' hr
          subst ht'
          refine ⟨A ++ B, List.append_assoc .., ordered_append hAn (ordered_nobegin hB), fun e he hb => ?_⟩
          obtain ⟨h1, x, hx, h2⟩ := hr e he hb
          exact ⟨h1, x, List.mem_append_right _ hx, h2⟩
        split at h
        · rename_i hbad
          have hbad := (isError_iff _).1 hbad
          · obtain ⟨C, hC, hC2⟩ := rollback_final env tr2 (t ++ A ++ B)
            rw [hC] at h
            split at h
            · rename_i hag
              have hag := (isRollback_iff _).1 hag
              rw [List.append_assoc, List.append_assoc] at h
              refine step _ ?_ h
              intro x hx
              rcases List.mem_append.1 hx with h | h
              · exact hAn x h
              · rcases List.mem_append.1 h with h | h
                · intro hf
                  have := (hB2 x h).2 hf
                  subst this
                  rcases hf with hf | hf
                  · rw [hf] at hbad; exact hbad (by decide)
                  · exact hf.2 hag
                · exact (hC2 x h).1
            · rename_i hag
              rw [isRollback_iff] at hag
              cases h
              refine last (B ++ C) ?_ _ (List.append_assoc ..) ?_
              · intro x hx
                rcases List.mem_append.1 hx with h | h
                · exact (hB2 x h).1
                · exact (hC2 x h).2
              · intro e he hb
                cases he
                exact ⟨hag, _, List.mem_append_left _ hB3, .inr ⟨hbad, hag⟩, .inl rfl⟩
        · rename_i hcg
          have hcg : Good ce := by simpa [isError_iff] using hcg
          split at h
          · rename_i hrow
            obtain ⟨C, hC, hC2⟩ := rollback_final env tr2 (t ++ A ++ B)
            rw [hC] at h
            cases h
            refine last (B ++ C) ?_ _ (List.append_assoc ..) ?_
            · intro x hx
              rcases List.mem_append.1 hx with h | h
              · exact (hB2 x h).1
              · exact (hC2 x h).2
            · intro e he hb
              cases he
              exact ⟨by decide, _, List.mem_append_left _ hB3, .inl hrow, .inr ⟨hrow, rfl⟩⟩
          · rename_i hrow
            have hBn : ∀ x ∈ B, ¬ Final x := by
              intro x hx hf
              have := (hB2 x hx).2 hf
              subst this
              rcases hf with hf | hf
              · exact hrow hf
              · exact hf.1 hcg
            have htr2 : ∀ o t', commit env tr2 (t ++ A ++ B) = (o, t') → ∃ C, t' = t ++ A ++ B ++ C ∧ (∀ x ∈ C, ¬ Begins x) ∧
                (∀ e, o = .ret e → Again e → ∀ x ∈ C, ¬ Final x) ∧ (tr2 = none → o = .ret .invalidUse) ∧
                (tr2 ≠ none → ∀ e, o = .ret e → ¬ Good e → ¬ Again e → ∃ x ∈ C, Final x ∧ Reason e x) := by
              intro o t' h
              by_cases htr2 : tr2 = none
              · subst htr2
                cases h
                exact ⟨[], by simp, by simp, by simp, fun _ => rfl, fun h => absurd rfl h⟩
              · obtain ⟨C, h1, h2, h3, h4⟩ := commit_final env tr2 _ h htr2
                exact ⟨C, h1, h2, h3, fun h => absurd h htr2, fun _ => h4⟩
            split at h
            · rename_i t3 hcm
              obtain ⟨C, rfl, h1, h2, _, h3⟩ := htr2 _ _ hcm
              cases h
              refine last (B ++ C) ?_ _ (List.append_assoc ..) (by simp)
              intro x hx
              rcases List.mem_append.1 hx with h | h
              · exact (hB2 x h).1
              · exact h1 x h
            · rename_i er t3 hcm
              obtain ⟨C, rfl, h1, h2, _, h3⟩ := htr2 _ _ hcm
              have h3 := h3 hne
              have hBC : ∀ x ∈ B ++ C, ¬ Begins x := by
                intro x hx
                rcases List.mem_append.1 hx with h | h
                · exact (hB2 x h).1
                · exact h1 x h
              split at h
              · rename_i hbad
                split at h
                · rename_i hag
                  have hag := (isRollback_iff _).1 hag
                  rw [List.append_assoc, List.append_assoc] at h
                  refine step _ ?_ h
                  intro x hx
                  rcases List.mem_append.1 hx with h | h
                  · exact hAn x h
                  · rcases List.mem_append.1 h with h | h
                    · exact hBn x h
                    · exact h2 _ rfl hag x h
                · rename_i hag
                  rw [isRollback_iff] at hag
                  cases h
                  refine last (B ++ C) hBC _ (List.append_assoc ..) ?_
                  intro e he hb
                  cases he
                  obtain ⟨x, hx, hx2⟩ := h3 _ rfl hb hag
                  exact ⟨hag, x, List.mem_append_right _ hx, hx2⟩
              · cases h
                refine last (B ++ C) hBC _ (List.append_assoc ..) ?_
                intro e he hb
                cases he
                exact absurd hcg hb

/-! ### Undefined behaviour -/

/-- Every way through it ends with an error. -/
def Fails : Prog → Prop
  | .ret e => ¬ Good e
  | .act _ k => ∀ r, Fails (k r)

/-- The user's function ends with an error if a statement lost the connection or demanded a rollback, as
`include/mstdlib/sql/m_sql_trans.h:149-153` asks for. -/
def Honest : Prog → Prop
  | .ret _ => True
  | .act _ k => ∀ r, Honest (k r) ∧ (Again r → Fails (k r))

theorem fails_cmd (env : Env) : ∀ (p : Prog) (tr : Option Trans) (t : List Ev), Fails p → ¬ Good (runCmd env p tr t).1 := by
  intro p
  induction p with
  | ret e => intro tr t h; exact h
  | act a k ih => intro tr t h; exact ih _ _ _ (h _)

theorem honest_cmd (env : Env) : ∀ (p : Prog) (c : Nat) (t : List Ev), Honest p → Good (runCmd env p (some ⟨c, .ok⟩) t).1 →
    (runCmd env p (some ⟨c, .ok⟩) t).2.1 = some ⟨c, .ok⟩ := by
  intro p
  induction p with
  | ret e => intro c t _ _; rfl
  | act a k ih =>
    intro c t h hg
    have hact : act env a (some ⟨c, .ok⟩) t = (env.act t, some ⟨c, setState .ok (env.act t)⟩, t ++ [.act c a (env.act t)]) := by
      cases a <;> simp [act]
    simp only [runCmd, hact] at hg ⊢
    have hn : ¬ Again (env.act t) := fun ha => fails_cmd env _ _ _ ((h _).2 ha) hg
    rw [setState_ok.2 ⟨rfl, hn⟩] at hg ⊢
    exact ih _ _ _ (h _).1 hg

/-- **C89** (part): nothing undefined happens if the user's function passes errors on.  Without that see `process_ub_fails`. -/
theorem process_no_ub_partial {env : Env} (hc : Contract env) (hh : ∀ t, Honest (env.cmd t)) {n k t t'} :
    process env n k t ≠ some (.ub, t') := by
  induction k generalizing t with
  | zero => simp [process]
  | succ k ih =>
    intro h
    rw [process] at h
    split at h
    · simp at h
    · rename_i err tr t1 hb
      split at h
      · split at h
        · exact ih h
        · cases h
      · rename_i hgood
        have hgood : Good err := by simpa [isError_iff] using hgood
        obtain ⟨c, rfl⟩ : ∃ c, tr = some ⟨c, .ok⟩ := begin_ok hc n hb hgood
        have hne := runCmd_some env (env.cmd t1) (some ⟨c, .ok⟩) t1 (by simp)
        simp only at h
        split at h
        · split at h
          · exact ih h
          · cases h
        · rename_i hcg
          have hcg : Good (runCmd env (env.cmd t1) (some ⟨c, .ok⟩) t1).1 := by simpa [isError_iff] using hcg
          split at h
          · cases h
          · rw [honest_cmd env _ c t1 (hh t1) hcg] at h
            simp only [commit, ne_eq, not_true_eq_false, if_false] at h
            split at h
            · split at h
              · exact ih h
              · cases h
            · cases h

example : ∀ t, Honest (sample.cmd t) := by
  intro t r
  refine ⟨?_, ?_⟩
  · show Honest (if r = .success then _ else _)
    split
    · intro r
      refine ⟨trivial, fun h => ?_⟩
      show ¬ Good (if r = .success then _ else _)
      split
      · subst r; exact absurd h (by decide)
      · exact again_bad h
    · trivial
  · intro h
    show Fails (if r = .success then _ else _)
    split
    · subst r; exact absurd h (by decide)
    · exact again_bad h

/-- **C89**, `M_sql_stmt_execute`: nothing undefined happens, and the statement is tried again as long as that is asked for, unless the
caller asked for the opposite. -/
theorem stmt_retries {env : Env} (hc : Contract env) {n s multi k t o t'} (h : stmtExecute env n s multi k t = some (o, t')) :
    ∃ e, o = .ret e ∧ (Again e → multi = false ∧ env.noRetry = true) := by
  induction k generalizing t with
  | zero => simp [stmtExecute] at h
  | succ k ih =>
    rw [stmtExecute] at h
    split at h
    · split at h
      · simp at h
      · rename_i err tr t1 hb
        split at h
        · split at h
          · exact ih h
          · rename_i hag
            cases h
            exact ⟨_, rfl, fun ha => absurd ((isRollback_iff _).2 ha) hag⟩
        · rename_i hgood
          have hgood : Good err := by simpa [isError_iff] using hgood
          obtain ⟨c, rfl⟩ := begin_ok hc n hb hgood
          have hact : act env (.exec s) (some ⟨c, .ok⟩) t1 = (env.act t1, some ⟨c, setState .ok (env.act t1)⟩, t1 ++ [.act c (.exec s) (env.act t1)]) := by
            simp [act]
          simp only [hact] at h
          split at h
          · split at h
            · exact ih h
            · rename_i hag
              cases h
              exact ⟨_, rfl, fun ha => absurd ((isRollback_iff _).2 ha) hag⟩
          · rename_i hag
            have hok : setState .ok (env.act t1) = .ok := setState_ok.2 ⟨rfl, fun ha => hag ((isError_iff _).2 (again_bad ha))⟩
            simp only [hok, commit, ne_eq, not_true_eq_false, if_false] at h
            split at h
            · split at h
              · exact ih h
              · rename_i hag
                cases h
                exact ⟨_, rfl, fun ha => absurd ((isRollback_iff _).2 ha) hag⟩
            · rename_i hg
              cases h
              exact ⟨_, rfl, fun ha => absurd ((isError_iff _).2 (again_bad ha)) hg⟩
    · rename_i hm
      split at h
      · cases h
        exact ⟨_, rfl, fun ha => absurd ha (by decide)⟩
      · rename_i c _
        simp only at h
        split at h
        · exact ih h
        · rename_i hcond
          have key : Again (env.auto (t ++ [.acquire c])) → multi = false ∧ env.noRetry = true := by
            intro ha
            rw [(isError_iff _).2 (again_bad ha), (isRollback_iff _).2 ha] at hcond
            exact ⟨by simpa using hm, by simpa using hcond⟩
          split at h <;> cases h <;> exact ⟨_, rfl, key⟩

/-- **C89**: a statement or fetch within a transaction that is reported as a success was passed to the driver, once, and that is what the
driver said. -/
theorem act_reported (env : Env) (a : Act) (tr : Option Trans) (t : List Ev) (h : Good (act env a tr t).1) :
    ∃ c st, tr = some ⟨c, st⟩ ∧ (act env a tr t).1 = env.act t ∧ (act env a tr t).2.2 = t ++ [.act c a (env.act t)] := by
  cases tr with
  | none => simp [act, Good] at h
  | some tr =>
    cases a with
    | fetch s => exact ⟨tr.c, tr.st, rfl, rfl, rfl⟩
    | exec s =>
      by_cases hs : tr.st = .ok
      · exact ⟨tr.c, tr.st, rfl, by simp [act, hs], by simp [act, hs]⟩
      · simp [act, hs, Good] at h

example : (act sample (.exec 1) (some ⟨0, .ok⟩) []).1 = .success ∧ ¬ Good (act sample (.exec 1) (some ⟨0, .failed⟩) []).1 := by decide

/-- The connection is lost in the middle and the user's function does not care. -/
def careless : Env :=
  { sample with act := fun _ => .connLost, cmd := fun _ => .act (.exec 1) fun _ => .ret .success }

/-- The code handles a user's function that returns success although a statement lost the connection ("forced rollback",
`sql/m_sql_trans.c:167-178`), but it reads the connection after it was freed. -/
theorem process_ub_fails : ¬ ∀ env : Env, Contract env → ∀ n k t t', process env n k t ≠ some (.ub, t') := by
  intro h
  exact h careless ⟨fun _ => .inl rfl, fun _ => .inl (by show Good .success; decide)⟩ 1 1 [] _ rfl

end Verif.Sql
