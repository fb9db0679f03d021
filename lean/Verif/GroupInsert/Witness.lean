import Verif.GroupInsert.Props
/-! Concrete executions. -/
namespace Verif.GroupInsert
open Verif.Sql (Err isError isRollback)

/-- Any query, nothing assumed of the database. -/
def anyEnv : Env := ⟨fun _ => True, True⟩
/-- Queries without spaces around them; transactions can be started and committed in the end. -/
def goodEnv : Env := ⟨fun q => trim q = q, False⟩
/-- Queries without spaces around them. -/
def tidyEnv : Env := ⟨fun q => trim q = q, True⟩

/-- `INSERT` -/
def ins : Query := [73, 78, 83, 69, 82, 84]
/-- the same with a space in front -/
def spIns : Query := [32, 73, 78, 83, 69, 82, 84]

/-- The state after each step of two calls: the first runs the statement, the second joins while it starts the transaction. -/
theorem two_calls (env : Env) (hq : env.query ins) : ∃ st, Reach env st ∧ st.committed = [(0, [0, 1])] ∧
    st.parts = [⟨ins, 0, .gone .success true⟩, ⟨ins, 0, .gone .success false⟩] ∧ st.stmts.map (·.freed) = [true] := by
  have r := Reach.init (env := env)
  have r := r.step (.new ins .success hq rfl)
  have r := r.step (.work (.lock 0 _ _ rfl rfl rfl rfl))
  have r := r.step (.work (.bind 0 _ _ rfl rfl rfl))
  have r := r.step (.work (.call 0 _ _ rfl rfl rfl))
  have r := r.step (.join ins 0 _ hq rfl rfl)
  have r := r.step (.work (.begin 0 _ _ .success rfl rfl rfl (.inl rfl) (fun c => absurd c (by decide))))
  have r := r.step (.work (.close 0 _ _ _ rfl rfl rfl rfl))
  have r := r.step (.round 0 _ _ _ rfl rfl rfl rfl)
  have r := r.step (.work (.lock 1 _ _ rfl rfl rfl rfl))
  have r := r.step (.work (.bind 1 _ _ rfl rfl rfl))
  have r := r.step (.work (.call 1 _ _ rfl rfl rfl))
  have r := r.step (.spurious 1 _ _ rfl rfl rfl)
  have r := r.step (.work (.wake 1 _ _ rfl rfl rfl rfl))
  have r := r.step (.work (.spin 0 _ _ _ rfl rfl rfl rfl rfl))
  have r := r.step (.work (.exec 0 _ _ .queryDeadlock rfl rfl rfl (.inr rfl)))
  have r := r.step (.work (.begin 0 _ _ .success rfl rfl rfl (.inl rfl) (fun c => absurd c (by decide))))
  have r := r.step (.work (.close 0 _ _ _ rfl rfl rfl rfl))
  have r := r.step (.work (.exec 0 _ _ .success rfl rfl rfl (.inl rfl)))
  have r := r.step (.work (.commit 0 _ _ .success rfl rfl rfl (.inl rfl) (fun c => absurd c (by decide))))
  have r := r.step (.work (.close 0 _ _ _ rfl rfl rfl rfl))
  have r := r.step (.work (.finish 0 _ _ _ rfl rfl rfl rfl))
  have r := r.step (.work (.destroy 0 _ _ _ _ rfl rfl rfl rfl))
  have r := r.step (.work (.wake 1 _ _ rfl rfl rfl rfl))
  have r := r.step (.work (.destroy 1 _ _ _ _ rfl rfl rfl rfl))
  have r := r.step (.work (.free 1 _ _ _ _ rfl rfl rfl))
  exact ⟨_, r, rfl, rfl, rfl⟩

/-- The hypotheses of the theorems are met: two calls, both told of success, one commit with both rows. -/
example : ∃ st, Tidy goodEnv ∧ ¬goodEnv.fail ∧ Reach goodEnv st ∧ inserted st = [0, 1] ∧
    (∃ p, st.parts[0]? = some p ∧ result p.pc = some (.success, true)) ∧ (∃ p, st.parts[1]? = some p ∧ result p.pc = some (.success, false)) ∧
    (∀ p ∈ st.parts, ∃ e m, p.pc = .gone e m) ∧ (0, [0, 1]) ∈ st.committed ∧ ∀ x ∈ st.stmts, x.freed = true := by
  obtain ⟨st, r, h1, h2, h3⟩ := two_calls goodEnv (show trim ins = ins by decide)
  refine ⟨st, fun q h => h, fun h => h, r, by rw [inserted, h1]; rfl, ⟨_, by rw [h2]; rfl, rfl⟩, ⟨_, by rw [h2]; rfl, rfl⟩, ?_,
    by rw [h1]; simp, ?_⟩
  · rw [h2]
    intro p hp
    rcases List.mem_cons.1 hp with rfl | hp
    · exact ⟨_, _, rfl⟩
    · obtain rfl := List.mem_singleton.1 hp
      exact ⟨_, _, rfl⟩
  · intro x hx
    have := List.mem_map_of_mem (f := (·.freed)) hx
    rw [h3] at this
    simpa using this

/-- A call that is told of success though nothing was ever inserted: the transaction cannot be started (the pool was stopped). -/
theorem success_inserted_fails : ∃ (st : St) (p : Part), Tidy tidyEnv ∧ Reach tidyEnv st ∧ st.parts[1]? = some p ∧
    result p.pc = some (.success, false) ∧ (∃ p0, st.parts[0]? = some p0 ∧ result p0.pc = some (.invalidUse, true)) ∧ inserted st = [] := by
  have hq : tidyEnv.query ins := show trim ins = ins by decide
  have r := Reach.init (env := tidyEnv)
  have r := r.step (.new ins .success hq rfl)
  have r := r.step (.work (.lock 0 _ _ rfl rfl rfl rfl))
  have r := r.step (.work (.bind 0 _ _ rfl rfl rfl))
  have r := r.step (.work (.call 0 _ _ rfl rfl rfl))
  have r := r.step (.join ins 0 _ hq rfl rfl)
  have r := r.step (.work (.lock 1 _ _ rfl rfl rfl rfl))
  have r := r.step (.work (.bind 1 _ _ rfl rfl rfl))
  have r := r.step (.work (.call 1 _ _ rfl rfl rfl))
  have r := r.step (.work (.begin 0 _ _ .invalidUse rfl rfl rfl (.inr rfl) (fun _ _ => trivial)))
  have r := r.step (.work (.close 0 _ _ _ rfl rfl rfl rfl))
  have r := r.step (.work (.finish 0 _ _ _ rfl rfl rfl rfl))
  have r := r.step (.work (.wake 1 _ _ rfl rfl rfl rfl))
  exact ⟨_, _, fun q h => h, r, rfl, rfl, ⟨_, rfl, rfl⟩, rfl⟩

/-- The same when the commit fails for good. -/
theorem success_commit_fails : ∃ (st : St) (p : Part), Tidy tidyEnv ∧ Reach tidyEnv st ∧ st.parts[1]? = some p ∧
    result p.pc = some (.success, false) ∧ (∃ p0, st.parts[0]? = some p0 ∧ result p0.pc = some (.queryFailure, true)) ∧ inserted st = [] := by
  have hq : tidyEnv.query ins := show trim ins = ins by decide
  have r := Reach.init (env := tidyEnv)
  have r := r.step (.new ins .success hq rfl)
  have r := r.step (.work (.lock 0 _ _ rfl rfl rfl rfl))
  have r := r.step (.work (.bind 0 _ _ rfl rfl rfl))
  have r := r.step (.work (.call 0 _ _ rfl rfl rfl))
  have r := r.step (.join ins 0 _ hq rfl rfl)
  have r := r.step (.work (.lock 1 _ _ rfl rfl rfl rfl))
  have r := r.step (.work (.bind 1 _ _ rfl rfl rfl))
  have r := r.step (.work (.call 1 _ _ rfl rfl rfl))
  have r := r.step (.work (.begin 0 _ _ .success rfl rfl rfl (.inl rfl) (fun c => absurd c (by decide))))
  have r := r.step (.work (.close 0 _ _ _ rfl rfl rfl rfl))
  have r := r.step (.work (.exec 0 _ _ .success rfl rfl rfl (.inl rfl)))
  have r := r.step (.work (.commit 0 _ _ .queryFailure rfl rfl rfl (.inr rfl) (fun _ _ => trivial)))
  have r := r.step (.work (.close 0 _ _ _ rfl rfl rfl rfl))
  have r := r.step (.work (.finish 0 _ _ _ rfl rfl rfl rfl))
  have r := r.step (.work (.wake 1 _ _ rfl rfl rfl rfl))
  exact ⟨_, _, fun q h => h, r, rfl, rfl, ⟨_, rfl, rfl⟩, rfl⟩

/-- With a space before the query the statement stays in the table under a key that is never removed; the next call is given freed
memory. -/
theorem no_use_after_free_fails : ∃ st : St, Reach anyEnv st ∧ st.bad = true := by
  have hq : anyEnv.query spIns := trivial
  have r := Reach.init (env := anyEnv)
  have r := r.step (.new spIns .success hq rfl)
  have r := r.step (.work (.lock 0 _ _ rfl rfl rfl rfl))
  have r := r.step (.work (.bind 0 _ _ rfl rfl rfl))
  have r := r.step (.work (.call 0 _ _ rfl rfl rfl))
  have r := r.step (.work (.begin 0 _ _ .success rfl rfl rfl (.inl rfl) (fun c => absurd c (by decide))))
  have r := r.step (.work (.close 0 _ _ _ rfl rfl rfl rfl))
  have r := r.step (.work (.exec 0 _ _ .success rfl rfl rfl (.inl rfl)))
  have r := r.step (.work (.commit 0 _ _ .success rfl rfl rfl (.inl rfl) (fun c => absurd c (by decide))))
  have r := r.step (.work (.close 0 _ _ _ rfl rfl rfl rfl))
  have r := r.step (.work (.finish 0 _ _ _ rfl rfl rfl rfl))
  have r := r.step (.work (.destroy 0 _ _ _ _ rfl rfl rfl rfl))
  have r := r.step (.work (.free 0 _ _ _ _ rfl rfl rfl))
  have r := r.step (.join spIns 0 _ hq rfl rfl)
  exact ⟨_, r, rfl⟩

end Verif.GroupInsert
