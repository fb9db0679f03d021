import Verif.ThreadLocal.Inv
/- What users of thread local storage rely on. -/
namespace Verif.ThreadLocal

/-- Whatever threads do in whatever order: keys are never handed out twice; a value is taken exactly for keys that were handed out; a
thread gets back what it set itself last and nothing of any other thread; every value it replaced went to the destructor of the key
once, in order, and when it ended all of them did; no destructor runs under the lock of the library.  Partial: fewer than 2^64 steps,
and destructors do not call back. -/
theorem history_partial (l : List (Nat × Call)) (h : l.length < W) (past : List Ev) (e : Ev) (fut : List Ev) (hl : (exec l).log = past ++ e :: fut) : Good past e :=
  (inv_exec l h).good past e fut hl

/-- If a thread never puts the same pointer twice under a key, what it gets is not destroyed.  Partial: without that it is, see
`twice_fails`. -/
theorem alive_partial (l : List (Nat × Call)) (h : l.length < W) (past : List Ev) (t k v : Nat) (fut : List Ev) (hl : (exec l).log = past ++ .got t k v :: fut)
    (hv : v ≠ 0) (d : Nat) (hd : Known k (some d) past) (hn : (given t k past).Nodup) : v ∈ given t k past ∧ v ∉ gone t k past := by
  obtain ⟨h1, h2⟩ := history_partial l h _ _ _ hl
  have h2 := h2 d hd
  cases hlv : live t k past with
  | none => rw [hlv] at h1; exact absurd h1 hv
  | some x =>
    rw [hlv] at h1 h2
    have : x = v := h1.symm
    subst this
    rw [h2] at hn ⊢
    refine ⟨by simp, fun hm => ?_⟩
    have := (List.nodup_append.1 hn).2.2 x hm x (by simp)
    exact this rfl

/-- A thread that was asked to do the same calls is told the same, whatever the other threads do in between: two histories that agree
on what the thread set under the key and on its end give the same answer. -/
theorem own_only_partial (l l' : List (Nat × Call)) (h : l.length < W) (h' : l'.length < W) (p p' : List Ev) (t k v v' : Nat) (f f' : List Ev)
    (hl : (exec l).log = p ++ .got t k v :: f) (hl' : (exec l').log = p' ++ .got t k v' :: f')
    (hs : p.filter (fun e => match e with | .wasSet u key _ true => decide (u = t ∧ key = k) | .purged u => decide (u = t) | _ => false) =
          p'.filter (fun e => match e with | .wasSet u key _ true => decide (u = t ∧ key = k) | .purged u => decide (u = t) | _ => false)) : v = v' := by
  have key : ∀ q : List Ev, live t k q = live t k (q.filter (fun e => match e with | .wasSet u key _ true => decide (u = t ∧ key = k) | .purged u => decide (u = t) | _ => false)) := by
    intro q
    unfold live
    suffices hh : ∀ c, q.foldl _ c = (q.filter _).foldl _ c from hh none
    intro c
    induction q generalizing c with
    | nil => rfl
    | cons e q ih =>
      rw [List.foldl_cons, List.filter_cons, ih]
      cases e with
      | wasSet u key v ok =>
        cases ok
        · simp
        · by_cases hc : u = t ∧ key = k
          · simp [hc]
          · simp [hc]
      | purged u =>
        by_cases hc : u = t
        · simp [hc]
        · simp [hc]
      | created => simp
      | got => simp
      | destroyed => simp
  rw [(history_partial l h _ _ _ hl).1, (history_partial l' h' _ _ _ hl').1, key p, key p', hs]

/-- Clearing a value leaves a null pointer behind that the destructor is called with when the thread ends. -/
theorem cleared_fails : Ev.destroyed 1 1 7 0 false ∈ (exec [(1, .create (some 7)), (1, .purge), (1, .set 1 5), (1, .purge), (1, .purge), (1, .set 1 0), (1, .purge), (1, .purge),
    (1, .purge), (1, .purge), (1, .purge), (1, .purge)]).log := by decide +kernel

/-- Setting the pointer that is set already destroys it, yet the thread still gets it. -/
theorem twice_fails : (exec [(1, .create (some 7)), (1, .purge), (1, .set 1 5), (1, .purge), (1, .purge), (1, .set 1 5), (1, .purge), (1, .purge), (1, .get 1), (1, .purge)]).log =
    [.created 1 1 (some 7), .wasSet 1 1 5 true, .destroyed 1 1 7 5 false, .wasSet 1 1 5 true, .got 1 1 5] := by decide +kernel

/-- Two threads that create keys at once, set their values and end. -/
example : (exec [(1, .create (some 7)), (2, .create none), (2, .get 0), (1, .get 0), (1, .set 1 5), (2, .set 1 6), (1, .get 0), (2, .get 0), (1, .get 0), (2, .get 0),
    (1, .get 1), (1, .get 1), (2, .get 1), (1, .purge), (2, .get 1), (1, .get 1), (1, .get 1), (1, .get 1), (1, .get 1)]).log =
    [.created 2 2 none, .created 1 1 (some 7), .wasSet 1 1 5 true, .wasSet 2 1 6 true, .got 1 1 5, .got 2 1 6, .destroyed 1 1 7 5 false, .purged 1, .got 1 1 0] := by decide +kernel

/-- The hypotheses of `alive_partial` are met. -/
example : (exec [(1, .create (some 7)), (1, .purge), (1, .set 1 5), (1, .purge), (1, .purge), (1, .set 1 6), (1, .purge), (1, .purge), (1, .get 1), (1, .purge)]).log =
    [.created 1 1 (some 7), .wasSet 1 1 5 true, .destroyed 1 1 7 5 false, .wasSet 1 1 6 true] ++ .got 1 1 6 :: [] ∧
    (given 1 1 [.created 1 1 (some 7), .wasSet 1 1 5 true, .destroyed 1 1 7 5 false, .wasSet 1 1 6 true]).Nodup := by decide +kernel

example : Known 1 (some 7) [.created 1 1 (some 7), .wasSet 1 1 5 true, .destroyed 1 1 7 5 false, .wasSet 1 1 6 true] := ⟨1, by simp⟩

end Verif.ThreadLocal
