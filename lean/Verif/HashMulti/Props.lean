import Verif.HashMulti.Lemmas
/-! C116: a table of several types returns under every key exactly the value stored there last, as its type and no other, and releases
every pointer it was given once. -/
namespace Verif.HashMulti

/-- A value read as each type, by the specification. -/
def asBool : Option Val → Res Bool | some (.bool b) => .yes b | _ => .no
def asInt : Option Val → Res UInt64 | some (.int u) => .yes u | _ => .no
def asStr : Option Val → Res (List UInt8) | some (.str s) => .yes s | _ => .no
def asBin : Option Val → Res (List UInt8) | some (.bin l) => .yes l | _ => .no
def asVp : Option Val → Res UInt64 | some (.vp p _) => .yes p | _ => .no
def asTy : Option Val → Ty
  | none => .unknown | some (.bool _) => .bool | some (.int _) => .int | some (.str _) => .str | some (.bin _) => .bin
  | some (.vp _ _) => .vp

/-- Whether a call succeeds is as specified, after every history: storing fails for an empty key and a NULL pointer only, removing
fails for an absent key only. -/
theorem answers (fold : List UInt8 → List UInt8) (ops : List Op) (o : Op) :
    (step fold (run fold ops) o).1 = ((S.run fold ops).step fold o).1 :=
  (step_inv (run_inv true fold ops (fun o _ => by cases o <;> simp [Ok])) fold o (by cases o <;> simp [Ok])).2

example : (step id (run id [.int (.str [97]) 5]) (.remove (.str [97]) true)).1 = true
    ∧ (step id (run id [.int (.str [97]) 5]) (.remove (.str [98]) true)).1 = false := by decide

/-- The strings of a history have no zero bytes. -/
theorem strs_clean (fold : List UInt8 → List UInt8) (ops : List Op) (hp : ∀ o ∈ ops, Proper o) (k : Key) (v : List UInt8)
    (h : (S.run fold ops).m k = some (.str v)) : 0 ∉ v := by
  have key : ∀ (ops : List Op) (s : S), (∀ o ∈ ops, Proper o) → (∀ k v, s.m k = some (.str v) → 0 ∉ v) →
      ∀ k v, (ops.foldl (fun s o => (s.step fold o).2) s).m k = some (.str v) → 0 ∉ v := by
    intro ops
    induction ops with
    | nil => intro s _ hs; exact hs
    | cons o ops ih =>
      intro s hp hs
      refine ih _ (fun o' h' => hp o' (List.mem_cons_of_mem _ h')) ?_
      have ho := hp o (List.mem_cons_self ..)
      intro k' v' hv'
      cases o with
      | remove k d =>
        simp only [S.step] at hv'
        split at hv'
        · exact hs k' v' hv'
        · simp only at hv'
          split at hv'
          · exact absurd hv' (by simp)
          · exact hs k' v' hv'
      | str k w =>
        simp only [S.step, S.set] at hv'
        split at hv'
        · simp only at hv'
          split at hv'
          · simp only [Option.some.injEq, Val.str.injEq] at hv'
            rw [← hv']; exact ho
          · exact hs k' v' hv'
        · exact hs k' v' hv'
      | _ =>
        simp only [S.step, S.set] at hv'
        split at hv'
        · simp only at hv'
          split at hv'
          · exact absurd hv' (by simp)
          · exact hs k' v' hv'
        · exact hs k' v' hv'
  exact key ops S.init hp (fun k v h => by simp [S.init] at h) k v h

theorem take_zero (s : List UInt8) (h : 0 ∉ s) : (s ++ [0]).takeWhile (· != 0) = s := by
  induction s with
  | nil => rfl
  | cons a s ih =>
    rw [List.mem_cons] at h
    have ha : a ≠ 0 := fun e => h (Or.inl e.symm)
    rw [List.cons_append, List.takeWhile_cons_of_pos (by simpa using ha), ih (fun h' => h (Or.inr h'))]

/-- After every history in which binary data was never NULL, each key reads as the value stored under it last, in its own type; as
every other type reading fails, and nothing is undefined.  Missing: NULL as binary data, which reads as nothing at all
(`get_null_fails`). -/
theorem get_last_partial (fold : List UInt8 → List UInt8) (ops : List Op) (hp : ∀ o ∈ ops, Proper o) (k : Key) :
    getAs objBool (run fold ops) (k.fold fold) = asBool ((S.run fold ops).m (sameKey fold k))
    ∧ getAs objInt (run fold ops) (k.fold fold) = asInt ((S.run fold ops).m (sameKey fold k))
    ∧ getAs objStr (run fold ops) (k.fold fold) = asStr ((S.run fold ops).m (sameKey fold k))
    ∧ getAs objBin (run fold ops) (k.fold fold) = asBin ((S.run fold ops).m (sameKey fold k))
    ∧ getAs objVp (run fold ops) (k.fold fold) = asVp ((S.run fold ops).m (sameKey fold k))
    ∧ typeOf (run fold ops) (k.fold fold) = asTy ((S.run fold ops).m (sameKey fold k)) := by
  have hi := run_inv false fold ops (fun o h => by
    have := hp o h
    cases o <;> simp_all [Ok, Proper])
  have hr := hi.rel (sameKey fold k)
  have hs := strs_clean fold ops hp (sameKey fold k)
  rw [fold_eq]
  unfold getAs typeOf
  cases hg : get (run fold ops).t (sameKey fold k) with
  | none =>
    rw [hg] at hr
    cases hm : (S.run fold ops).m (sameKey fold k) with
    | none => exact ⟨rfl, rfl, rfl, rfl, rfl, rfl⟩
    | some v => rw [hm] at hr; exact absurd hr (by simp [Rel])
  | some o =>
    rw [hg] at hr
    cases hm : (S.run fold ops).m (sameKey fold k) with
    | none => rw [hm] at hr; exact absurd hr (by simp [Rel])
    | some v =>
      rw [hm] at hr
      change Enc false o v at hr
      cases v with
      | str v =>
        have h0 := hs v hm
        cases hr
        have := take_zero v h0
        simp [objBool, objInt, objStr, objBin, objVp, tyOf, asBool, asInt, asStr, asBin, asVp, asTy, -bne_iff_ne, this]
      | bin l =>
        rcases hr with rfl | ⟨h, -⟩
        · simp [objBool, objInt, objStr, objBin, objVp, tyOf, asBool, asInt, asStr, asBin, asVp, asTy]
        · exact absurd h (by simp)
      | _ =>
        cases hr
        simp [objBool, objInt, objStr, objBin, objVp, tyOf, asBool, asInt, asStr, asBin, asVp, asTy]

example : getAs objInt (run id [.int (.int 3) 5, .str (.str [97]) [98], .int (.int 3) 7]) (.int 3) = .yes 7
    ∧ getAs objStr (run id [.int (.int 3) 5, .str (.str [97]) [98], .int (.int 3) 7]) (.str [97]) = .yes [98]
    ∧ getAs objStr (run id [.int (.int 3) 5, .str (.str [97]) [98], .int (.int 3) 7]) (.int 3) = .no := by decide

/-- The property fails for NULL binary data: storing it succeeds, the comment in the code says it may be stored, but then the key has
no type and does not read as binary. -/
theorem get_null_fails :
    (step id H.init (.bin (.int 1) none)).1 = true
    ∧ getAs objBin (run id [.bin (.int 1) none]) (.int 1) = .no
    ∧ typeOf (run id [.bin (.int 1) none]) (.int 1) = .unknown
    ∧ asBin ((S.run id [.bin (.int 1) none]).m (.int 1)) = .yes [] := by decide

/-- Free functions are called exactly when a value is replaced or removed for good, with that value, in that order. -/
theorem free_exact (fold : List UInt8 → List UInt8) (ops : List Op) : (run fold ops).calls = (S.run fold ops).freed :=
  (run_inv true fold ops (fun o _ => by cases o <;> simp [Ok])).calls

example : (run id [.vp (.int 1) 10 (some 7), .vp (.int 1) 20 (some 8), .remove (.int 1) true]).calls = [(7, 10), (8, 20)] := by decide

/-- When the table is destroyed, every pointer given with a free function has been released with that function as often as it was
given, or was handed back to the user by a removal that keeps it; never more often. -/
theorem released (fold : List UInt8 → List UInt8) (ops : List Op) (c : Nat × UInt64) :
    (given fold ops).count c = (destroy (run fold ops)).calls.count c + (S.run fold ops).handed.count c := by
  have hi := run_inv true fold ops (fun o _ => by cases o <;> simp [Ok])
  have := hi.cons c
  rw [given_eq, this]
  unfold destroy
  rw [destroy_fold]
  simp only [List.count_append, count_live]
  omega

example : (destroy (run id [.vp (.int 1) 10 (some 7), .vp (.str [97]) 20 (some 8), .vp (.int 2) 30 (some 7), .remove (.int 2) false])).calls
    = [(7, 10), (8, 20)] := by decide

/-- When the table is destroyed every block it allocated for a value is released, except one for each attempt to store binary data or a
pointer under an empty string. -/
theorem memory (fold : List UInt8 → List UInt8) (ops : List Op) :
    (destroy (run fold ops)).allocs = (destroy (run fold ops)).frees + ops.countP (wasted fold) := by
  have hi := run_inv true fold ops (fun o _ => by cases o <;> simp [Ok])
  have := hi.mem
  unfold destroy
  rw [destroy_fold]
  exact this

example : (destroy (run id [.int (.int 1) 10, .bool (.int 1) true, .bin (.str [97]) (some [])])).frees = 3 := by decide

/-- So memory is lost: the refused attempt keeps its copy. -/
theorem memory_leak_fails :
    (step id H.init (.bin (.str []) (some [1, 2]))).1 = false
    ∧ (destroy (run id [.bin (.str []) (some [1, 2])])).allocs = 1
    ∧ (destroy (run id [.bin (.str []) (some [1, 2])])).frees = 0 := by decide

/-- Copying a string to another key by the pointer that reading returned is fine. -/
theorem alias_partial (fold : List UInt8 → List UInt8) (ops : List Op) (hp : ∀ o ∈ ops, Proper o) (src dst : Key)
    (hd : usable (sameKey fold dst)) (hne : sameKey fold src ≠ sameKey fold dst) (s : List UInt8)
    (hs : (S.run fold ops).m (sameKey fold src) = some (.str s)) :
    insAlias (run fold ops) (src.fold fold) (dst.fold fold) = some (step fold (run fold ops) (.str dst s)) := by
  have h1 := (get_last_partial fold ops hp src).2.2.1
  rw [hs] at h1
  have hi := run_inv true fold ops (fun o _ => by cases o <;> simp [Ok])
  have h2 := (remove_inv hi (sameKey fold dst) true).1.rel (sameKey fold src)
  simp only [S.drop, if_neg hne, hs] at h2
  unfold insAlias
  rw [h1]
  have hv := (valid_iff _).2 hd
  rw [fold_eq, fold_eq]
  simp only [asStr, hv, step, fold_eq]
  cases hg : get (remove (run fold ops) (sameKey fold dst) true).2.t (sameKey fold src) with
  | none => rw [hg] at h2; exact absurd h2 (by simp [Rel])
  | some o => simp

example : insAlias (run id [.str (.int 1) [97]]) (.int 1) (.int 2)
    = some (step id (run id [.str (.int 1) [97]]) (.str (.int 2) [97])) := by decide

/-- Storing a string under its own key by the pointer that reading returned reads released memory. -/
theorem alias_same_fails : insAlias (run id [.str (.int 1) [97]]) (.int 1) (.int 1) = none := by decide

end Verif.HashMulti
