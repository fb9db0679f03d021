import Verif.ThreadLocal.Lemmas
/- The invariant of all the threads. -/
namespace Verif.ThreadLocal

/-- Every event is as it should be. -/
def AllGood (log : List Ev) : Prop := ∀ past e fut, log = past ++ e :: fut → Good past e

theorem allGood_nil : AllGood [] := by
  intro past e fut h
  cases past <;> cases h

theorem AllGood.snoc {l : List Ev} {e : Ev} (h : AllGood l) (he : Good l e) : AllGood (l ++ [e]) := by
  intro past x fut hx
  rcases List.eq_nil_or_concat fut with rfl | ⟨f, y, rfl⟩
  · have := List.append_inj' hx rfl
    obtain ⟨rfl, h2⟩ := this
    cases h2
    exact he
  · have h1 : l ++ [e] = (past ++ x :: f) ++ [y] := by simpa using hx
    obtain ⟨rfl, _⟩ := List.append_inj' h1 rfl
    exact h past x f rfl

/-- What holds of the counter of the keys and their table. -/
structure A (n : Nat) (s : S) : Prop where
  bound : s.keyId ≤ n
  keys : ∀ id d, klook s.keys id = some d ↔ Known id d s.log
  range : ∀ id d, Known id d s.log → 1 ≤ id ∧ id ≤ s.keyId
  wait : ∀ t d id, s.pc t = .create2 d id → 1 ≤ id ∧ id ≤ s.keyId ∧ ∀ d', ¬ Known id d' s.log
  apart : ∀ t u d d' id, s.pc t = .create2 d id → s.pc u = .create2 d' id → t = u

/-- The invariant after a number of steps. -/
structure Inv (n : Nat) (s : S) : Prop where
  a : A n s
  b : ∀ t, B t ((s.pool t).getD []) (s.pc t) s.log
  good : AllGood s.log

theorem inv_init : Inv 0 init := by
  refine ⟨⟨Nat.le_refl _, ?_, ?_, ?_, ?_⟩, fun t => b_init t, allGood_nil⟩
  · intro id d; simp [init, klook, Known]
  · intro id d h; simp [init, Known] at h
  · intro t d id h; cases h
  · intro t u d d' id h; cases h

theorem A.uniq {n : Nat} {s : S} (h : A n s) (k : Nat) (d d' : Option Nat) (h1 : Known k d s.log) (h2 : Known k d' s.log) : d = d' := by
  have e1 := (h.keys k d).2 h1
  have e2 := (h.keys k d').2 h2
  rw [e1] at e2
  exact Option.some.inj e2

/-- A step that leaves the keys alone. -/
theorem A.keep {n : Nat} {s s' : S} (h : A n s) (t : Nat) (es : List Ev) (hk : s'.keyId = s.keyId) (hks : s'.keys = s.keys) (hl : s'.log = s.log ++ es) (hq : Quiet es)
    (hp : ∀ u, u ≠ t → s'.pc u = s.pc u) (hc : ∀ d i, s'.pc t ≠ .create2 d i) : A (n + 1) s' := by
  have hpc : ∀ u d i, s'.pc u = .create2 d i → s.pc u = .create2 d i := by
    intro u d i e
    by_cases hu : u = t
    · subst hu; exact absurd e (hc d i)
    · rw [hp u hu] at e; exact e
  refine ⟨?_, ?_, ?_, ?_, ?_⟩
  · rw [hk]; exact Nat.le_succ_of_le h.bound
  · intro id d; rw [hks, hl, known_quiet hq]; exact h.keys id d
  · intro id d e
    rw [hl, known_quiet hq] at e
    rw [hk]
    exact h.range id d e
  · intro u d id e
    obtain ⟨h1, h2, h3⟩ := h.wait u d id (hpc u d id e)
    refine ⟨h1, by rw [hk]; exact h2, fun d' x => h3 d' ?_⟩
    rw [hl, known_quiet hq] at x
    exact x
  · intro u w d d' id e1 e2
    exact h.apart u w d d' id (hpc u d id e1) (hpc w d' id e2)

/-- A step of one thread that leaves the keys alone. -/
theorem Inv.keep {n : Nat} {s s' : S} (h : Inv n s) (t : Nat) (es : List Ev) (hk : s'.keyId = s.keyId) (hks : s'.keys = s.keys) (hl : s'.log = s.log ++ es) (hq : Quiet es)
    (hth : ∀ e ∈ es, e.thread = t) (hp : ∀ u, u ≠ t → s'.pc u = s.pc u) (hpo : ∀ u, u ≠ t → s'.pool u = s.pool u) (hc : ∀ d i, s'.pc t ≠ .create2 d i)
    (hb : B t ((s'.pool t).getD []) (s'.pc t) (s.log ++ es)) (hg : AllGood (s.log ++ es)) : Inv (n + 1) s' := by
  refine ⟨h.a.keep t es hk hks hl hq hp hc, ?_, by rw [hl]; exact hg⟩
  intro u
  rw [hl]
  by_cases hu : u = t
  · subst hu; exact hb
  · rw [hp u hu, hpo u hu]
    exact (h.b u).other hq fun e he x => hu (by rw [← x, hth e he])

theorem quiet_nil : Quiet [] := by rintro k d ⟨u, hu⟩; cases hu

theorem destroyAt_thread (t k : Nat) (st : Store) : ∀ e ∈ destroyAt t k st, e.thread = t := by
  intro e he
  rcases destroyAt_cases t k st with ⟨h, _⟩ | ⟨d, v, h, _⟩ <;> rw [h] at he <;> simp at he
  subst he; rfl

theorem destroyAt_good {t k : Nat} {st : Store} {pc : Pc} {l : List Ev} (h : B t st pc l) (hg : AllGood l) : AllGood (l ++ destroyAt t k st) := by
  rcases destroyAt_cases t k st with ⟨e, _⟩ | ⟨d, v, e, e2⟩ <;> rw [e]
  · simpa using hg
  · exact hg.snoc ⟨h.known k _ e2, rfl⟩

theorem inv_step {n : Nat} {s : S} (h : Inv n s) (hn : n + 1 < W) (t : Nat) (c : Call) : Inv (n + 1) (step s t c) := by
  have hB := h.b t
  have uq := h.a.uniq
  unfold step
  cases hpc : s.pc t with
  | idle =>
    rw [hpc] at hB
    have hsame := hB.same (.inl rfl)
    cases c with
    | create d =>
      dsimp only
      have hb := h.a.bound
      have hm : (s.keyId + 1) % W = s.keyId + 1 := Nat.mod_eq_of_lt (by omega)
      rw [hm]
      refine ⟨⟨?_, h.a.keys, ?_, ?_, ?_⟩, ?_, h.good⟩
      · simp only [goto]; omega
      · intro id d' e
        have := h.a.range id d' e
        simp only [goto]; omega
      · intro u d' id e
        simp only [goto] at e ⊢
        by_cases hu : u = t
        · rw [if_pos hu] at e
          cases e
          refine ⟨by omega, by omega, fun d' x => ?_⟩
          have := h.a.range _ d' x
          omega
        · rw [if_neg hu] at e
          obtain ⟨h1, h2, h3⟩ := h.a.wait u d' id e
          exact ⟨h1, by omega, h3⟩
      · intro u w d1 d2 id e1 e2
        simp only [goto] at e1 e2
        by_cases hu : u = t <;> by_cases hw : w = t
        · rw [hu, hw]
        · rw [if_pos hu] at e1; rw [if_neg hw] at e2
          cases e1
          have := (h.a.wait w d2 _ e2).2.1
          omega
        · rw [if_neg hu] at e1; rw [if_pos hw] at e2
          cases e2
          have := (h.a.wait u d1 _ e1).2.1
          omega
        · rw [if_neg hu] at e1; rw [if_neg hw] at e2
          exact h.a.apart u w d1 d2 id e1 e2
      · intro u
        simp only [goto]
        by_cases hu : u = t
        · subst hu
          rw [if_pos rfl]
          exact hB.move nofun nofun (fun k _ => hsame k) nofun nofun
        · rw [if_neg hu]; exact h.b u
    | set key val =>
      dsimp only
      cases hk : klook s.keys key with
      | none =>
        dsimp only
        refine h.keep t [.wasSet t key val false] rfl rfl rfl ?_ ?_ (fun _ _ => rfl) (fun _ _ => rfl) ?_ ?_ ?_
        · rintro k d ⟨u, hu⟩; simp at hu
        · intro e he; simp at he; subst he; rfl
        · intro d i e; simp only [say] at e; rw [hpc] at e; cases e
        · simp only [say]; rw [hpc]; exact hB.answer (.inl rfl) _ (.inr ⟨_, _, rfl⟩)
        · refine h.good.snoc ⟨nofun, ?_⟩
          rintro ⟨d, hd⟩
          have := (h.a.keys key d).2 hd
          rw [hk] at this; cases this
      | some d =>
        have hkn := (h.a.keys key d).1 hk
        dsimp only
        cases hpo : s.pool t with
        | none =>
          dsimp only
          refine h.keep t [] rfl rfl (by simp [goto, setPool]) quiet_nil nofun (fun u hu => by simp [goto, setPool, hu]) (fun u hu => by simp [goto, setPool, hu]) (by intro d i e; simp [goto] at e) ?_ (by simpa using h.good)
          rw [hpo] at hB
          simp only [goto, setPool, if_true, List.append_nil]
          refine hB.move ?_ nofun (fun k _ => ?_) nofun nofun
          · intro k v d' e; cases e; exact hkn
          · have := hsame k
            rw [hpo] at this; exact this
        | some st =>
          dsimp only
          refine h.keep t [] rfl rfl (by simp [goto]) quiet_nil nofun (fun u hu => by simp [goto, hu]) (fun u hu => by simp [goto]) (by intro d i e; simp [goto] at e) ?_ (by simpa using h.good)
          simp only [goto, if_true, List.append_nil]
          refine hB.move ?_ nofun (fun k _ => hsame k) nofun nofun
          intro k v d' e; cases e; exact hkn
    | get key =>
      dsimp only
      cases hpo : s.pool t with
      | none =>
        dsimp only
        refine h.keep t [.got t key 0] rfl rfl rfl ?_ ?_ (fun _ _ => rfl) (fun _ _ => rfl) ?_ ?_ ?_
        · rintro k d ⟨u, hu⟩; simp at hu
        · intro e he; simp at he; subst he; rfl
        · intro d i e; simp only [say] at e; rw [hpc] at e; cases e
        · simp only [say]; rw [hpc]; exact hB.answer (.inl rfl) _ (.inl ⟨_, _, rfl⟩)
        · have := hsame key
          refine h.good.snoc ⟨?_, fun d hd => ?_⟩
          · rw [← this, hpo]; rfl
          · rw [← this]; exact hB.count key d hd
      | some st =>
        dsimp only
        refine h.keep t [] rfl rfl (by simp [goto]) quiet_nil nofun (fun u hu => by simp [goto, hu]) (fun u hu => by simp [goto]) (by intro d i e; simp [goto] at e) ?_ (by simpa using h.good)
        simp only [goto, if_true, List.append_nil]
        exact hB.move nofun nofun (fun k _ => hsame k) nofun nofun
    | purge =>
      dsimp only
      cases hpo : s.pool t with
      | none =>
        dsimp only
        refine h.keep t [.purged t] rfl rfl rfl ?_ ?_ (fun _ _ => rfl) (fun _ _ => rfl) ?_ ?_ ?_
        · rintro k d ⟨u, hu⟩; simp at hu
        · intro e he; simp at he; subst he; rfl
        · intro d i e; simp only [say] at e; rw [hpc] at e; cases e
        · simp only [say]
          rw [hpc, hpo]
          rw [hpo] at hB
          exact hB.purged rfl
        · refine h.good.snoc fun k d hd => ?_
          have := hB.count k d hd
          rw [hpo] at this
          simpa [valOf, slook] using this
      | some st =>
        dsimp only
        refine h.keep t [] rfl rfl (by simp [goto]) quiet_nil nofun (fun u hu => by simp [goto, hu]) (fun u hu => by simp [goto]) (by intro d i e; simp [goto] at e) ?_ (by simpa using h.good)
        simp only [goto, if_true, List.append_nil]
        exact hB.move nofun nofun (fun k e => by simp at e) nofun nofun
  | create2 d id =>
    rw [hpc] at hB
    dsimp only
    obtain ⟨h1, h2, h3⟩ := h.a.wait t d id hpc
    refine ⟨⟨Nat.le_succ_of_le h.a.bound, ?_, ?_, ?_, ?_⟩, ?_, h.good.snoc ⟨by omega, h3⟩⟩
    · intro i d'
      simp only [say, goto]
      rw [klook_cons, known_created]
      dsimp only
      by_cases hi : id = i
      · subst hi
        rw [if_pos rfl]
        constructor
        · intro e; cases e; exact .inr ⟨rfl, rfl⟩
        · rintro (e | ⟨_, rfl⟩)
          · exact absurd e (h3 _)
          · rfl
      · rw [if_neg hi, h.a.keys i d']
        exact ⟨.inl, fun e => e.elim (fun x => x) fun x => absurd x.1.symm hi⟩
    · intro i d' e
      simp only [say, goto] at e ⊢
      rcases known_created.1 e with e | ⟨rfl, _⟩
      · exact h.a.range i d' e
      · exact ⟨h1, h2⟩
    · intro u d' i e
      simp only [say, goto] at e ⊢
      by_cases hu : u = t
      · rw [if_pos hu] at e; cases e
      · rw [if_neg hu] at e
        obtain ⟨g1, g2, g3⟩ := h.a.wait u d' i e
        refine ⟨g1, g2, fun d'' x => ?_⟩
        rcases known_created.1 x with x | ⟨rfl, _⟩
        · exact g3 _ x
        · exact hu (h.a.apart u t d' d i e hpc)
    · intro u w d1 d2 i e1 e2
      simp only [say, goto] at e1 e2
      by_cases hu : u = t
      · rw [if_pos hu] at e1; cases e1
      · by_cases hw : w = t
        · rw [if_pos hw] at e2; cases e2
        · rw [if_neg hu] at e1; rw [if_neg hw] at e2
          exact h.a.apart u w d1 d2 i e1 e2
    · intro u
      simp only [say, goto]
      by_cases hu : u = t
      · subst hu
        rw [if_pos rfl]
        refine B.created ?_ h3
        exact hB.move nofun nofun (fun k _ => hB.same (.inr (.inl ⟨_, _, rfl⟩)) k) nofun nofun
      · rw [if_neg hu]
        exact (h.b u).created h3
  | set2 key val d =>
    rw [hpc] at hB
    have hsame := hB.same (.inr (.inr (.inl ⟨_, _, _, rfl⟩)))
    have hkn := hB.key2 key val d rfl
    dsimp only
    by_cases hv : val = 0
    · rw [if_pos hv]
      refine h.keep t (destroyAt t key ((s.pool t).getD [])) rfl rfl rfl (destroyAt_quiet _ _ _) (destroyAt_thread _ _ _) (fun u hu => by simp [say, goto, setPool, hu]) (fun u hu => by simp [say, goto, setPool, hu])
        (by intro d i e; simp [say, goto] at e) ?_ (destroyAt_good hB h.good)
      simp only [say, goto, setPool, if_true, Option.getD_some]
      refine hB.del key uq ?_ (by simp) ?_ nofun
      · intro k v d' e; cases e; exact hkn
      · intro key' v d' e k
        cases e
        unfold valOf
        rw [slook_sdel]
        by_cases hk : k = key
        · simp [hk, hv]
        · rw [if_neg hk, if_neg (fun e => hk e.1)]
          exact hsame k
    · rw [if_neg hv]
      refine h.keep t [] rfl rfl (by simp [goto]) quiet_nil nofun (fun u hu => by simp [goto, hu]) (fun u hu => by simp [goto]) (by intro d i e; simp [goto] at e) ?_ (by simpa using h.good)
      simp only [goto, if_true, List.append_nil]
      refine hB.move nofun ?_ (fun k e => by simp at e) ?_ nofun
      · intro k v d' e; cases e; exact hkn
      · intro key' v d' e k
        cases e
        rw [if_neg (fun e => hv e.2)]
        exact hsame k
  | set3 key val d =>
    rw [hpc] at hB
    dsimp only
    refine h.keep t (destroyAt t key ((s.pool t).getD []) ++ [.wasSet t key val true]) rfl rfl rfl ?_ ?_ (fun u hu => by simp [say, goto, setPool, hu]) (fun u hu => by simp [say, goto, setPool, hu])
        (by intro d i e; simp [say, goto] at e) ?_ ?_
    · intro k d hk
      rcases known_append.1 hk with hk | ⟨u, hu⟩
      · exact destroyAt_quiet _ _ _ k d hk
      · simp at hu
    · intro e he
      rcases List.mem_append.1 he with he | he
      · exact destroyAt_thread _ _ _ e he
      · simp at he; subst he; rfl
    · simp only [say, goto, setPool, if_true, Option.getD_some]
      exact hB.ins uq
    · rw [← List.append_assoc]
      refine (destroyAt_good hB h.good).snoc ⟨fun _ => ⟨d, known_append.2 (.inl (hB.key3 key val d rfl))⟩, fun _ => rfl⟩
  | get2 key =>
    rw [hpc] at hB
    have hsame := hB.same (.inr (.inr (.inr ⟨_, rfl⟩)))
    dsimp only
    refine h.keep t [.got t key (((slook ((s.pool t).getD []) key).map (·.val)).getD 0)] rfl rfl rfl ?_ ?_ (fun u hu => by simp [say, goto, hu]) (fun u hu => by simp [say, goto])
        (by intro d i e; simp [say, goto] at e) ?_ ?_
    · rintro k d ⟨u, hu⟩; simp at hu
    · intro e he; simp at he; subst he; rfl
    · simp only [say, goto, if_true]
      exact hB.answer (.inr ⟨_, rfl⟩) _ (.inl ⟨_, _, rfl⟩)
    · have := hsame key
      refine h.good.snoc ⟨?_, fun d hd => ?_⟩
      · rw [← this]; rfl
      · rw [← this]; exact hB.count key d hd
  | purge2 =>
    rw [hpc] at hB
    dsimp only
    refine h.keep t [] rfl rfl (by simp [goto]) quiet_nil nofun (fun u hu => by simp [goto, hu]) (fun u hu => by simp [goto]) (by intro d i e; simp [goto] at e) ?_ (by simpa using h.good)
    simp only [goto, if_true, List.append_nil]
    refine hB.move nofun nofun (fun k e => by simp at e) nofun ?_
    intro ks e k hk
    cases e
    cases hs : slook ((s.pool t).getD []) k with
    | none => rw [hs] at hk; cases hk
    | some v => exact List.mem_map.2 ⟨_, slook_mem hs, rfl⟩
  | purge3 ks =>
    rw [hpc] at hB
    cases ks with
    | cons k ks =>
      dsimp only
      refine h.keep t (destroyAt t k ((s.pool t).getD [])) rfl rfl rfl (destroyAt_quiet _ _ _) (destroyAt_thread _ _ _) (fun u hu => by simp [say, goto, setPool, hu]) (fun u hu => by simp [say, goto, setPool, hu])
        (by intro d i e; simp [say, goto] at e) ?_ (destroyAt_good hB h.good)
      simp only [say, goto, setPool, if_true, Option.getD_some]
      refine hB.del k uq nofun (by simp) nofun ?_
      intro ks' e k' hk'
      cases e
      rw [slook_sdel] at hk'
      split at hk'
      · cases hk'
      · rename_i hne
        have := hB.left _ rfl k' hk'
        rcases List.mem_cons.1 this with rfl | h'
        · exact absurd rfl hne
        · exact h'
    | nil =>
      dsimp only
      have h0 : (s.pool t).getD [] = [] := by
        apply slook_none
        intro k
        cases hs : slook ((s.pool t).getD []) k with
        | none => rfl
        | some v => exact absurd (hB.left _ rfl k (by rw [hs]; rfl)) (by simp)
      rw [h0] at hB ⊢
      refine h.keep t [.purged t] rfl rfl (by simp [say, goto, setPool]) ?_ ?_ (fun u hu => by simp [say, goto, setPool, hu]) (fun u hu => by simp [say, goto, setPool, hu])
        (by intro d i e; simp [say, goto] at e) ?_ ?_
      · rintro k d ⟨u, hu⟩; simp at hu
      · intro e he; simp at he; subst he; rfl
      · simp only [say, goto, setPool, if_true, Option.getD_none]
        exact hB.purged rfl
      · refine h.good.snoc fun k d hd => ?_
        have := hB.count k d hd
        simpa [valOf, slook] using this

theorem inv_run (l : List (Nat × Call)) : ∀ n s, Inv n s → n + l.length < W → Inv (n + l.length) (l.foldl (fun s p => step s p.1 p.2) s) := by
  induction l with
  | nil => intro n s h _; exact h
  | cons p l ih =>
    intro n s h hn
    rw [List.length_cons] at hn
    have := ih (n + 1) _ (inv_step h (by omega) p.1 p.2) (by omega)
    rw [List.length_cons, List.foldl_cons, show n + (l.length + 1) = n + 1 + l.length by omega]
    exact this

theorem inv_exec (l : List (Nat × Call)) (h : l.length < W) : Inv l.length (exec l) := by
  have := inv_run l 0 init inv_init (by omega)
  rw [Nat.zero_add] at this
  exact this

end Verif.ThreadLocal
