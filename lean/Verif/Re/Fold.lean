import Verif.Re.Lemmas
/-! The loops over transitions. -/
namespace Verif.Re
open Verif.Utf8 (flat Good utf8)

theorem setTags_length (pos : Nat) : ∀ ks tg, (setTags pos ks tg).length = tg.length := by
  intro ks
  induction ks with
  | nil => intro tg; rfl
  | cons k ks ih => intro tg; rw [setTags, ih]; split <;> simp

theorem setTags_get (pos : Nat) : ∀ ks tg k, k < tg.length →
    (setTags pos ks tg).getD k 0 = if k ∈ ks then (pos : Int) else tg.getD k 0 := by
  intro ks
  induction ks with
  | nil => intro tg k _; simp [setTags]
  | cons a ks ih =>
    intro tg k hk
    rw [setTags]
    have hl : (if a < tg.length then tg.set a (pos : Int) else tg).length = tg.length := by split <;> simp
    rw [ih _ k (by rw [hl]; exact hk)]
    by_cases h1 : k ∈ ks
    · simp [h1]
    · by_cases h2 : k = a
      · subst h2
        simp [h1, hk]
      · simp only [List.mem_cons, h1, h2, or_self, if_false]
        split
        · rw [List.getD_eq_getElem?_getD, List.getElem?_set_ne (by omega), ← List.getD_eq_getElem?_getD]
        · rfl

/-- The tags of an entry are those of a path. -/
def Tg (w : List Nat) (nt : Nat) (h : List (List Nat × Nat)) (tg : List Int) : Prop :=
  tg.length = nt ∧ ∀ k, k < nt → TagIs w h k (tg.getD k 0)

theorem Tg_init (w : List Nat) (nt : Nat) (ks : List Nat) (i : Nat) :
    Tg w nt [(ks, i)] (setTags (off w i) ks (List.replicate nt (-1))) := by
  refine ⟨by rw [setTags_length]; simp, fun k hk => ?_⟩
  rw [setTags_get _ _ _ _ (by simpa using hk)]
  by_cases h : k ∈ ks
  · rw [if_pos h]; exact .inl ⟨[], ks, i, [], rfl, h, by simp, rfl⟩
  · rw [if_neg h]
    refine .inr ⟨by simpa using h, ?_⟩
    rw [List.getD_eq_getElem?_getD, List.getElem?_replicate]; simp [hk]

theorem Tg_step {w : List Nat} {nt : Nat} {h : List (List Nat × Nat)} {tg : List Int} (ht : Tg w nt h tg) (ks : List Nat)
    (i : Nat) : Tg w nt (h ++ [(ks, i)]) (setTags (off w i) ks tg) := by
  refine ⟨by rw [setTags_length]; exact ht.1, fun k hk => ?_⟩
  rw [setTags_get _ _ _ _ (by rw [ht.1]; exact hk)]
  by_cases hm : k ∈ ks
  · rw [if_pos hm]; exact .inl ⟨h, ks, i, [], rfl, hm, by simp, rfl⟩
  · rw [if_neg hm]
    rcases ht.2 k hk with ⟨h1, ks', j, h2, rfl, h4, h5, h6⟩ | ⟨h1, h2⟩
    · refine .inl ⟨h1, ks', j, h2 ++ [(ks, i)], by simp, h4, ?_, h6⟩
      intro x hx
      rw [List.mem_append, List.mem_singleton] at hx
      rcases hx with hx | rfl
      · exact h5 x hx
      · exact hm
    · refine .inr ⟨?_, h2⟩
      intro x hx
      rw [List.mem_append, List.mem_singleton] at hx
      rcases hx with hx | rfl
      · exact h1 x hx
      · exact hm

theorem has_iff {r : List Ent} {q : Nat} : has r q = true ↔ ∃ e ∈ r, e.st = q := by simp [has]

theorem has_append {r : List Ent} {e : Ent} {q : Nat} : has (r ++ [e]) q = true ↔ has r q = true ∨ e.st = q := by
  simp [has]

theorem mem_putTags {r : List Ent} {q : Nat} {tg : List Int} {e : Ent} (h : e ∈ putTags r q tg) :
    (e ∈ r ∧ e.st ≠ q) ∨ (e = ⟨q, tg⟩ ∧ has r q = true) := by
  unfold putTags at h
  rw [List.mem_map] at h
  obtain ⟨e', he, h⟩ := h
  by_cases hq : e'.st = q
  · right
    rw [if_pos (by simpa using hq)] at h
    subst h
    refine ⟨?_, has_iff.2 ⟨e', he, hq⟩⟩
    rw [← hq]
  · left
    rw [if_neg (by simpa using hq)] at h
    subst h
    exact ⟨he, hq⟩

theorem putTags_st (r : List Ent) (q : Nat) (tg : List Int) : (putTags r q tg).map (·.st) = r.map (·.st) := by
  unfold putTags
  rw [List.map_map]
  apply List.map_congr_left
  intro e _
  simp only [Function.comp]
  split <;> rfl

theorem has_map {r : List Ent} {q : Nat} : has r q = true ↔ q ∈ r.map (·.st) := by
  rw [has_iff, List.mem_map]

theorem has_putTags {r : List Ent} {q q' : Nat} {tg : List Int} : has (putTags r q tg) q' = has r q' := by
  rw [Bool.eq_iff_iff, has_map, has_map, putTags_st]

theorem tagsOf_mem {r : List Ent} {q : Nat} (h : has r q = true) : (⟨q, tagsOf r q⟩ : Ent) ∈ r := by
  unfold tagsOf
  obtain ⟨e, he, hq⟩ := has_iff.1 h
  cases hf : r.find? (fun e => e.st == q) with
  | none => rw [List.find?_eq_none] at hf; exact absurd hq (by simpa using hf e he)
  | some e' =>
    have h1 := List.find?_some hf
    have h2 := List.mem_of_find?_eq_some hf
    have : e'.st = q := by simpa using h1
    simp only
    rw [← this]; exact h2

/-! ### Folding -/

theorem foldl_snoc_inv {α β : Type} {f : β → α → β} {P : List α → β → Prop} {b : β} (l : List α) (h0 : P [] b)
    (hs : ∀ pre a b post, l = pre ++ a :: post → P pre b → P (pre ++ [a]) (f b a)) : P l (l.foldl f b) := by
  have key : ∀ post pre b, l = pre ++ post → P pre b → P l (post.foldl f b) := by
    intro post
    induction post with
    | nil => intro pre b e h; rw [List.append_nil] at e; subst e; exact h
    | cons a post ih =>
      intro pre b e h
      rw [List.foldl_cons]
      exact ih (pre ++ [a]) (f b a) (by rw [e]; simp) (hs pre a b post e h)
  exact key l [] b rfl h0

/-- The transitions that can be taken, with the tags after them. -/
def live (alnum : Nat → Bool) (t : Tnfa) (x : At) (r : List Ent) : List (Nat × List Int) :=
  ((cands t r).filter fun c => decide (c.2.lo ≤ (x.prev : Int) ∧ c.2.hi ≥ (x.prev : Int)) && asrOk alnum t.multiline x c.2.asr).map
    fun c => (c.2.dst, setTags x.pos c.2.tags c.1)

theorem step_eq (alnum : Nat → Bool) (t : Tnfa) (nt : Nat) (x : At) (r : List Ent) (m : Best) :
    step alnum t nt x r m = (live alnum t x r).foldl (fun acc c => arrive t nt x.pos acc c.1 c.2) ([], m) := by
  unfold step live
  rw [List.foldl_map]
  generalize cands t r = l
  generalize (([], m) : List Ent × Best) = acc
  induction l generalizing acc with
  | nil => rfl
  | cons c l ih =>
    rw [List.foldl_cons, ih, List.filter_cons]
    unfold visit
    by_cases h1 : c.2.lo ≤ (x.prev : Int) ∧ c.2.hi ≥ (x.prev : Int)
    · cases h2 : asrOk alnum t.multiline x c.2.asr <;> simp [h1]
    · simp [h1]

theorem mem_live {alnum : Nat → Bool} {t : Tnfa} {x : At} {r : List Ent} {q : Nat} {tg : List Int} :
    (q, tg) ∈ live alnum t x r ↔ ∃ e ∈ r, ∃ tr ∈ t.out e.st, tr.lo ≤ x.prev ∧ (x.prev : Int) ≤ tr.hi ∧
      asrOk alnum t.multiline x tr.asr = true ∧ q = tr.dst ∧ tg = setTags x.pos tr.tags e.tags := by
  unfold live cands
  simp only [List.mem_map, List.mem_filter, List.mem_flatMap, Bool.and_eq_true, decide_eq_true_eq, Prod.mk.injEq]
  constructor
  · rintro ⟨c, ⟨⟨e, he, tr, htr, rfl⟩, ⟨h1, h2⟩, h3⟩, rfl, rfl⟩
    exact ⟨e, he, tr, htr, h1, h2, h3, rfl, rfl⟩
  · rintro ⟨e, he, tr, htr, h1, h2, h3, rfl, rfl⟩
    exact ⟨(e.tags, tr), ⟨⟨e, he, tr, htr, rfl⟩, ⟨h1, h2⟩, h3⟩, rfl, rfl⟩

/-- What the loop over transitions has done after some of them. -/
structure AInv (t : Tnfa) (pos : Nat) (m0 : Best) (C : List (Nat × List Int)) (acc : List Ent × Best) : Prop where
  from_c : ∀ e ∈ acc.1, (e.st, e.tags) ∈ C
  all_c : ∀ c ∈ C, has acc.1 c.1 = true
  best : acc.2 = m0 ∨ ∃ tg, (t.final, tg) ∈ C ∧ acc.2 = ⟨some pos, tg, true⟩
  found : m0.eo = none → ∀ tg, (t.final, tg) ∈ C → acc.2.eo ≠ none
  keep : m0.eo ≠ none → acc.2.eo ≠ none
  nodup : (acc.1.map (·.st)).Nodup

theorem AInv.arrive {t : Tnfa} {nt pos : Nat} {m0 : Best} {C : List (Nat × List Int)} {acc : List Ent × Best}
    (h : AInv t pos m0 C acc) (c : Nat × List Int) : AInv t pos m0 (C ++ [c]) (arrive t nt pos acc c.1 c.2) := by
  obtain ⟨q, tg⟩ := c
  simp only
  unfold Re.arrive
  cases hq : has acc.1 q with
  | false =>
    simp only [Bool.not_false, if_true]
    have hbest : acc.2 = m0 ∨ ∃ tg', (t.final, tg') ∈ C ++ [(q, tg)] ∧ acc.2 = ⟨some pos, tg', true⟩ := by
      rcases h.best with hb | ⟨tg', h1, h2⟩
      · exact .inl hb
      · exact .inr ⟨tg', by simp [h1], h2⟩
    refine ⟨?_, ?_, ?_, ?_, ?_, ?_⟩
    · intro e he
      simp only [List.mem_append, List.mem_singleton] at he ⊢
      rcases he with he | rfl
      · exact .inl (h.from_c e he)
      · exact .inr rfl
    · intro c hc
      simp only [List.mem_append, List.mem_singleton] at hc
      rw [has_append]
      rcases hc with hc | rfl
      · exact .inl (h.all_c c hc)
      · exact .inr rfl
    · simp only
      split
      · next hf => exact .inr ⟨tg, by simp [hf.1], rfl⟩
      · exact hbest
    · intro hm tg' htg'
      simp only
      split
      · simp
      · next hf =>
        rw [List.mem_append, List.mem_singleton] at htg'
        rcases htg' with h1 | h1
        · exact h.found hm tg' h1
        · obtain ⟨h2, -⟩ := Prod.mk.inj h1
          rcases h.best with hb | ⟨tg'', h3, h4⟩
          · exact absurd ⟨h2.symm, .inl (by rw [hb]; exact hm)⟩ hf
          · rw [h4]; simp
    · intro hm
      simp only
      split
      · simp
      · exact h.keep hm
    · simp only [List.map_append, List.map_cons, List.map_nil]
      rw [List.nodup_append]
      refine ⟨h.nodup, by simp, ?_⟩
      intro a ha b hb hab
      rw [List.mem_singleton] at hb
      subst hab hb
      have := has_map.2 ha
      rw [hq] at this
      exact absurd this (by simp)
  | true =>
    simp only [Bool.not_true, Bool.false_eq_true, if_false]
    have hbest : acc.2 = m0 ∨ ∃ tg', (t.final, tg') ∈ C ++ [(q, tg)] ∧ acc.2 = ⟨some pos, tg', true⟩ := by
      rcases h.best with hb | ⟨tg', h1, h2⟩
      · exact .inl hb
      · exact .inr ⟨tg', by simp [h1], h2⟩
    have hfound : m0.eo = none → ∀ tg', (t.final, tg') ∈ C ++ [(q, tg)] → acc.2.eo ≠ none := by
      intro hm tg' htg'
      rw [List.mem_append, List.mem_singleton] at htg'
      rcases htg' with h1 | h1
      · exact h.found hm tg' h1
      · obtain ⟨h2, -⟩ := Prod.mk.inj h1
        obtain ⟨e, he, hes⟩ := has_iff.1 hq
        have := h.from_c e he
        rw [hes, ← h2] at this
        exact h.found hm _ this
    split
    · refine ⟨?_, ?_, ?_, ?_, ?_, ?_⟩
      · intro e he
        simp only at he
        rcases mem_putTags he with ⟨h1, _⟩ | ⟨rfl, _⟩
        · exact List.mem_append.2 (.inl (h.from_c e h1))
        · simp
      · intro c hc
        simp only [List.mem_append, List.mem_singleton] at hc
        simp only
        rw [has_putTags]
        rcases hc with hc | rfl
        · exact h.all_c c hc
        · exact hq
      · simp only
        split
        · next hf => exact .inr ⟨tg, by simp [hf], rfl⟩
        · exact hbest
      · intro hm tg' htg'
        simp only
        split
        · simp
        · exact hfound hm tg' htg'
      · intro hm
        simp only
        split
        · simp
        · exact h.keep hm
      · simp only
        rw [putTags_st]; exact h.nodup
    · refine ⟨?_, ?_, hbest, hfound, h.keep, h.nodup⟩
      · intro e he; exact List.mem_append.2 (.inl (h.from_c e he))
      · intro c hc
        simp only [List.mem_append, List.mem_singleton] at hc
        rcases hc with hc | rfl
        · exact h.all_c c hc
        · exact hq

theorem step_inv (alnum : Nat → Bool) (t : Tnfa) (nt : Nat) (x : At) (r : List Ent) (m : Best) :
    AInv t x.pos m (live alnum t x r) (step alnum t nt x r m) := by
  rw [step_eq]
  refine foldl_snoc_inv (P := AInv t x.pos m) _ ?_ ?_
  · exact ⟨by simp, by simp, .inl rfl, by simp, fun h => h, by simp⟩
  · intro pre a b _ _ h
    exact h.arrive a

/-! ### The initial states -/

/-- The initial transitions that can be taken, with the tags after them. -/
def liveI (alnum : Nat → Bool) (t : Tnfa) (nt : Nat) (x : At) : List (Nat × List Int) :=
  (t.initial.filter fun tr => asrOk alnum t.multiline x tr.asr).map
    fun tr => (tr.dst, setTags x.pos tr.tags (List.replicate nt (-1)))

/-- One initial state. -/
def enter (t : Tnfa) (pos : Nat) (acc : List Ent × Best) (c : Nat × List Int) : List Ent × Best :=
  if has acc.1 c.1 then acc
  else (acc.1 ++ [⟨c.1, c.2⟩], if c.1 = t.final then ⟨some pos, c.2, true⟩ else acc.2)

theorem addInit_eq (alnum : Nat → Bool) (t : Tnfa) (nt : Nat) (x : At) (acc : List Ent × Best) :
    addInit alnum t nt x acc = (liveI alnum t nt x).foldl (enter t x.pos) acc := by
  unfold addInit liveI
  rw [List.foldl_map]
  generalize t.initial = l
  induction l generalizing acc with
  | nil => rfl
  | cons c l ih =>
    rw [List.foldl_cons, ih, List.filter_cons]
    unfold addInit1 enter
    cases h1 : has acc.1 c.dst <;> cases h2 : asrOk alnum t.multiline x c.asr <;> simp [h1]

theorem mem_liveI {alnum : Nat → Bool} {t : Tnfa} {nt : Nat} {x : At} {q : Nat} {tg : List Int} :
    (q, tg) ∈ liveI alnum t nt x ↔ ∃ tr ∈ t.initial, asrOk alnum t.multiline x tr.asr = true ∧ q = tr.dst ∧
      tg = setTags x.pos tr.tags (List.replicate nt (-1)) := by
  unfold liveI
  simp only [List.mem_map, List.mem_filter, Prod.mk.injEq]
  constructor
  · rintro ⟨tr, ⟨h1, h2⟩, rfl, rfl⟩; exact ⟨tr, h1, h2, rfl, rfl⟩
  · rintro ⟨tr, h1, h2, rfl, rfl⟩; exact ⟨tr, ⟨h1, h2⟩, rfl, rfl⟩

/-- What adding initial states has done after some of them. -/
structure IInv (t : Tnfa) (pos : Nat) (a0 : List Ent × Best) (C : List (Nat × List Int)) (acc : List Ent × Best) : Prop where
  ext : ∃ r, acc.1 = a0.1 ++ r ∧ ∀ e ∈ r, (e.st, e.tags) ∈ C
  all_c : ∀ c ∈ C, has acc.1 c.1 = true
  best : acc.2 = a0.2 ∨ ∃ tg, (t.final, tg) ∈ C ∧ has a0.1 t.final = false ∧ acc.2 = ⟨some pos, tg, true⟩
  found : has a0.1 t.final = false → ∀ tg, (t.final, tg) ∈ C → acc.2.eo ≠ none
  keep : a0.2.eo ≠ none → acc.2.eo ≠ none
  nodup : (a0.1.map (·.st)).Nodup → (acc.1.map (·.st)).Nodup

theorem IInv.enter {t : Tnfa} {pos : Nat} {a0 : List Ent × Best} {C : List (Nat × List Int)} {acc : List Ent × Best}
    (h : IInv t pos a0 C acc) (c : Nat × List Int) : IInv t pos a0 (C ++ [c]) (enter t pos acc c) := by
  obtain ⟨r, hr, hrC⟩ := h.ext
  have hbest : acc.2 = a0.2 ∨ ∃ tg', (t.final, tg') ∈ C ++ [c] ∧ has a0.1 t.final = false ∧ acc.2 = ⟨some pos, tg', true⟩ := by
    rcases h.best with hb | ⟨tg', h1, h2⟩
    · exact .inl hb
    · exact .inr ⟨tg', by simp [h1], h2⟩
  have hmono : ∀ q, has a0.1 q = true → has acc.1 q = true := by
    intro q hq
    rw [hr]
    obtain ⟨e, he, hes⟩ := has_iff.1 hq
    exact has_iff.2 ⟨e, List.mem_append.2 (.inl he), hes⟩
  unfold Re.enter
  cases hq : has acc.1 c.1 with
  | true =>
    simp only [if_true]
    refine ⟨⟨r, hr, fun e he => List.mem_append.2 (.inl (hrC e he))⟩, ?_, hbest, ?_, h.keep, h.nodup⟩
    · intro c' hc
      rw [List.mem_append, List.mem_singleton] at hc
      rcases hc with hc | rfl
      · exact h.all_c c' hc
      · exact hq
    · intro hf tg htg
      rw [List.mem_append, List.mem_singleton] at htg
      rcases htg with h1 | h1
      · exact h.found hf tg h1
      · rw [← h1] at hq
        rw [hr] at hq
        obtain ⟨e, he, hes⟩ := has_iff.1 hq
        simp only at hes
        rcases List.mem_append.1 he with h2 | h2
        · rw [has_iff.2 ⟨e, h2, hes⟩] at hf; exact absurd hf (by simp)
        · have := hrC e h2
          rw [hes] at this
          exact h.found hf _ this
  | false =>
    simp only [Bool.false_eq_true, if_false]
    refine ⟨⟨r ++ [⟨c.1, c.2⟩], by rw [hr]; simp, ?_⟩, ?_, ?_, ?_, ?_, ?_⟩
    · intro e he
      simp only [List.mem_append, List.mem_singleton] at he ⊢
      rcases he with he | rfl
      · exact .inl (hrC e he)
      · exact .inr rfl
    · intro c' hc
      rw [List.mem_append, List.mem_singleton] at hc
      rw [has_append]
      rcases hc with hc | rfl
      · exact .inl (h.all_c c' hc)
      · exact .inr rfl
    · simp only
      split
      · next hf =>
        refine .inr ⟨c.2, by simp [← hf], ?_, rfl⟩
        cases h0 : has a0.1 t.final with
        | false => rfl
        | true => rw [← hf] at h0; rw [hmono _ h0] at hq; exact absurd hq (by simp)
      · exact hbest
    · intro hf tg htg
      simp only
      split
      · simp
      · next hne =>
        rw [List.mem_append, List.mem_singleton] at htg
        rcases htg with h1 | h1
        · exact h.found hf tg h1
        · rw [← h1] at hne; exact absurd rfl hne
    · intro hm
      simp only
      split
      · simp
      · exact h.keep hm
    · intro hn
      simp only [List.map_append, List.map_cons, List.map_nil]
      rw [List.nodup_append]
      refine ⟨h.nodup hn, by simp, ?_⟩
      intro a ha b hb hab
      rw [List.mem_singleton] at hb
      subst hab hb
      have := has_map.2 ha
      rw [hq] at this
      exact absurd this (by simp)

theorem addInit_inv (alnum : Nat → Bool) (t : Tnfa) (nt : Nat) (x : At) (acc : List Ent × Best) :
    IInv t x.pos acc (liveI alnum t nt x) (addInit alnum t nt x acc) := by
  rw [addInit_eq]
  refine foldl_snoc_inv (P := IInv t x.pos acc) _ ?_ ?_
  · exact ⟨⟨[], by simp, by simp⟩, by simp, .inl rfl, by simp, fun h => h, fun h => h⟩
  · intro pre a b _ _ h
    exact h.enter a

end Verif.Re
