import Verif.Re.Sound
/-! The match reported is the leftmost, and the longest among those that start there. -/
namespace Verif.Re
open Verif.Utf8 (flat Good utf8)

/-- The value of tag 0. -/
abbrev tag0 (tg : List Int) : Int := tg.getD 0 0

theorem tagOrder_le {small : List Bool} (hs : small[0]? = some true) {t1 t2 : List Int}
    (h : tagOrder small t1 t2 = true) : tag0 t1 ≤ tag0 t2 ∧ (t1.length = 1 → tag0 t1 < tag0 t2) := by
  cases small with
  | nil => simp at hs
  | cons d ds =>
    simp at hs
    subst hs
    cases t1 with
    | nil => simp [tagOrder] at h
    | cons a t1 =>
      cases t2 with
      | nil => simp [tagOrder] at h
      | cons b t2 =>
        simp only [tagOrder, if_true] at h
        simp only [tag0, List.getD_cons_zero, List.length_cons]
        by_cases h1 : a < b
        · omega
        · rw [if_neg h1] at h
          by_cases h2 : a > b
          · rw [if_pos h2] at h; exact absurd h (by simp)
          · rw [if_neg h2] at h
            refine ⟨by omega, fun hl => ?_⟩
            cases t1 with
            | nil => cases ds <;> simp [tagOrder] at h
            | cons _ _ => simp at hl

/-- The first of the paths that arrive at a state has the smallest start. -/
structure BInv (t : Tnfa) (pos : Nat) (m0 : Best) (C : List (Nat × List Int)) (acc : List Ent × Best) : Prop where
  base : AInv t pos m0 C acc
  sorted : acc.1.Pairwise fun a b => tag0 a.tags ≤ tag0 b.tags
  low : ∀ c ∈ C, ∃ e ∈ acc.1, e.st = c.1 ∧ tag0 e.tags ≤ tag0 c.2
  best : (acc.2 = m0 ∧ ∀ tg, (t.final, tg) ∈ C → m0.eo ≠ none ∧ tag0 m0.tags < tag0 tg) ∨
    (∃ tg, (t.final, tg) ∈ C ∧ acc.2 = ⟨some pos, tg, true⟩ ∧ (m0.eo ≠ none → tag0 tg ≤ tag0 m0.tags) ∧
      ∀ tg', (t.final, tg') ∈ C → tag0 tg ≤ tag0 tg')

theorem nodup_eq {r : List Ent} (hn : (r.map (·.st)).Nodup) {a b : Ent} (ha : a ∈ r) (hb : b ∈ r) (h : a.st = b.st) : a = b := by
  induction r with
  | nil => simp at ha
  | cons x r ih =>
    rw [List.map_cons, List.nodup_cons] at hn
    rcases List.mem_cons.1 ha with rfl | ha' <;> rcases List.mem_cons.1 hb with rfl | hb'
    · rfl
    · exact absurd (List.mem_map.2 ⟨b, hb', h.symm⟩) hn.1
    · exact absurd (List.mem_map.2 ⟨a, ha', h⟩) hn.1
    · exact ih hn.2 ha' hb'

theorem two_filter {α : Type} {p : α → Bool} {pre post : List α} {a b : α} (ha : a ∈ pre) (hp : p a = true) (hb : p b = true) :
    1 < ((pre ++ b :: post).filter p).length := by
  rw [List.filter_append, List.filter_cons, if_pos hb, List.length_append, List.length_cons]
  have : 0 < (pre.filter p).length := List.length_pos_iff.2 (fun h => by
    have := List.mem_filter.2 ⟨ha, hp⟩
    rw [h] at this; simp at this)
  omega

theorem BInv.arrive {t : Tnfa} {nt pos : Nat} {m0 : Best} {pre post : List (Nat × List Int)} {c : Nat × List Int}
    {acc : List Ent × Best} (h : BInv t pos m0 pre acc) (hnt : 0 < nt)
    (hsort : (pre ++ c :: post).Pairwise fun a b => tag0 a.2 ≤ tag0 b.2)
    (hlen : c.2.length = nt) (hsm : t.small[0]? = some true)
    (htie : nt = 1 ∨ ((pre ++ c :: post).filter fun x => x.1 == t.final).length ≤ 1) :
    BInv t pos m0 (pre ++ [c]) (Re.arrive t nt pos acc c.1 c.2) := by
  refine ⟨h.base.arrive c, ?_, ?_, ?_⟩ <;> obtain ⟨q, tg⟩ := c <;> simp only at hlen ⊢
  all_goals
    have hle : ∀ x ∈ pre, tag0 x.2 ≤ tag0 tg := fun x hx => (List.pairwise_append.1 hsort).2.2 x hx _ (List.mem_cons_self)
    have hleE : ∀ e ∈ acc.1, tag0 e.tags ≤ tag0 tg := fun e he => hle _ (h.base.from_c e he)
    have hput : has acc.1 q = true → tagOrder t.small tg (tagsOf acc.1 q) = true →
        (∀ e ∈ acc.1, e.st = q → tag0 e.tags = tag0 tg) := by
      intro hq ho e he hes
      have h1 := (tagOrder_le hsm ho).1
      have h2 := nodup_eq h.base.nodup he (tagsOf_mem hq) hes
      have h3 := hleE e he
      rw [h2] at h3 ⊢
      simp only at h3 ⊢
      omega
    have hfin : has acc.1 t.final = true → ∃ tg', (t.final, tg') ∈ pre := by
      intro hq
      obtain ⟨e, he, hes⟩ := has_iff.1 hq
      have := h.base.from_c e he
      rw [hes] at this
      exact ⟨_, this⟩
    unfold Re.arrive
    rcases hq : has acc.1 q with _ | _ <;> simp only [Bool.not_false, if_true, Bool.not_true, Bool.false_eq_true, if_false]
  · -- sorted, new
    rw [List.pairwise_append]
    refine ⟨h.sorted, by simp, ?_⟩
    intro a ha b hb
    rw [List.mem_singleton] at hb
    subst hb
    exact hleE a ha
  · split
    · next ho =>
      simp only
      unfold putTags
      rw [List.pairwise_map]
      refine h.sorted.imp_of_mem ?_
      intro a b ha hb hab
      have key : ∀ e ∈ acc.1, tag0 (if (e.st == q) = true then { e with tags := tg } else e).tags = tag0 e.tags := by
        intro e he
        by_cases hes : e.st = q
        · rw [if_pos (by simpa using hes)]; exact (hput hq ho e he hes).symm
        · rw [if_neg (by simpa using hes)]
      rw [key a ha, key b hb]
      exact hab
    · exact h.sorted
  · -- low, new
    intro c hc
    rw [List.mem_append, List.mem_singleton] at hc
    rcases hc with hc | rfl
    · obtain ⟨e, he, h1, h2⟩ := h.low c hc
      exact ⟨e, List.mem_append.2 (.inl he), h1, h2⟩
    · exact ⟨⟨q, tg⟩, by simp, rfl, Int.le_refl _⟩
  · intro c hc
    rw [List.mem_append, List.mem_singleton] at hc
    split
    · next ho =>
      simp only
      have key : ∀ e ∈ acc.1, ∃ e' ∈ putTags acc.1 q tg, e'.st = e.st ∧ tag0 e'.tags = tag0 e.tags := by
        intro e he
        refine ⟨_, List.mem_map.2 ⟨e, he, rfl⟩, ?_⟩
        by_cases hes : e.st = q
        · rw [if_pos (by simpa using hes)]; exact ⟨rfl, (hput hq ho e he hes).symm⟩
        · rw [if_neg (by simpa using hes)]; exact ⟨rfl, rfl⟩
      rcases hc with hc | rfl
      · obtain ⟨e, he, h1, h2⟩ := h.low c hc
        obtain ⟨e', he', h3, h4⟩ := key e he
        exact ⟨e', he', by rw [h3, h1], by rw [h4]; exact h2⟩
      · obtain ⟨e, he, hes⟩ := has_iff.1 hq
        obtain ⟨e', he', h3, h4⟩ := key e he
        exact ⟨e', he', by rw [h3, hes], by rw [h4]; exact hleE e he⟩
    · rcases hc with hc | rfl
      · exact h.low c hc
      · obtain ⟨e, he, hes⟩ := has_iff.1 hq
        exact ⟨e, he, hes, hleE e he⟩
  · -- best, new
    by_cases hf : q = t.final
    · subst hf
      have hno : ∀ tg', (t.final, tg') ∉ pre := by
        intro tg' hm
        have := h.base.all_c _ hm
        rw [hq] at this
        exact absurd this (by simp)
      have hb : acc.2 = m0 := by
        rcases h.best with ⟨hb, _⟩ | ⟨tg', h1, _⟩
        · exact hb
        · exact absurd h1 (hno tg')
      rw [hb]
      by_cases hcond : m0.eo = none ∨ (nt > 0 ∧ tg.getD 0 0 ≤ m0.tags.getD 0 0)
      · right
        rw [if_pos ⟨rfl, hcond⟩]
        refine ⟨tg, by simp, rfl, ?_, ?_⟩
        · intro hm; rcases hcond with h1 | h1
          · exact absurd h1 hm
          · exact h1.2
        · intro tg' hm
          rw [List.mem_append, List.mem_singleton] at hm
          rcases hm with hm | hm
          · exact absurd hm (hno tg')
          · rw [(Prod.mk.inj hm).2]; exact Int.le_refl _
      · left
        rw [if_neg (fun hh => hcond hh.2)]
        refine ⟨rfl, ?_⟩
        intro tg' hm
        rw [List.mem_append, List.mem_singleton] at hm
        rcases hm with hm | hm
        · exact absurd hm (hno tg')
        · rw [(Prod.mk.inj hm).2]
          refine ⟨fun hn => hcond (.inl hn), ?_⟩
          have : ¬ tg.getD 0 0 ≤ m0.tags.getD 0 0 := fun hn => hcond (.inr ⟨hnt, hn⟩)
          simp only [tag0]; omega
    · rw [if_neg (fun hh => hf hh.1)]
      have hmem : ∀ tg', (t.final, tg') ∈ pre ++ [(q, tg)] → (t.final, tg') ∈ pre := by
        intro tg' hm
        rw [List.mem_append, List.mem_singleton] at hm
        rcases hm with hm | hm
        · exact hm
        · exact absurd (Prod.mk.inj hm).1.symm hf
      rcases h.best with ⟨hb, h1⟩ | ⟨tg', h1, h2, h3, h4⟩
      · exact .inl ⟨hb, fun tg' hm => h1 tg' (hmem tg' hm)⟩
      · exact .inr ⟨tg', by simp [h1], h2, h3, fun tg'' hm => h4 tg'' (hmem tg'' hm)⟩
  · have hcarry : q ≠ t.final → ((acc.2 = m0 ∧ ∀ tg', (t.final, tg') ∈ pre ++ [(q, tg)] → m0.eo ≠ none ∧ tag0 m0.tags < tag0 tg') ∨
        (∃ tg', (t.final, tg') ∈ pre ++ [(q, tg)] ∧ acc.2 = ⟨some pos, tg', true⟩ ∧ (m0.eo ≠ none → tag0 tg' ≤ tag0 m0.tags) ∧
          ∀ tg'', (t.final, tg'') ∈ pre ++ [(q, tg)] → tag0 tg' ≤ tag0 tg'')) := by
      intro hf
      have hmem : ∀ tg', (t.final, tg') ∈ pre ++ [(q, tg)] → (t.final, tg') ∈ pre := by
        intro tg' hm
        rw [List.mem_append, List.mem_singleton] at hm
        rcases hm with hm | hm
        · exact hm
        · exact absurd (Prod.mk.inj hm).1.symm hf
      rcases h.best with ⟨hb, h1⟩ | ⟨tg', h1, h2, h3, h4⟩
      · exact .inl ⟨hb, fun tg' hm => h1 tg' (hmem tg' hm)⟩
      · exact .inr ⟨tg', by simp [h1], h2, h3, fun tg'' hm => h4 tg'' (hmem tg'' hm)⟩
    by_cases hf : q = t.final
    · subst hf
      split
      · next ho =>
        exfalso
        rcases htie with h1 | h1
        · have h2 := (tagOrder_le hsm ho).2 (by rw [hlen, h1])
          have h3 := hleE _ (tagsOf_mem hq)
          simp only at h3
          omega
        · obtain ⟨tg', hm⟩ := hfin hq
          have := two_filter (p := fun x : Nat × List Int => x.1 == t.final) (b := (t.final, tg)) (post := post) hm (by simp) (by simp)
          omega
      · obtain ⟨tg1, hm1⟩ := hfin hq
        have hle1 := hle _ hm1
        simp only at hle1
        rcases h.best with ⟨hb, h1⟩ | ⟨tg', h1, h2, h3, h4⟩
        · refine .inl ⟨hb, fun tg' hm => ?_⟩
          rw [List.mem_append, List.mem_singleton] at hm
          rcases hm with hm | hm
          · exact h1 tg' hm
          · rw [(Prod.mk.inj hm).2]
            have := h1 tg1 hm1
            exact ⟨this.1, by have := this.2; omega⟩
        · refine .inr ⟨tg', by simp [h1], h2, h3, fun tg'' hm => ?_⟩
          rw [List.mem_append, List.mem_singleton] at hm
          rcases hm with hm | hm
          · exact h4 tg'' hm
          · rw [(Prod.mk.inj hm).2]
            have := h4 tg1 hm1
            omega
    · split
      · exact hcarry hf
      · exact hcarry hf

theorem step_binv {alnum : Nat → Bool} {t : Tnfa} {nt : Nat} {x : At} {r : List Ent} {m : Best} (hnt : 0 < nt)
    (hsort : (live alnum t x r).Pairwise fun a b => tag0 a.2 ≤ tag0 b.2)
    (hlen : ∀ c ∈ live alnum t x r, c.2.length = nt) (hsm : t.small[0]? = some true)
    (htie : nt = 1 ∨ ((live alnum t x r).filter fun x => x.1 == t.final).length ≤ 1) :
    BInv t x.pos m (live alnum t x r) (step alnum t nt x r m) := by
  rw [step_eq]
  refine foldl_snoc_inv (P := BInv t x.pos m) _ ?_ ?_
  · exact ⟨⟨by simp, by simp, .inl rfl, by simp, fun h => h, by simp⟩, by simp, by simp, .inl ⟨rfl, by simp⟩⟩
  · intro pre a b post e h
    exact h.arrive hnt (by rw [← e]; exact hsort) (hlen a (by rw [e]; simp)) hsm (by rw [← e]; exact htie)

/-! ### The start tag -/

variable {alnum : Nat → Bool} {t : Tnfa} {w : List Nat}

theorem start_first (hst : StartTag t) {i j q : Nat} {h : List (List Nat × Nat)} (p : Path alnum t w i j q h) :
    ∃ ks r, h = (ks, i) :: r ∧ 0 ∈ ks ∧ ∀ x ∈ r, 0 ∉ x.1 := by
  induction p with
  | init _ ht _ => exact ⟨_, [], rfl, hst.init _ ht, by simp⟩
  | step _ ht _ _ _ _ ih =>
    obtain ⟨ks, r, rfl, h1, h2⟩ := ih
    refine ⟨ks, r ++ [_], by rw [List.cons_append], h1, ?_⟩
    intro x hx
    rw [List.mem_append, List.mem_singleton] at hx
    rcases hx with hx | rfl
    · exact h2 x hx
    · exact hst.later _ _ ht

theorem start_tag (hst : StartTag t) {nt i j q : Nat} {h : List (List Nat × Nat)} {tg : List Int}
    (p : Path alnum t w i j q h) (ht : Tg w nt h tg) (hnt : 0 < nt) : tag0 tg = off w i := by
  obtain ⟨ks, r, rfl, h1, h2⟩ := start_first hst p
  rcases ht.2 0 hnt with ⟨h3, ks', j', h4, e, h5, h6, h7⟩ | ⟨h3, _⟩
  · cases h3 with
    | nil =>
      simp only [List.nil_append, List.cons.injEq, Prod.mk.injEq] at e
      rw [show tag0 tg = tg.getD 0 0 from rfl, h7, e.1.2]
    | cons a h3 =>
      simp only [List.cons_append, List.cons.injEq] at e
      exact absurd h5 (h2 (ks', j') (by rw [e.2]; simp))
  · exact absurd h1 (h3 (ks, i) (by simp))

theorem live_sorted (hst : StartTag t) {nt j : Nat} {x : At} {r : List Ent} (hnt : 0 < nt) (hr : SoundR alnum t w nt j r)
    (hs : r.Pairwise fun a b => tag0 a.tags ≤ tag0 b.tags) :
    (live alnum t x r).Pairwise fun a b => tag0 a.2 ≤ tag0 b.2 := by
  have ht0 : ∀ e ∈ r, ∀ tr ∈ t.out e.st, tag0 (setTags x.pos tr.tags e.tags) = tag0 e.tags := by
    intro e he tr htr
    obtain ⟨i, h, _, htg⟩ := hr e he
    simp only [tag0]
    rw [setTags_get _ _ _ _ (by rw [htg.1]; exact hnt), if_neg (hst.later _ _ htr)]
  unfold live
  rw [List.pairwise_map]
  apply List.Pairwise.filter
  unfold cands
  rw [List.pairwise_flatMap]
  constructor
  · intro e he
    rw [List.pairwise_map]
    refine List.Pairwise.imp_of_mem (R := fun _ _ => True) ?_ (by simp [List.pairwise_iff_forall_sublist])
    intro a b ha hb _
    simp only
    rw [ht0 e he a ha, ht0 e he b hb]
    exact Int.le_refl _
  · refine hs.imp_of_mem ?_
    intro a b ha hb hab x hx y hy
    rw [List.mem_map] at hx hy
    obtain ⟨tr1, h1, rfl⟩ := hx
    obtain ⟨tr2, h2, rfl⟩ := hy
    simp only
    rw [ht0 a ha tr1 h1, ht0 b hb tr2 h2]
    exact hab

theorem one_live (hof : OneFinal t) {x : At} {r : List Ent} (hn : (r.map (·.st)).Nodup) :
    ((live alnum t x r).filter fun c => c.1 == t.final).length ≤ 1 := by
  obtain ⟨q0, h1, h2⟩ := hof
  have key : ((cands t r).filter fun c => c.2.dst == t.final).length ≤ 1 ∧
      ((∀ e ∈ r, e.st ≠ q0) → ((cands t r).filter fun c => c.2.dst == t.final).length = 0) := by
    induction r with
    | nil => simp [cands]
    | cons e r ih =>
      rw [List.map_cons, List.nodup_cons] at hn
      have ih := ih hn.2
      have ec : cands t (e :: r) = ((t.out e.st).map fun tr => (e.tags, tr)) ++ cands t r := rfl
      rw [ec, List.filter_append, List.length_append, List.filter_map, List.length_map]
      have e2 : ((t.out e.st).filter ((fun c : List Int × Trans => c.2.dst == t.final) ∘ fun tr => (e.tags, tr))) =
          (t.out e.st).filter fun tr => tr.dst == t.final := rfl
      rw [e2]
      by_cases hq : e.st = q0
      · have := ih.2 (fun e' he' hq' => hn.1 (List.mem_map.2 ⟨e', he', by rw [hq', hq]⟩))
        rw [hq]
        refine ⟨by omega, fun hh => absurd hq (hh e List.mem_cons_self)⟩
      · have e3 : (t.out e.st).filter (fun tr => tr.dst == t.final) = [] := by
          rw [List.filter_eq_nil_iff]
          intro tr htr
          simpa using h1 _ hq tr htr
        rw [e3]
        refine ⟨by simpa using ih.1, fun hh => ?_⟩
        have := ih.2 (fun e' he' => hh e' (List.mem_cons_of_mem _ he'))
        simpa using this
  refine Nat.le_trans ?_ key.1
  unfold live
  rw [List.filter_map, List.length_map, List.filter_filter]
  have : ∀ l : List (List Int × Trans), (l.filter fun a => ((fun c : Nat × List Int => c.1 == t.final) ∘ fun c : List Int × Trans => (c.2.dst, setTags x.pos c.2.tags c.1)) a &&
      (decide (a.2.lo ≤ (x.prev : Int) ∧ a.2.hi ≥ (x.prev : Int)) && asrOk alnum t.multiline x a.2.asr)).length ≤
      (l.filter fun c => c.2.dst == t.final).length := by
    intro l
    induction l with
    | nil => simp
    | cons a l ih =>
      rw [List.filter_cons, List.filter_cons]
      cases hd : (a.2.dst == t.final) with
      | false => simp only [Function.comp, hd, Bool.false_and, Bool.false_eq_true, if_false]; exact ih
      | true =>
        simp only [if_true, List.length_cons]
        split
        · rw [List.length_cons]; omega
        · omega
  exact this _

/-! ### The main loop -/

/-- The state of the matcher: sorted by start, complete as far as it matters, and the match recorded is the best so far. -/
structure Good2 (alnum : Nat → Bool) (t : Tnfa) (w : List Nat) (nt lim j : Nat) (r : List Ent) (m : Best) : Prop where
  sr : SoundR alnum t w nt j r
  sorted : r.Pairwise fun a b => tag0 a.tags ≤ tag0 b.tags
  nodup : (r.map (·.st)).Nodup
  before : ∀ e ∈ r, ∃ i h, i < lim ∧ Path alnum t w i j e.st h ∧ tag0 e.tags = off w i
  none : m.eo = Option.none → (∀ i q h, i < lim → Path alnum t w i j q h → ∃ e ∈ r, e.st = q ∧ tag0 e.tags ≤ off w i) ∧
    (∀ i j' h, i < lim → j' ≤ j → ¬ Path alnum t w i j' t.final h)
  some : m.eo ≠ Option.none → ∃ i0 j0 h0, m.eo = Option.some (off w j0) ∧ tag0 m.tags = off w i0 ∧ j0 ≤ j ∧
    Path alnum t w i0 j0 t.final h0 ∧
    (∀ i q h, i ≤ i0 → Path alnum t w i j q h → ∃ e ∈ r, e.st = q ∧ tag0 e.tags ≤ off w i) ∧
    (∀ i' j' h', j' ≤ j → Path alnum t w i' j' t.final h' → i0 < i' ∨ (i' = i0 ∧ j' ≤ j0))

section
variable (h0 : alnum 0 = false) (hg : Good w) (hst : StartTag t)
include h0 hg hst

theorem addInit_good {nt j : Nat} {r : List Ent} {m : Best} (hnt : 0 < nt) (hj : j ≤ w.length) (hm : m.eo = none)
    (h : Good2 alnum t w nt j j r m) :
    Good2 alnum t w nt (j + 1) j (addInit alnum t nt (here w j) (r, m)).1 (addInit alnum t nt (here w j) (r, m)).2 := by
  have hi := addInit_inv alnum t nt (here w j) (r, m)
  obtain ⟨r', e1, e2⟩ := hi.ext
  simp only at e1
  have hnew : ∀ e ∈ r', ∃ h, Path alnum t w j j e.st h ∧ Tg w nt h e.tags ∧ tag0 e.tags = off w j := by
    intro e he
    obtain ⟨hh, hp, ht⟩ := liveI_path h0 hg hj (e2 e he)
    exact ⟨hh, hp, ht, start_tag hst hp ht hnt⟩
  have hnone := h.none hm
  have hnofin : has r t.final = false := by
    cases hh : has r t.final with
    | false => rfl
    | true =>
      obtain ⟨e, he, hes⟩ := has_iff.1 hh
      obtain ⟨i', h', h2, h3, _⟩ := h.before e he
      rw [hes] at h3
      exact absurd h3 (hnone.2 i' j h' h2 (Nat.le_refl _))
  have hcomp : ∀ i q hh, i < j + 1 → Path alnum t w i j q hh →
      ∃ e ∈ (addInit alnum t nt (here w j) (r, m)).1, e.st = q ∧ tag0 e.tags ≤ off w i := by
    intro i q hh hlim hp
    by_cases hij : i < j
    · obtain ⟨e, he, h1, h2⟩ := hnone.1 i q hh hij hp
      exact ⟨e, by rw [e1]; exact List.mem_append.2 (.inl he), h1, h2⟩
    · have : i = j := by omega
      subst this
      obtain ⟨tg, htg⟩ := liveI_complete (nt := nt) h0 hg hp
      obtain ⟨e, he, hes⟩ := has_iff.1 (hi.all_c _ htg)
      refine ⟨e, he, hes, ?_⟩
      rw [e1] at he
      rcases List.mem_append.1 he with he | he
      · obtain ⟨i', _, h3, _, h5⟩ := h.before e he
        rw [h5]
        have := off_mono w (Nat.le_of_lt h3)
        omega
      · obtain ⟨_, _, _, h5⟩ := hnew e he
        rw [h5]; exact Int.le_refl _
  refine ⟨(addInit_sound h0 hg hj h.sr (fun p hp => by rw [hm] at hp; simp at hp)).1, ?_, hi.nodup h.nodup, ?_, ?_, ?_⟩
  · rw [e1, List.pairwise_append]
    refine ⟨h.sorted, ?_, ?_⟩
    · refine List.Pairwise.imp_of_mem (R := fun _ _ => True) ?_ (by simp [List.pairwise_iff_forall_sublist])
      intro a b ha hb _
      obtain ⟨_, _, _, h1⟩ := hnew a ha
      obtain ⟨_, _, _, h2⟩ := hnew b hb
      rw [h1, h2]; exact Int.le_refl _
    · intro a ha b hb
      obtain ⟨i', _, h3, _, h5⟩ := h.before a ha
      obtain ⟨_, _, _, h6⟩ := hnew b hb
      rw [h5, h6]
      have := off_mono w (Nat.le_of_lt h3)
      omega
  · intro e he
    rw [e1] at he
    rcases List.mem_append.1 he with he | he
    · obtain ⟨i', hh, h3, h4, h5⟩ := h.before e he
      exact ⟨i', hh, by omega, h4, h5⟩
    · obtain ⟨hh, h3, _, h5⟩ := hnew e he
      exact ⟨j, hh, by omega, h3, h5⟩
  · intro hn
    refine ⟨hcomp, ?_⟩
    intro i j' hh hlim hj' hp
    by_cases hij : i < j
    · exact hnone.2 i j' hh hij hj' hp
    · have h1 := hp.le
      have : i = j := by omega
      subst this
      have : j' = i := by omega
      subst this
      obtain ⟨tg, htg⟩ := liveI_complete (nt := nt) h0 hg hp
      exact hi.found hnofin tg htg hn
  · intro hn
    rcases hi.best with hb | ⟨tg, h1, _, h2⟩
    · rw [hb] at hn; exact absurd hm hn
    · obtain ⟨hh, hp, ht⟩ := liveI_path h0 hg hj h1
      have hs := start_tag hst hp ht hnt
      refine ⟨j, j, hh, by rw [h2]; rfl, by rw [h2]; exact hs, Nat.le_refl _, hp, ?_, ?_⟩
      · intro i q hh' hle hp'
        exact hcomp i q hh' (by omega) hp'
      · intro i' j' h' hj' hp'
        have := hp'.le
        by_cases hij : i' < j
        · exact absurd hp' (hnone.2 i' j' h' hij hj')
        · right; omega

theorem step_good {nt j : Nat} {r : List Ent} {m : Best} (hnt : 0 < nt) (htie : nt = 1 ∨ OneFinal t)
    (hj : j < w.length) (h : Good2 alnum t w nt (j + 1) j r m) :
    Good2 alnum t w nt (j + 1) (j + 1) (step alnum t nt (here w (j + 1)) r m).1 (step alnum t nt (here w (j + 1)) r m).2 := by
  have hb := step_binv (alnum := alnum) (t := t) (nt := nt) (x := here w (j + 1)) (r := r) (m := m) hnt
    (live_sorted hst hnt h.sr h.sorted)
    (by
      rintro ⟨q, tg⟩ hc
      obtain ⟨_, _, _, ht⟩ := live_path h0 hg h.sr hj hc
      exact ht.1)
    hst.small (htie.imp_right fun hof => one_live hof h.nodup)
  have hsr : SoundR alnum t w nt (j + 1) (step alnum t nt (here w (j + 1)) r m).1 := by
    intro e he
    exact live_path h0 hg h.sr hj (hb.base.from_c e he)
  -- every path from a start that is followed gives a candidate that starts no later
  have hcand : ∀ i q hh, (∀ q' h', Path alnum t w i j q' h' → ∃ e ∈ r, e.st = q' ∧ tag0 e.tags ≤ off w i) → i ≤ j →
      Path alnum t w i (j + 1) q hh → ∃ tg, (q, tg) ∈ live alnum t (here w (j + 1)) r ∧ tag0 tg ≤ off w i := by
    intro i q hh hc hi hp
    cases hp with
    | init => omega
    | @step _ q' c h' tr hp ht hcc hlo hhi ha =>
      obtain ⟨e, he, hes, hle⟩ := hc q' h' hp
      have hl := (List.getElem?_eq_some_iff.1 hcc).1
      have hc' : (here w (j + 1)).prev = c := by simp [here, prevAt, hcc]
      refine ⟨_, mem_live.2 ⟨e, he, tr, by rw [hes]; exact ht, by rw [hc']; exact hlo, by rw [hc']; exact hhi,
        (asrOk_iff h0 hg (by omega)).2 ha, rfl, rfl⟩, ?_⟩
      obtain ⟨_, _, _, htg⟩ := h.sr e he
      simp only [tag0]
      rw [setTags_get _ _ _ _ (by rw [htg.1]; exact hnt), if_neg (hst.later _ _ ht)]
      exact hle
  have hfollow : ∀ i q hh, (∀ q' h', Path alnum t w i j q' h' → ∃ e ∈ r, e.st = q' ∧ tag0 e.tags ≤ off w i) → i ≤ j →
      Path alnum t w i (j + 1) q hh →
      ∃ e ∈ (step alnum t nt (here w (j + 1)) r m).1, e.st = q ∧ tag0 e.tags ≤ off w i := by
    intro i q hh hc hi hp
    obtain ⟨tg, h1, h2⟩ := hcand i q hh hc hi hp
    obtain ⟨e, he, hes, h3⟩ := hb.low _ h1
    exact ⟨e, he, hes, by simp only at h3; omega⟩
  refine ⟨hsr, hb.sorted, hb.base.nodup, ?_, ?_, ?_⟩
  · intro e he
    obtain ⟨i, hh, hp⟩ := step_lt h0 hg (nt := nt) (m := m) hj h.sr e he
    obtain ⟨i2, h2, hp2, ht2⟩ := hsr e he
    have hs2 := start_tag hst hp2 ht2 hnt
    -- the entry's own path starts before the character just read
    obtain ⟨e', he', tr, htr, a1, a2, a3, a4, a5⟩ := mem_live.1 (hb.base.from_c e he)
    obtain ⟨i3, h3, b1, b2, b3⟩ := h.before e' he'
    obtain ⟨_, _, _, htg⟩ := h.sr e' he'
    have hc : w[j]? = some (prevAt w (j + 1)) := by simp only [prevAt]; rw [List.getElem?_eq_getElem hj]; rfl
    refine ⟨i3, h3 ++ [(tr.tags, j + 1)], b1, ?_, ?_⟩
    · rw [a4]; exact .step b2 htr hc a1 a2 ((asrOk_iff h0 hg (by omega)).1 a3)
    · rw [a5]; simp only [tag0]
      rw [setTags_get _ _ _ _ (by rw [htg.1]; exact hnt), if_neg (hst.later _ _ htr)]
      exact b3
  · intro hn
    have hm : m.eo = Option.none := by
      cases hm : m.eo with
      | none => rfl
      | some p => exact absurd hn (hb.base.keep (by rw [hm]; simp))
    have h1 := h.none hm
    refine ⟨fun i q hh hlim hp => hfollow i q hh (fun q' h' hp' => h1.1 i q' h' hlim hp') (by omega) hp, ?_⟩
    intro i j' hh hlim hj' hp
    by_cases hle : j' ≤ j
    · exact h1.2 i j' hh hlim hle hp
    · have : j' = j + 1 := by omega
      subst this
      obtain ⟨tg, htg, _⟩ := hcand i _ hh (fun q' h' hp' => h1.1 i q' h' hlim hp') (by omega) hp
      exact hb.base.found hm tg htg hn
  · intro hn
    rcases hb.best with ⟨e, hall⟩ | ⟨tg, k1, k2, k3, k4⟩
    · rw [e] at hn ⊢
      obtain ⟨i0, j0, hh0, a1, a2, a3, a4, a5, a6⟩ := h.some hn
      have hl0 := a4.le
      refine ⟨i0, j0, hh0, a1, a2, by omega, a4, ?_, ?_⟩
      · intro i q hh hi hp
        exact hfollow i q hh (fun q' h' hp' => a5 i q' h' hi hp') (by omega) hp
      · intro i' j' h' hj' hp'
        by_cases hle : j' ≤ j
        · exact a6 i' j' h' hle hp'
        · left
          have : j' = j + 1 := by omega
          subst this
          apply Classical.byContradiction
          intro hlt
          obtain ⟨tg, htg, hle'⟩ := hcand i' _ h' (fun q' h'' hp'' => a5 i' q' h'' (by omega) hp'') (by omega) hp'
          have h2 := (hall tg htg).2
          rw [a2] at h2
          have := off_mono w (show i' ≤ i0 by omega)
          omega
    · rw [k2]
      obtain ⟨i0, hh0, hp0, ht0⟩ := live_path h0 hg h.sr hj k1
      have hs0 := start_tag hst hp0 ht0 hnt
      have hl0 := hp0.le
      -- the start of the new match is at most the place reached before
      have hi0 : i0 ≤ j := by
        obtain ⟨e', he', tr, htr, a1, a2, a3, a4, a5⟩ := mem_live.1 k1
        obtain ⟨i3, h3, b1, b2, b3⟩ := h.before e' he'
        obtain ⟨_, _, _, htg⟩ := h.sr e' he'
        have : tag0 tg = off w i3 := by
          rw [a5]; simp only [tag0]
          rw [setTags_get _ _ _ _ (by rw [htg.1]; exact hnt), if_neg (hst.later _ _ htr)]
          exact b3
        have hl3 := b2.le
        have := off_inj (w := w) (i := i0) (j := i3) (by omega) (by omega) (by rw [this] at hs0; omega)
        omega
      -- what is followed so far
      have hfol : ∀ i, i ≤ i0 → ∀ q' h', Path alnum t w i j q' h' → ∃ e ∈ r, e.st = q' ∧ tag0 e.tags ≤ off w i := by
        intro i hi q' h' hp'
        cases hm : m.eo with
        | none => exact (h.none hm).1 i q' h' (by omega) hp'
        | some p =>
          obtain ⟨i1, j1, hh1, a1, a2, a3, a4, a5, a6⟩ := h.some (by rw [hm]; simp)
          have h5 := k3 (by rw [hm]; simp)
          rw [a2, hs0] at h5
          have hl1 := a4.le
          have := (off_le_iff (w := w) (i := i0) (j := i1) (by omega) (by omega)).1 (by omega)
          exact a5 i q' h' (by omega) hp'
      refine ⟨i0, j + 1, hh0, rfl, hs0, Nat.le_refl _, hp0, ?_, ?_⟩
      · intro i q hh hi hp
        exact hfollow i q hh (fun q' h' hp' => hfol i hi q' h' hp') (by omega) hp
      · intro i' j' h' hj' hp'
        have hl' := hp'.le
        by_cases hii : i0 < i'
        · exact .inl hii
        · right
          refine ⟨?_, hj'⟩
          apply Classical.byContradiction
          intro hne
          -- a match that starts earlier
          have hlt : i' < i0 := by omega
          by_cases hle : j' ≤ j
          · cases hm : m.eo with
            | none => exact (h.none hm).2 i' j' h' (by omega) hle hp'
            | some p =>
              obtain ⟨i1, j1, hh1, a1, a2, a3, a4, a5, a6⟩ := h.some (by rw [hm]; simp)
              have h5 := k3 (by rw [hm]; simp)
              rw [a2, hs0] at h5
              have hl1 := a4.le
              have := (off_le_iff (w := w) (i := i0) (j := i1) (by omega) (by omega)).1 (by omega)
              rcases a6 i' j' h' hle hp' with h6 | h6 <;> omega
          · have : j' = j + 1 := by omega
            subst this
            obtain ⟨tg', htg', hle'⟩ := hcand i' _ h' (fun q' h'' hp'' => hfol i' (by omega) q' h'' hp'') (by omega) hp'
            have h2 := k4 tg' htg'
            rw [hs0] at h2
            have := off_strict (w := w) hlt (by omega)
            omega

omit h0 hg hst in
/-- A path has a beginning that has read less. -/
theorem Path.prefix {i j q : Nat} {h : List (List Nat × Nat)} (p : Path alnum t w i j q h) :
    ∀ k, i ≤ k → k ≤ j → ∃ q' h', Path alnum t w i k q' h' := by
  induction p with
  | @init tr hi ht ha =>
    intro k h1 h2
    have : k = i := by omega
    subst this
    exact ⟨_, _, .init hi ht ha⟩
  | @step j q c h tr hp ht hc hlo hhi ha ih =>
    intro k h1 h2
    by_cases hk : k ≤ j
    · exact ih k h1 hk
    · have : k = j + 1 := by omega
      subst this
      exact ⟨_, _, .step hp ht hc hlo hhi ha⟩

theorem go_good {nt : Nat} (hnt : 0 < nt) (htie : nt = 1 ∨ OneFinal t) (hmin : t.minimals = []) : ∀ n j r m, j + n = w.length →
    Good2 alnum t w nt j j r m → ∀ eo tg, go alnum t nt (textOf (w.drop j)) (off w j) (prevAt w j) r m = .ok eo tg →
      ∃ i0 j0 h0, Path alnum t w i0 j0 t.final h0 ∧ eo = off w j0 ∧ tag0 tg = off w i0 ∧
        ∀ i' j' h', Path alnum t w i' j' t.final h' → i0 < i' ∨ (i' = i0 ∧ j' ≤ j0) := by
  have hweed : ∀ r m, weed t nt r m = (r, m) := by intro r m; unfold weed; rw [hmin]; simp
  intro n
  induction n with
  | zero =>
    intro j r m hj hG eo tg h
    have : j = w.length := by omega
    subst this
    rw [go_end] at h
    split at h
    · next hm =>
      have hA := addInit_good h0 hg hst hnt (Nat.le_refl _) hm hG
      obtain ⟨h1, h2⟩ := finish_ok h
      obtain ⟨i0, j0, hh, a1, a2, a3, a4, a5, a6⟩ := hA.some (by rw [h1]; simp)
      rw [h1] at a1
      exact ⟨i0, j0, hh, a4, Option.some.inj a1, by rw [← h2]; exact a2, fun i' j' h' hp' => a6 i' j' h' hp'.le.2 hp'⟩
    · next hm =>
      obtain ⟨h1, h2⟩ := finish_ok h
      obtain ⟨i0, j0, hh, a1, a2, a3, a4, a5, a6⟩ := hG.some hm
      rw [h1] at a1
      exact ⟨i0, j0, hh, a4, Option.some.inj a1, by rw [← h2]; exact a2, fun i' j' h' hp' => a6 i' j' h' hp'.le.2 hp'⟩
  | succ n ih =>
    intro j r m hj hG eo tg h
    have hl : j < w.length := by omega
    rw [go_ch (List.getElem?_eq_getElem hl)] at h
    split at h
    · next hbr =>
      have hr : r = [] := hbr.2.resolve_left (by omega)
      obtain ⟨h1, h2⟩ := finish_ok h
      obtain ⟨i0, j0, hh, a1, a2, a3, a4, a5, a6⟩ := hG.some hbr.1
      rw [h1] at a1
      refine ⟨i0, j0, hh, a4, Option.some.inj a1, by rw [← h2]; exact a2, fun i' j' h' hp' => ?_⟩
      by_cases hle : j' ≤ j
      · exact a6 i' j' h' hle hp'
      · by_cases hii : i0 < i'
        · exact .inl hii
        · exfalso
          have hl0 := a4.le
          obtain ⟨q', h'', hp''⟩ := hp'.prefix j (by omega) (by omega)
          obtain ⟨e, he, _⟩ := a5 i' q' h'' (by omega) hp''
          rw [hr] at he
          simp at he
    · rw [hweed] at h
      cases hm : m.eo with
      | none =>
        rw [if_pos hm] at h
        have hA := addInit_good h0 hg hst hnt (by omega) hm hG
        exact ih (j + 1) _ _ (by omega) (step_good h0 hg hst hnt htie hl hA) eo tg h
      | some p =>
        rw [if_neg (by rw [hm]; simp)] at h
        have hA : Good2 alnum t w nt (j + 1) j r m := by
          refine ⟨hG.sr, hG.sorted, hG.nodup, ?_, ?_, hG.some⟩
          · intro e he
            obtain ⟨i', hh, h3, h4, h5⟩ := hG.before e he
            exact ⟨i', hh, by omega, h4, h5⟩
          · intro hn; rw [hm] at hn; simp at hn
        exact ih (j + 1) _ _ (by omega) (step_good h0 hg hst hnt htie hl hA) eo tg h

end

end Verif.Re
