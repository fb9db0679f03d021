import Verif.Re.Api
/-! C114: searching with a compiled regular expression. -/
namespace Verif.Re
open Verif.Utf8 (flat Good)

/-! ### Automata for the examples

Each is an automaton for the pattern named; the tags are those that matter for the question. -/

/-- `b+` -/
def bPlus : Tnfa :=
  { trans := [[⟨98, 98, 0, [], 0⟩, ⟨98, 98, 1, [], 0⟩], []], initial := [⟨0, 0, 0, [0], 0⟩], final := 1, numTags := 1, small := [true],
    minimals := [], subs := [⟨0, 1, []⟩], endTag := 1, multiline := false }

/-- `b*` -/
def bStar : Tnfa := { bPlus with initial := [⟨0, 0, 0, [0], 0⟩, ⟨0, 0, 1, [0], 0⟩] }

/-- `a+?`: tag 1 is the end of the lazy repetition. -/
def aLazy : Tnfa :=
  { trans := [[⟨97, 97, 0, [], 0⟩, ⟨97, 97, 1, [1], 0⟩], []], initial := [⟨0, 0, 0, [0], 0⟩], final := 1, numTags := 2,
    small := [true, true], minimals := [(1, 0)], subs := [⟨0, 2, []⟩], endTag := 2, multiline := false }

/-- `zabc|(a|ab)(c|bcd)(d*)`: tag 1 is the end of the first group, the larger the better. -/
def groups : Tnfa :=
  { trans := [[⟨122, 122, 1, [], 0⟩], [⟨97, 97, 2, [], 0⟩], [⟨98, 98, 3, [], 0⟩], [⟨99, 99, 12, [], 0⟩],
      [⟨97, 97, 7, [1], 0⟩, ⟨97, 97, 8, [1], 0⟩], [⟨97, 97, 6, [], 0⟩], [⟨98, 98, 7, [1], 0⟩, ⟨98, 98, 8, [1], 0⟩],
      [⟨99, 99, 11, [], 0⟩, ⟨99, 99, 12, [], 0⟩], [⟨98, 98, 9, [], 0⟩], [⟨99, 99, 10, [], 0⟩],
      [⟨100, 100, 11, [], 0⟩, ⟨100, 100, 12, [], 0⟩], [⟨100, 100, 11, [], 0⟩, ⟨100, 100, 12, [], 0⟩], []],
    initial := [⟨0, 0, 0, [0], 0⟩, ⟨0, 0, 4, [0], 0⟩, ⟨0, 0, 5, [0], 0⟩], final := 12, numTags := 2, small := [true, false], minimals := [],
    subs := [⟨0, 2, []⟩], endTag := 2, multiline := false }

/-- `^b` -/
def bolB : Tnfa :=
  { trans := [[⟨98, 98, 1, [], 0⟩], []], initial := [⟨0, 0, 0, [0], 1⟩], final := 1, numTags := 1, small := [true],
    minimals := [], subs := [⟨0, 1, []⟩], endTag := 1, multiline := false }

/-- No letters: enough for the examples. -/
def noAlnum : Nat → Bool := fun _ => false

theorem good_ascii {w : List Nat} (h : ∀ c ∈ w, 0 < c ∧ c < 128) : Good w := by
  intro c hc
  have := h c hc
  refine ⟨⟨⟨by omega, by omega⟩, ?_⟩, by omega⟩
  unfold Utf8.NonChar
  omega

theorem out_ne {P : Trans → Prop} {l : List (List Trans)} (h : ∀ x ∈ l, ∀ tr ∈ x, P tr) (t : Tnfa) (e : t.trans = l) :
    ∀ q, ∀ tr ∈ t.out q, P tr := by
  intro q tr htr
  unfold Tnfa.out at htr
  cases hq : t.trans[q]? with
  | none => rw [hq] at htr; simp at htr
  | some x =>
    rw [hq] at htr
    exact h x (by rw [← e]; exact List.mem_of_getElem? hq) tr htr

theorem plain_bPlus : Plain bPlus :=
  ⟨⟨by decide, by decide, out_ne (l := bPlus.trans) (P := fun tr => 0 ∉ tr.tags) (by decide) _ rfl, rfl⟩, ⟨rfl, by decide⟩, rfl, .inl rfl⟩

theorem plain_bStar : Plain bStar :=
  ⟨⟨by decide, by decide, out_ne (l := bStar.trans) (P := fun tr => 0 ∉ tr.tags) (by decide) _ rfl, rfl⟩, ⟨rfl, by decide⟩, rfl, .inl rfl⟩

/-! ### Is there a match? -/

/-- **A search succeeds exactly when the pattern matches somewhere**, for every automaton, text, and bytes behind the text, whether or
not the submatches are asked for.  What is outside the string is never read. -/
theorem search_iff (alnum : Nat → Bool) (t : Tnfa) (want : Bool) (w : List Nat) (junk : List UInt8) (h0 : alnum 0 = false) (hg : Good w) :
    ∃ r, exec alnum t want (flat w ++ 0 :: junk) = some r ∧ (r ≠ none ↔ ∃ i j, Matches alnum t w i j) := by
  unfold exec
  rcases run_total (t := t) h0 hg (if want then t.numTags else 0) junk with ⟨eo, tg, h⟩ | ⟨h, hno⟩
  · simp only [h]
    obtain ⟨i, j, hh, hp, _⟩ := run_sound h0 hg h
    exact ⟨_, rfl, ⟨fun _ => ⟨i, j, hh, hp⟩, fun _ => by simp⟩⟩
  · simp only [h]
    exact ⟨_, rfl, ⟨fun hn => absurd rfl hn, fun ⟨i, j, hh, hp⟩ => absurd hp (hno i j hh)⟩⟩

example : exec noAlnum bPlus false [97, 98, 0] = some (some []) ∧ exec noAlnum bPlus true [97, 0, 98] = some none ∧ Good [97, 98] :=
  ⟨by decide +kernel, by decide +kernel, good_ascii (by decide)⟩

/-- **No string makes a search read outside it**, well-formed UTF-8 or not, as long as it has a terminating NUL. -/
theorem search_safe (alnum : Nat → Bool) (t : Tnfa) (want : Bool) (s : List UInt8) (hz : (0 : UInt8) ∈ s) :
    exec alnum t want s ≠ none := by
  unfold exec
  have := go_safe (alnum := alnum) (t := t) (nt := if want then t.numTags else 0) (scan (s.length + 1) s) 0 0 []
    ⟨none, List.replicate (if want then t.numTags else 0) (-1), false⟩ (scan_safe _ s hz (by omega))
  rcases h : run alnum t (if want then t.numTags else 0) s with _ | _ | _
  · simp [h]
  · simp [h]
  · exact absurd h this

example : exec noAlnum bPlus true [98, 0xE2, 0x82, 0] = some none := by decide +kernel

/-- **The lists of states fit their arrays.**  With `n` states, no list of states reached grows beyond `n` entries: a state is in a list
at most once, and so it stays. -/
theorem reach_fits (alnum : Nat → Bool) (t : Tnfa) (nt n : Nat) (x : At) (r : List Ent) (m : Best)
    (hi : ∀ tr ∈ t.initial, tr.dst < n) (ho : ∀ q, ∀ tr ∈ t.out q, tr.dst < n)
    (hr : (r.map (·.st)).Nodup ∧ ∀ e ∈ r, e.st < n) (r' : List Ent)
    (h : r' = (addInit alnum t nt x (r, m)).1 ∨ r' = (weed t nt r m).1 ∨ r' = (step alnum t nt x r m).1) :
    ((r'.map (·.st)).Nodup ∧ ∀ e ∈ r', e.st < n) ∧ r'.length ≤ n := by
  have hlen : ∀ l : List Ent, (l.map (·.st)).Nodup → (∀ e ∈ l, e.st < n) → l.length ≤ n := by
    intro l hn hb
    have := List.Nodup.length_le_of_subset (l₁ := l.map (·.st)) (l₂ := List.range n) hn (by
      intro q hq
      obtain ⟨e, he, rfl⟩ := List.mem_map.1 hq
      exact List.mem_range.2 (hb e he))
    simpa using this
  have key : (r'.map (·.st)).Nodup ∧ ∀ e ∈ r', e.st < n := by
    rcases h with rfl | rfl | rfl
    · have iv := addInit_inv alnum t nt x (r, m)
      refine ⟨iv.nodup hr.1, ?_⟩
      obtain ⟨r2, e1, e2⟩ := iv.ext
      intro e he
      rw [e1] at he
      rcases List.mem_append.1 he with he | he
      · exact hr.2 e he
      · obtain ⟨tr, htr, _, h4, _⟩ := mem_liveI.1 (e2 e he)
        rw [h4]; exact hi tr htr
    · unfold weed
      split
      · exact ⟨(List.filter_sublist.map _).nodup hr.1, fun e he => hr.2 e (List.mem_filter.1 he).1⟩
      · exact hr
    · have iv := step_inv alnum t nt x r m
      refine ⟨iv.nodup, ?_⟩
      intro e he
      obtain ⟨e', _, tr, htr, _, _, _, h4, _⟩ := mem_live.1 (iv.from_c e he)
      rw [h4]; exact ho _ tr htr
  exact ⟨key, hlen r' key.1 key.2⟩

/-! ### Which match? -/

/-- **What is reported belongs to a match.**  The end and every tag are those of one path through the automaton that accepts. -/
theorem reported_sound (alnum : Nat → Bool) (t : Tnfa) (nt : Nat) (w : List Nat) (junk : List UInt8) (h0 : alnum 0 = false) (hg : Good w)
    (eo : Nat) (tg : List Int) (h : run alnum t nt (flat w ++ 0 :: junk) = .ok eo tg) :
    ∃ i j hh, Path alnum t w i j t.final hh ∧ eo = off w j ∧ tg.length = nt ∧ ∀ k, k < nt → TagIs w hh k (tg.getD k 0) := by
  obtain ⟨i, j, hh, h1, h2, h3, h4⟩ := run_sound h0 hg h
  exact ⟨i, j, hh, h1, h2, h3, h4⟩

example : run noAlnum groups 2 [97, 98, 99, 100, 0] = .ok 4 [0, 2] := by decide +kernel

/-- Within every group around it, or unset. -/
def Nested (f : List (Int × Int)) (ps : List Nat) (v x : Int × Int) : Prop :=
  (x = v ∧ ∀ p ∈ ps, (f.getD p (-1, -1)).1 ≤ v.1 ∧ v.2 ≤ (f.getD p (-1, -1)).2) ∨
  (x = (-1, -1) ∧ ∃ p ∈ ps, ¬ ((f.getD p (-1, -1)).1 ≤ v.1 ∧ v.2 ≤ (f.getD p (-1, -1)).2))

theorem Nested.congr {f g : List (Int × Int)} {ps : List Nat} {v x : Int × Int} (h : Nested f ps v x)
    (e : ∀ p ∈ ps, f.getD p (-1, -1) = g.getD p (-1, -1)) : Nested g ps v x := by
  rcases h with ⟨h1, h2⟩ | ⟨h1, p, hp, h2⟩
  · exact .inl ⟨h1, fun p hp => by rw [← e p hp]; exact h2 p hp⟩
  · exact .inr ⟨h1, p, hp, by rw [← e p hp]; exact h2⟩

theorem inParents_unset (pm : List (Int × Int)) : ∀ ps, inParents pm ps (-1, -1) = (-1, -1) := by
  intro ps
  induction ps with
  | nil => rfl
  | cons p ps ih => simp only [inParents]; split <;> exact ih

theorem inParents_nested (pm : List (Int × Int)) : ∀ ps v, Nested pm ps v (inParents pm ps v) := by
  intro ps
  induction ps with
  | nil => intro v; exact .inl ⟨rfl, by simp⟩
  | cons p ps ih =>
    intro v
    simp only [inParents]
    by_cases hin : v.1 < (pm.getD p (-1, -1)).1 ∨ v.2 > (pm.getD p (-1, -1)).2
    · rw [if_pos hin, inParents_unset]
      exact .inr ⟨rfl, p, by simp, by omega⟩
    · rw [if_neg hin]
      rcases ih v with ⟨h1, h2⟩ | ⟨h1, q, hq, h2⟩
      · refine .inl ⟨h1, fun q hq => ?_⟩
        rcases List.mem_cons.1 hq with rfl | hq
        · omega
        · exact h2 q hq
      · exact .inr ⟨h1, q, List.mem_cons_of_mem _ hq, h2⟩

theorem nest_spec (subs : List Sub) (hpar : ∀ (i : Nat) (d : Sub), subs[i]? = some d → ∀ p ∈ d.parents, p < i) :
    ∀ n i pm, i + n = subs.length → pm.length = subs.length →
      (nest subs n i pm).length = subs.length ∧ (∀ k, k < i → (nest subs n i pm)[k]? = pm[k]?) ∧
      (∀ (k : Nat) (d : Sub), i ≤ k → subs[k]? = some d → ∀ v, pm[k]? = some v →
        ∃ x, (nest subs n i pm)[k]? = some x ∧ Nested (nest subs n i pm) d.parents v x) := by
  intro n
  induction n with
  | zero =>
    intro i pm hi hl
    refine ⟨hl, fun _ _ => rfl, fun k d hk hd => ?_⟩
    have := (List.getElem?_eq_some_iff.1 hd).1
    omega
  | succ n ih =>
    intro i pm hi hl
    have hi' : i < subs.length := by omega
    have hd := List.getElem?_eq_getElem hi'
    simp only [nest, hd]
    generalize hx : inParents pm (subs[i]).parents (pm.getD i (-1, -1)) = x
    have hn := inParents_nested pm (subs[i]).parents (pm.getD i (-1, -1))
    rw [hx] at hn
    obtain ⟨k1, k3, k4⟩ := ih (i + 1) (pm.set i x) (by omega) (by rw [List.length_set]; exact hl)
    have hlow : ∀ k, k < i → (nest subs n (i + 1) (pm.set i x))[k]? = pm[k]? := by
      intro k hk
      rw [k3 k (by omega), List.getElem?_set_ne (by omega)]
    refine ⟨k1, hlow, ?_⟩
    intro k d hk hd' v hv'
    by_cases hki : k = i
    · subst hki
      have e : subs[k] = d := by rw [hd] at hd'; exact Option.some.inj hd'
      subst e
      have hv : pm.getD k (-1, -1) = v := by rw [List.getD, hv']; rfl
      rw [hv] at hn
      refine ⟨x, by rw [k3 k (by omega), List.getElem?_set_self (by omega)], hn.congr fun p hp => ?_⟩
      rw [List.getD, List.getD, hlow p (hpar k _ hd p hp)]
    · exact k4 k d (by omega) hd' v (by rw [List.getElem?_set_ne (by omega)]; exact hv')

/-- **Submatches.**  Each has the offsets its tags stand for, if these lie within every group around it as reported, and is unset
otherwise. -/
theorem submatches (t : Tnfa) (eo : Nat) (tg : List Int)
    (hpar : ∀ (i : Nat) (d : Sub), t.subs[i]? = some d → ∀ p ∈ d.parents, p < i) :
    (fill t eo (some tg)).length = t.subs.length ∧
    ∀ (i : Nat) (d : Sub), t.subs[i]? = some d → ∃ r, Raw t eo tg d r ∧ ∃ v, (fill t eo (some tg))[i]? = some v ∧
      ((v = r ∧ ∀ p ∈ d.parents, ∃ u, (fill t eo (some tg))[p]? = some u ∧ u.1 ≤ r.1 ∧ r.2 ≤ u.2) ∨
       (v = (-1, -1) ∧ ∃ p ∈ d.parents, ∃ u, (fill t eo (some tg))[p]? = some u ∧ ¬ (u.1 ≤ r.1 ∧ r.2 ≤ u.2))) := by
  have hoff : ∀ k, Value t eo tg k (offOf t eo (some tg) k) := by
    intro k
    unfold offOf
    split
    · next h => exact .inl ⟨h, rfl⟩
    · next h => exact .inr ⟨h, rfl⟩
  have hsub : ∀ d, Raw t eo tg d (subOf t eo (some tg) d) := by
    intro d
    have h1 := hoff d.so
    have h2 := hoff d.eo
    unfold subOf
    simp only
    split
    · next h => exact ⟨_, _, h1, h2, .inl ⟨h, rfl⟩⟩
    · next h => exact ⟨_, _, h1, h2, .inr ⟨fun x => h (.inl x), fun x => h (.inr x), rfl⟩⟩
  obtain ⟨k1, k3, k4⟩ := nest_spec t.subs hpar t.subs.length 0 (t.subs.map (subOf t eo (some tg))) (by omega) (by simp)
  have hf : fill t eo (some tg) = nest t.subs t.subs.length 0 (t.subs.map (subOf t eo (some tg))) := rfl
  rw [← hf] at k1 k4
  refine ⟨k1, fun i d hd => ⟨_, hsub d, ?_⟩⟩
  obtain ⟨x, hx, hn⟩ := k4 i d (Nat.zero_le _) hd _ (by rw [List.getElem?_map, hd]; rfl)
  refine ⟨x, hx, ?_⟩
  have hpu : ∀ p ∈ d.parents, (fill t eo (some tg))[p]? = some ((fill t eo (some tg)).getD p (-1, -1)) := by
    intro p hp
    have h1 := hpar i d hd p hp
    have h2 := (List.getElem?_eq_some_iff.1 hd).1
    rw [List.getD, List.getElem?_eq_getElem (by omega)]; rfl
  rcases hn with ⟨h1, h2⟩ | ⟨h1, p, hp, h2⟩
  · exact .inl ⟨h1, fun p hp => ⟨_, hpu p hp, h2 p hp⟩⟩
  · exact .inr ⟨h1, p, hp, _, hpu p hp, h2⟩

/-- `((a)|b)*` on `ab`: the inner group matched in the first round, the outer one last in the second. -/
example : fill { bPlus with subs := [⟨0, 5, []⟩, ⟨1, 2, [0]⟩, ⟨3, 4, [0, 1]⟩], endTag := 5 } 2 (some [0, 1, 2, 0, 1]) = [(0, 2), (1, 2), (-1, -1)] := by
  decide +kernel

/-- **Leftmost, then longest.**  The match reported is the leftmost, and the longest of those that start there.  The full claim is the
same for every automaton without lazy repetition; it is false when a match can end in several ways, see `leftmost_fails`. -/
theorem leftmost_longest_partial (alnum : Nat → Bool) (t : Tnfa) (w : List Nat) (junk : List UInt8) (h0 : alnum 0 = false) (hg : Good w)
    (hp : Plain t) (m : List Cap) (h : search alnum t (flat w ++ 0 :: junk) = some (some m)) :
    ∃ i j, IsBest alnum t w i j ∧ capIdx0 m = ((off w i : Int), (off w j : Int) - off w i) := by
  rcases search_total h0 hg hp junk with ⟨m', i, j, h1, h2, h3, _, h4⟩ | ⟨h1, _⟩
  · rw [h1] at h
    have e : m' = m := Option.some.inj (Option.some.inj h)
    subst e
    refine ⟨i, j, h2, ?_⟩
    unfold capIdx0
    rw [h4]
    by_cases hj : j = 0
    · have hi : i = 0 := by omega
      rw [if_pos hj, hi, hj, off_zero]; rfl
    · rw [if_neg hj]; rfl
  · rw [h1] at h; simp at h

example : search noAlnum bPlus [97, 0xC3, 0xA4, 98, 98, 97, 98, 98, 98, 0] = some (some [⟨0, 3, 2⟩]) := by decide +kernel

/-- **A match that starts later can win.**  `zabc|(a|ab)(c|bcd)(d*)` in `zabcd`: the text from the first character is a match, the one
reported starts at the second.  (A path that arrives at the end by a better way than another one replaces the match found without a
comparison of their starts.) -/
theorem leftmost_fails : Matches noAlnum groups [122, 97, 98, 99, 100] 0 4 ∧
    search noAlnum groups [122, 97, 98, 99, 100, 0] = some (some [⟨0, 1, 4⟩]) := by
  refine ⟨?_, by decide +kernel⟩
  have a0 : ∀ j, Asserted noAlnum false [122, 97, 98, 99, 100] j 0 := fun j =>
    ⟨by simp, by simp, by simp, by simp, by simp, by simp⟩
  have p0 : Path noAlnum groups [122, 97, 98, 99, 100] 0 0 0 _ := .init (tr := ⟨0, 0, 0, [0], 0⟩) (by decide) (by decide) (a0 0)
  have p1 : Path noAlnum groups [122, 97, 98, 99, 100] 0 1 1 _ :=
    .step (tr := ⟨122, 122, 1, [], 0⟩) p0 (by decide) (c := 122) rfl (by decide) (by decide) (a0 1)
  have p2 : Path noAlnum groups [122, 97, 98, 99, 100] 0 2 2 _ :=
    .step (tr := ⟨97, 97, 2, [], 0⟩) p1 (by decide) (c := 97) rfl (by decide) (by decide) (a0 2)
  have p3 : Path noAlnum groups [122, 97, 98, 99, 100] 0 3 3 _ :=
    .step (tr := ⟨98, 98, 3, [], 0⟩) p2 (by decide) (c := 98) rfl (by decide) (by decide) (a0 3)
  exact ⟨_, .step (tr := ⟨99, 99, 12, [], 0⟩) p3 (by decide) (c := 99) rfl (by decide) (by decide) (a0 4)⟩

/-! ### `M_re_eq_start` and `M_re_eq` -/

/-- **`M_re_eq_start` says whether the beginning of the text matches.** -/
theorem eq_start_partial (alnum : Nat → Bool) (t : Tnfa) (w : List Nat) (junk : List UInt8) (h0 : alnum 0 = false) (hg : Good w) (hp : Plain t) :
    ∃ b, eqStart alnum t (flat w ++ 0 :: junk) = some b ∧ (b = true ↔ ∃ j, Matches alnum t w 0 j) := by
  rcases search_total h0 hg hp junk with ⟨m, i, j, h1, h2, h3, h4, h5⟩ | ⟨h1, h2⟩
  · unfold eqStart
    simp only [h1]
    obtain ⟨i', j', h2', h6⟩ := leftmost_longest_partial alnum t w junk h0 hg hp m h1
    obtain ⟨rfl, rfl⟩ := h2.unique h2'
    refine ⟨_, rfl, ?_⟩
    rw [h6]
    simp only [beq_iff_eq]
    have hz : ((off w i : Nat) : Int) = 0 ↔ i = 0 := by
      rw [← off_eq_zero (w := w) (j := i) (by omega)]; omega
    rw [hz]
    constructor
    · rintro rfl; exact ⟨j, h2.1⟩
    · rintro ⟨j', hm⟩
      rcases h2.2 0 j' hm with h | h <;> omega
  · unfold eqStart
    simp only [h1]
    exact ⟨false, rfl, by simp, fun ⟨j, hm⟩ => absurd hm (h2 0 j)⟩

example : eqStart noAlnum bPlus [98, 97, 0] = some true ∧ eqStart noAlnum bPlus [97, 98, 0] = some false :=
  ⟨by decide +kernel, by decide +kernel⟩

/-- **`M_re_eq` says whether the whole text matches.**  The full claim is the same for every automaton; it is false for lazy repetition,
see `eq_fails`. -/
theorem eq_partial (alnum : Nat → Bool) (t : Tnfa) (w : List Nat) (junk : List UInt8) (h0 : alnum 0 = false) (hg : Good w) (hp : Plain t) :
    ∃ b, eq alnum t (flat w ++ 0 :: junk) = some b ∧ (b = true ↔ Matches alnum t w 0 w.length) := by
  rcases search_total h0 hg hp junk with ⟨m, i, j, h1, h2, h3, h4, h5⟩ | ⟨h1, h2⟩
  · unfold Re.eq
    simp only [h1]
    obtain ⟨i', j', h2', h6⟩ := leftmost_longest_partial alnum t w junk h0 hg hp m h1
    obtain ⟨rfl, rfl⟩ := h2.unique h2'
    refine ⟨_, rfl, ?_⟩
    rw [h6, cLen_flat _ (flat_nz hg), ← off_len]
    simp only [Bool.and_eq_true, beq_iff_eq]
    have hz : ((off w i : Nat) : Int) = 0 ↔ i = 0 := by
      rw [← off_eq_zero (w := w) (j := i) (by omega)]; omega
    constructor
    · rintro ⟨ha, hb⟩
      rw [ha] at hb
      have hi := hz.1 ha
      have hj := off_inj (w := w) h4 (Nat.le_refl _) (by omega)
      rw [hi, hj] at h2
      exact h2.1
    · intro hm
      rcases h2.2 0 w.length hm with h | h
      · omega
      · obtain ⟨h7, h8⟩ := h
        have hj : j = w.length := by omega
        rw [← h7, hj, off_zero]
        simp
  · unfold Re.eq
    simp only [h1]
    exact ⟨false, rfl, by simp, fun hm => absurd hm (h2 0 _)⟩

example : eq noAlnum bPlus [98, 98, 0] = some true ∧ eq noAlnum bPlus [98, 98, 97, 0] = some false ∧ eq noAlnum bStar [0] = some true :=
  ⟨by decide +kernel, by decide +kernel, by decide +kernel⟩

/-- **`M_re_eq` with a lazy repetition**: `a+?` matches the whole of `aa`, `M_re_eq` says that it does not. -/
theorem eq_fails : Matches noAlnum aLazy [97, 97] 0 2 ∧ eq noAlnum aLazy [97, 97, 0] = some false := by
  refine ⟨?_, by decide +kernel⟩
  have a0 : ∀ j, Asserted noAlnum false [97, 97] j 0 := fun j => ⟨by simp, by simp, by simp, by simp, by simp, by simp⟩
  have p0 : Path noAlnum aLazy [97, 97] 0 0 0 _ := .init (tr := ⟨0, 0, 0, [0], 0⟩) (by decide) (by decide) (a0 0)
  have p1 : Path noAlnum aLazy [97, 97] 0 1 0 _ :=
    .step (tr := ⟨97, 97, 0, [], 0⟩) p0 (by decide) (c := 97) rfl (by decide) (by decide) (a0 1)
  exact ⟨_, .step (tr := ⟨97, 97, 1, [1], 0⟩) p1 (by decide) (c := 97) rfl (by decide) (by decide) (a0 2)⟩

/-! ### `M_re_matches` -/

theorem capIdx_shift (pos : Nat) (m : List Cap) : capIdx (shift pos m) 0 = (capIdx m 0).map fun x => (x.1 + (pos : Int), x.2) := by
  unfold capIdx shift
  rw [List.find?_map]
  have : ((fun c : Cap => c.idx == 0) ∘ fun c : Cap => { c with off := c.off + (pos : Int) }) = fun c : Cap => c.idx == 0 := rfl
  rw [this]
  cases m.find? (fun c => c.idx == 0) <;> rfl

theorem loop_tokens {alnum : Nat → Bool} {t : Tnfa} {w : List Nat} (junk : List UInt8) (h0 : alnum 0 = false) (hg : Good w) (hp : Plain t)
    (hne : ∀ v i j, Good v → Matches alnum t v i j → i < j) : ∀ n k acc, k ≤ w.length → w.length - k < n →
    ∃ r l, matchesLoop alnum t (flat w ++ 0 :: junk) n (off w k) acc = some (some (acc ++ r)) ∧
      Tokens alnum t (w.drop k) (off w k) l ∧ r.map (fun m => capIdx m 0) = l.map some := by
  intro n
  induction n with
  | zero => intro k acc _ h; omega
  | succ n ih =>
    intro k acc hk hn
    simp only [matchesLoop]
    rw [drop_flat hk]
    rcases search_total h0 (Good.drop hg k) hp junk with ⟨m, i, j, h1, h2, h3, h4, h5⟩ | ⟨h1, h2⟩
    · have hij := hne _ i j (Good.drop hg k) h2.1
      rw [if_neg (by omega)] at h5
      simp only [h1, h5]
      rw [List.length_drop] at h4
      have hpos : off w k + ((off (w.drop k) i : Int) + ((off (w.drop k) j : Int) - off (w.drop k) i)).toNat = off w (k + j) := by
        rw [← flat_drop_off]; omega
      rw [hpos]
      obtain ⟨r, l, e1, e2, e3⟩ := ih (k + j) (acc ++ [shift (off w k) m]) (by omega) (by omega)
      have hle := off_mono (w.drop k) h3
      refine ⟨shift (off w k) m :: r, _, by rw [e1, List.append_assoc]; rfl,
        .more h2 (by omega) (r := l) (by rw [List.drop_drop, Nat.add_comm (off w k), flat_drop_off]; exact e2), ?_⟩
      rw [List.map_cons, List.map_cons, e3, capIdx_shift, h5]
      simp only [Option.map, List.cons.injEq, Option.some.injEq, Prod.mk.injEq, and_true]
      omega
    · simp only [h1]
      exact ⟨[], [], by simp, .done h2, rfl⟩

/-- **All matches, one after the other.**  For a pattern that never matches an empty text, `M_re_matches` returns the best match of the
text, then that of what follows, and so on to the end, with offsets in the whole text.  The full claim is the same for every pattern; it
is false, see `matches_null` and `matches_fails`. -/
theorem matches_partial (alnum : Nat → Bool) (t : Tnfa) (w : List Nat) (junk : List UInt8) (h0 : alnum 0 = false) (hg : Good w) (hp : Plain t)
    (hne : ∀ v i j, Good v → Matches alnum t v i j → i < j) (hw : w ≠ []) :
    ∃ r l, all alnum t (flat w ++ 0 :: junk) = some (some r) ∧ Tokens alnum t w 0 l ∧ r.map (fun m => capIdx m 0) = l.map some := by
  unfold all
  have hl : cLen (flat w ++ 0 :: junk) = (flat w).length := cLen_flat _ (flat_nz hg) junk
  have hle := Utf8.flat_length w
  have hpos := List.length_pos_iff.2 hw
  rw [hl, if_neg (by omega)]
  obtain ⟨r, l, h1, h2, h3⟩ := loop_tokens junk h0 hg hp hne ((flat w).length + 1) 0 [] (by omega) (by omega)
  rw [off_zero] at h1 h2
  exact ⟨r, l, by rw [h1]; rfl, h2, h3⟩

example : all noAlnum bPlus [98, 97, 98, 98, 0] = some (some [[⟨0, 0, 1⟩], [⟨0, 2, 2⟩]]) := by decide +kernel

theorem bPlus_nonempty (v : List Nat) (i j : Nat) (_ : Good v) (h : Matches noAlnum bPlus v i j) : i < j := by
  obtain ⟨h, hp⟩ := h
  generalize hq : bPlus.final = q at hp
  cases hp with
  | init _ ht _ =>
    simp [bPlus] at ht
    subst ht
    simp [bPlus] at hq
  | step hp => have := hp.le; omega

/-- **A pattern that can match nothing has no matches.**  If the pattern matches the empty piece at the end of every text, then
`M_re_matches` returns NULL for every text, whatever else the pattern matches in it. -/
theorem matches_null (alnum : Nat → Bool) (t : Tnfa) (w : List Nat) (junk : List UInt8) (h0 : alnum 0 = false) (hg : Good w) (hp : Plain t)
    (he : ∀ v, Good v → Matches alnum t v v.length v.length) : all alnum t (flat w ++ 0 :: junk) = some none := by
  have loop : ∀ n k acc, k ≤ w.length → w.length - k < n →
      matchesLoop alnum t (flat w ++ 0 :: junk) n (off w k) acc = some none := by
    intro n
    induction n with
    | zero => intro k acc _ h; omega
    | succ n ih =>
      intro k acc hk hn
      simp only [matchesLoop]
      rw [drop_flat hk]
      rcases search_total h0 (Good.drop hg k) hp junk with ⟨m, i, j, h1, h2, h3, h4, h5⟩ | ⟨h1, h2⟩
      · simp only [h1, h5]
        by_cases hj : j = 0
        · rw [if_pos hj]
        · rw [if_neg hj]
          simp only
          rw [List.length_drop] at h4
          have hpos : off w k + ((off (w.drop k) i : Int) + ((off (w.drop k) j : Int) - off (w.drop k) i)).toNat = off w (k + j) := by
            rw [← flat_drop_off]; omega
          rw [hpos]
          exact ih (k + j) _ (by omega) (by omega)
      · exact absurd (he _ (Good.drop hg k)) (h2 _ _)
  unfold all
  split
  · rfl
  · have hl : cLen (flat w ++ 0 :: junk) = (flat w).length := cLen_flat _ (flat_nz hg) junk
    have hle := Utf8.flat_length w
    have := loop (cLen (flat w ++ 0 :: junk) + 1) 0 [] (by omega) (by omega)
    rw [off_zero] at this
    exact this

theorem bStar_empty (v : List Nat) (_ : Good v) : Matches noAlnum bStar v v.length v.length :=
  ⟨_, .init (tr := ⟨0, 0, 1, [0], 0⟩) (Nat.le_refl _) (by decide) ⟨by simp, by simp, by simp, by simp, by simp, by simp⟩⟩

/-- `b*` in `bba`: the search finds `bb`, `M_re_matches` returns NULL. -/
theorem matches_fails : search noAlnum bStar [98, 98, 97, 0] = some (some [⟨0, 0, 2⟩]) ∧ all noAlnum bStar [98, 98, 97, 0] = some none :=
  ⟨by decide +kernel, matches_null noAlnum bStar [98, 98, 97] [] rfl (good_ascii (by decide)) plain_bStar bStar_empty⟩

/-- **The beginning of the text is seen again after every match**: `^b` in `bb`, where only the first `b` is at the beginning. -/
theorem matches_bol_fails : all noAlnum bolB [98, 98, 0] = some (some [[⟨0, 0, 1⟩], [⟨0, 1, 1⟩]]) ∧
    ¬ Matches noAlnum bolB [98, 98] 1 2 := by
  refine ⟨by decide +kernel, ?_⟩
  rintro ⟨h, hp⟩
  have key : ∀ i j q h, Path noAlnum bolB [98, 98] i j q h → i = 0 := by
    intro i j q h hp
    induction hp with
    | init hi ht ha =>
      simp [bolB] at ht
      subst ht
      have := ha.bol (by decide)
      rcases this with h | ⟨h, _⟩
      · exact h
      · simp [bolB] at h
    | step _ _ _ _ _ _ ih => exact ih
  exact absurd (key _ _ _ _ hp) (by decide)

end Verif.Re
