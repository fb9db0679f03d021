import Verif.Re.CompPlaces
import Verif.Re.Props
/-! C115: a compiled pattern matches what the pattern says. -/
namespace Verif.Re
open Verif.Utf8 (flat Good)

/-- The parts of an automaton that come from elsewhere. -/
def bare : Tnfa := ⟨[], [], 0, 0, [], [], [], 0, false⟩

/-- `a{2}b` repeated, then `c`. -/
def sample : Ast :=
  .cat (.iter (.cat (.iter (.chars [(97, 97)] 0) 2 (some 2)) (.chars [(98, 98)] 1)) 0 none) (.chars [(99, 99), (67, 67)] 2)

theorem sample_ok : Bounds sample ∧ Shallow sample ∧ Calm sample ∧ Numbered sample 0 3 := by
  refine ⟨?_, ?_, ?_, ?_⟩
  · simp [sample, Bounds]
  · simp [sample, Shallow, Shallow1, Simple]
  · simp [sample, Calm, Null]
  · exact ⟨2, ⟨1, ⟨by simp, rfl, rfl⟩, by simp, rfl, rfl⟩, by simp, rfl, rfl⟩

example : (places (expand 0 sample ⟨0, 0⟩).1) = [0, 1, 2, 3] := by decide

/-- For every tree with simple repetitions whose positions are apart, the automaton accepts only what the tree matches. -/
theorem build_sound (alnum : Nat → Bool) (x : Ast) (n : Nat) (rest : Tnfa) (w : List Nat) (i j : Nat) (hS : Simple x)
    (hd : (places x).Nodup) (hn : ∀ p ∈ places x, p < n) (h : Matches alnum (build x n rest) w i j) :
    Mat alnum rest.multiline w x i j :=
  matches_mat hS (apart_of_nodup hd) hn h

/-- And it accepts all of it, if no way to match nothing with an assertion hides another one. -/
theorem build_iff_partial (alnum : Nat → Bool) (x : Ast) (n : Nat) (rest : Tnfa) (w : List Nat) (i j : Nat) (hS : Simple x)
    (hC : Calm x) (hd : (places x).Nodup) (hn : ∀ p ∈ places x, p < n) :
    Matches alnum (build x n rest) w i j ↔ Mat alnum rest.multiline w x i j :=
  ⟨build_sound alnum x n rest w i j hS hd hn, mat_matches hS (apart_of_nodup hd) hC hn⟩

example : Simple (.cat (.iter (.alt (.chars [(97, 97)] 0) (.asr 2)) 1 none) (.tag 1)) ∧
    Calm (.cat (.iter (.alt (.chars [(97, 97)] 0) (.asr 2)) 1 none) (.tag 1)) ∧
    (places (.cat (.iter (.alt (.chars [(97, 97)] 0) (.asr 2)) 1 none) (.tag 1))).Nodup := by
  refine ⟨by simp [Simple], by simp [Calm, Null], by simp [places]⟩

/-- Writing out the counted repetitions does not change what a tree matches, and leaves only simple ones. -/
theorem expand_keeps (alnum : Nat → Bool) (ml : Bool) (w : List Nat) (x : Ast) (i j : Nat) (hB : Bounds x) :
    Simple (expand 0 x ⟨0, 0⟩).1 ∧ (Mat alnum ml w (expand 0 x ⟨0, 0⟩).1 i j ↔ Mat alnum ml w x i j) :=
  ⟨expand_simple hB 0 _, expand_mat hB 0 _ i j⟩

example : Bounds (.iter (.iter (.chars [(97, 97)] 0) 2 (some 3)) 3 none) := by simp [Bounds]

/-- The copies get positions of their own if no counted repetition is deeper than in one other repetition. -/
theorem expand_apart_partial (x : Ast) (n : Nat) (hB : Bounds x) (hS : Shallow x) (hN : Numbered x 0 n) :
    Apart (expand 0 x ⟨0, 0⟩).1 ∧ ∀ p ∈ places (expand 0 x ⟨0, 0⟩).1, p < (compile x n bare).final :=
  expand_places hB hS hN

example : Bounds sample ∧ Shallow sample ∧ Numbered sample 0 3 := ⟨sample_ok.1, sample_ok.2.1, sample_ok.2.2.2⟩

/-- A compiled pattern accepts only what the pattern matches.  Missing: counted repetitions deeper inside, and `{0}`. -/
theorem compile_sound_partial (alnum : Nat → Bool) (x : Ast) (n : Nat) (rest : Tnfa) (w : List Nat) (i j : Nat) (hB : Bounds x)
    (hS : Shallow x) (hN : Numbered x 0 n) (h : Matches alnum (compile x n rest) w i j) : Mat alnum rest.multiline w x i j := by
  obtain ⟨h1, h2⟩ := expand_places hB hS hN
  exact (expand_mat hB 0 _ i j).mp (matches_mat (expand_simple hB 0 _) h1 h2 h)

/-- It accepts exactly that if in addition no way to match nothing with an assertion hides another one. -/
theorem compile_iff_partial (alnum : Nat → Bool) (x : Ast) (n : Nat) (rest : Tnfa) (w : List Nat) (i j : Nat) (hB : Bounds x)
    (hS : Shallow x) (hN : Numbered x 0 n) (hC : Calm x) :
    Matches alnum (compile x n rest) w i j ↔ Mat alnum rest.multiline w x i j := by
  obtain ⟨h1, h2⟩ := expand_places hB hS hN
  exact ⟨compile_sound_partial alnum x n rest w i j hB hS hN,
    fun h => mat_matches (expand_simple hB 0 _) h1 (expand_calm hC 0 _) h2 ((expand_mat hB 0 _ i j).mpr h)⟩

example : Mat noAlnum false [97, 97, 98, 67] sample 0 4 :=
  .cat (k := 3) (.more (k := 3) (by simp) (.cat (k := 2)
    (.more (k := 1) (by simp) (.chars (List.mem_singleton.mpr rfl) rfl (by decide) (by decide))
      (.more (k := 2) (by simp) (.chars (List.mem_singleton.mpr rfl) rfl (by decide) (by decide)) (.none (by decide))))
    (.chars (List.mem_singleton.mpr rfl) rfl (by decide) (by decide))) (.none (by decide)))
    (.chars (r := (67, 67)) (by simp) rfl (by decide) (by decide))

/-- From pattern to answer: the matcher finds something exactly if some part of the text matches the pattern. -/
theorem compile_search_partial (alnum : Nat → Bool) (x : Ast) (n : Nat) (rest : Tnfa) (want : Bool) (w : List Nat) (junk : List UInt8)
    (h0 : alnum 0 = false) (hg : Good w) (hB : Bounds x) (hS : Shallow x) (hN : Numbered x 0 n) (hC : Calm x) :
    ∃ r, exec alnum (compile x n rest) want (flat w ++ 0 :: junk) = some r ∧
      (r ≠ none ↔ ∃ i j, Mat alnum rest.multiline w x i j) := by
  obtain ⟨r, h1, h2⟩ := search_iff alnum (compile x n rest) want w junk h0 hg
  refine ⟨r, h1, h2.trans ⟨?_, ?_⟩⟩
  · rintro ⟨i, j, h⟩; exact ⟨i, j, (compile_iff_partial alnum x n rest w i j hB hS hN hC).mp h⟩
  · rintro ⟨i, j, h⟩; exact ⟨i, j, (compile_iff_partial alnum x n rest w i j hB hS hN hC).mpr h⟩

example : exec noAlnum (compile sample 3 bare) false [97, 97, 98, 67, 0] = some (some []) ∧
    exec noAlnum (compile sample 3 bare) false [97, 97, 98, 0] = some none := ⟨by decide +kernel, by decide +kernel⟩

/-! ## Room for the transitions -/

theorem filter_map_le (a : Pos) (l : List Pos) (q : Nat) :
    (((skipSame none l).map fun b => mkTrans1 a b).filter fun e => e.1 == q).length ≤ if a.pos == q then l.length else 0 := by
  have len : ∀ (l : List Pos) (prev : Option Nat), (skipSame prev l).length ≤ l.length := by
    intro l
    induction l with
    | nil => intro prev; exact Nat.le_refl _
    | cons p l ih =>
      intro prev
      simp only [skipSame]
      split
      · exact Nat.le_trans (ih prev) (Nat.le_succ _)
      · exact Nat.succ_le_succ (ih _)
  split
  · refine Nat.le_trans (List.length_filter_le _ _) ?_
    rw [List.length_map]
    exact len l none
  · rename_i h
    rw [List.filter_eq_nil_iff.mpr]
    · exact Nat.le_refl _
    · intro e he
      obtain ⟨b, _, rfl⟩ := List.mem_map.mp he
      simpa [mkTrans1] using h

theorem mkTrans_room (p1 p2 : List Pos) (q : Nat) : ((mkTrans p1 p2).filter fun e => e.1 == q).length ≤ pairs p1 p2 q := by
  induction p1 with
  | nil => simp [mkTrans, pairs]
  | cons a l ih =>
    have h := filter_map_le a p2 q
    simp only [mkTrans, pairs, List.flatMap_cons, List.filter_append, List.length_append, List.filter_cons] at ih ⊢
    split at h
    · rename_i hq
      simp only [hq, if_true, List.length_cons, Nat.succ_mul]
      omega
    · rename_i hq
      simp only [hq]
      simp only [Bool.false_eq_true, if_false]
      omega

theorem edges_room (x : Ast) (q : Nat) : ((edges x).filter fun e => e.1 == q).length ≤ counts x q := by
  induction x with
  | chars rs p => exact Nat.le_refl _
  | empty => exact Nat.le_refl _
  | tag k => exact Nat.le_refl _
  | asr a => exact Nat.le_refl _
  | cat l r ih1 ih2 =>
    have := mkTrans_room (last l) (first r) q
    simp only [edges, counts, List.filter_append, List.length_append]
    omega
  | alt l r ih1 ih2 => simp only [edges, counts, List.filter_append, List.length_append]; omega
  | iter x lo hi ih =>
    have := mkTrans_room (last x) (first x) q
    simp only [edges, counts, List.filter_append, List.length_append]
    split
    · omega
    · simp only [List.filter_nil, List.length_nil]; omega

/-- Every state has at most as many transitions as were counted for it, so that each array has room for them and for its end. -/
theorem table_room (x : Ast) (n : Nat) (rest : Tnfa) (q : Nat) : ((build x n rest).out q).length ≤ counts (root x n) q := by
  simp only [Tnfa.out, build, List.getElem?_map]
  by_cases h : q < n + 1
  · rw [List.getElem?_range h]
    simp only [Option.map_some, Option.getD_some, List.length_map]
    exact edges_room _ q
  · rw [List.getElem?_eq_none (by simpa using h)]
    exact Nat.zero_le _

example : ((compile sample 3 bare).out 2).length = 2 := by decide +kernel

/-! ## Where the code goes wrong -/

/-- The pattern `((a{2})*b)*`. -/
def deep : Ast := .iter (.cat (.iter (.iter (.chars [(97, 97)] 0) 2 (some 2)) 0 none) (.chars [(98, 98)] 1)) 0 none

theorem times_first {alnum : Nat → Bool} {ml : Bool} {w : List Nat} {x : Ast} {lo : Nat} {hi : Option Nat} {i j : Nat}
    (h : Mat alnum ml w (.iter x lo hi) i j) (hn : ∀ k, ¬ Mat alnum ml w x i k) : lo = 0 ∧ i = j := by
  obtain ⟨n, h1, _, ht⟩ := iter_times.mp h
  cases n with
  | zero => exact ⟨by omega, ht.1⟩
  | succ n => obtain ⟨k, hk, _⟩ := ht; exact absurd hk (hn k)

theorem deep_not : ¬ Mat noAlnum false [97, 98] deep 0 2 := by
  have hA : ∀ k, ¬ Mat noAlnum false [97, 98] (.iter (.chars [(97, 97)] 0) 2 (some 2)) 0 k := by
    intro k h
    obtain ⟨n, h1, _, ht⟩ := iter_times.mp h
    obtain ⟨m, rfl⟩ : ∃ m, n = m + 2 := ⟨n - 2, by omega⟩
    obtain ⟨k1, h1, k2, h2, _⟩ := ht
    obtain ⟨_, _, _, rfl, _⟩ := chars_iff.mp h1
    obtain ⟨c, r, hr, _, hc, h3, h4⟩ := chars_iff.mp h2
    simp only [List.mem_singleton] at hr
    subst hr
    simp at hc h3 h4
    omega
  have hB : ∀ k, ¬ Mat noAlnum false [97, 98] (.cat (.iter (.iter (.chars [(97, 97)] 0) 2 (some 2)) 0 none) (.chars [(98, 98)] 1)) 0 k := by
    intro k h
    obtain ⟨m, h1, h2⟩ := cat_iff.mp h
    obtain ⟨_, rfl⟩ := times_first h1 hA
    obtain ⟨c, r, hr, _, hc, h3, h4⟩ := chars_iff.mp h2
    simp only [List.mem_singleton] at hr
    subst hr
    simp at hc h3 h4
    omega
  intro h
  have := (times_first h hB).2
  omega

/-- `((a{2})*b)*` matches all of "ab": `b` and the second `a` share a position. -/
theorem compile_deep_fails : Bounds deep ∧ Numbered deep 0 2 ∧ Calm deep ∧ Matches noAlnum (compile deep 2 bare) [97, 98] 0 2 ∧
    ¬ Mat noAlnum false [97, 98] deep 0 2 := by
  refine ⟨by simp [deep, Bounds], ⟨1, ⟨by simp, rfl, rfl⟩, by simp, rfl, rfl⟩, by simp [deep, Calm, Null, Bare], ⟨[([], 0), ([], 1), ([], 2)], ?_⟩, deep_not⟩
  refine .step (tr := ⟨98, 98, 3, [], 0⟩) (q := 1) (c := 98) (h := [([], 0), ([], 1)]) ?_ (by decide +kernel) rfl (by decide) (by decide) asserted_zero
  refine .step (tr := ⟨97, 97, 1, [], 0⟩) (q := 0) (c := 97) (h := [([], 0)]) ?_ (by decide +kernel) rfl (by decide) (by decide) asserted_zero
  exact .init (tr := ⟨0, 0, 0, [], 0⟩) (by decide) (by decide +kernel) asserted_zero

/-- The pattern `(ab{0}c){2}`: the parser has dropped `b` but not its position. -/
def gap : Ast := .iter (.cat (.cat (.chars [(97, 97)] 0) .empty) (.chars [(99, 99)] 2)) 2 (some 2)

/-- `(ab{0}c){2}` matches all of "aac": the copies overlap. -/
theorem compile_gap_fails : Bounds gap ∧ Shallow gap ∧ (places gap).Nodup ∧ Matches noAlnum (compile gap 3 bare) [97, 97, 99] 0 3 ∧
    ¬ Mat noAlnum false [97, 97, 99] gap 0 3 := by
  refine ⟨by simp [gap, Bounds], by simp [gap, Shallow, Shallow1], by decide, ⟨[([], 0), ([], 1), ([], 2), ([], 3)], ?_⟩, ?_⟩
  · refine .step (tr := ⟨99, 99, 5, [], 0⟩) (q := 4) (c := 99) (h := [([], 0), ([], 1), ([], 2)]) ?_ (by decide +kernel) rfl (by decide) (by decide) asserted_zero
    refine .step (tr := ⟨97, 97, 4, [], 0⟩) (q := 2) (c := 97) (h := [([], 0), ([], 1)]) ?_ (by decide +kernel) rfl (by decide) (by decide) asserted_zero
    refine .step (tr := ⟨97, 97, 2, [], 0⟩) (q := 0) (c := 97) (h := [([], 0)]) ?_ (by decide +kernel) rfl (by decide) (by decide) asserted_zero
    exact .init (tr := ⟨0, 0, 0, [], 0⟩) (by decide) (by decide +kernel) asserted_zero
  · intro h
    have := (times_first h fun k h => ?_).1
    · omega
    · obtain ⟨m, h1, h2⟩ := cat_iff.mp h
      obtain ⟨m', h3, h4⟩ := cat_iff.mp h1
      obtain ⟨rfl, _⟩ := empty_iff.mp h4
      obtain ⟨_, _, _, rfl, _⟩ := chars_iff.mp h3
      obtain ⟨c, r, hr, _, hc, h5, h6⟩ := chars_iff.mp h2
      simp only [List.mem_singleton] at hr
      subst hr
      simp at hc h5 h6
      omega

/-- The pattern `(^)*b`. -/
def hides : Ast := .cat (.iter (.asr 1) 0 none) (.chars [(98, 98)] 0)

/-- `(^)*b` does not find the `b` of "ab": the empty repetition is taken to ask for the start of the line. -/
theorem compile_calm_fails : Bounds hides ∧ Shallow hides ∧ Numbered hides 0 1 ∧ Mat noAlnum false [97, 98] hides 1 2 ∧
    ∀ i j, ¬ Matches noAlnum (compile hides 1 bare) [97, 98] i j := by
  refine ⟨by simp [hides, Bounds], by simp [hides, Shallow, Shallow1], ⟨0, rfl, by simp, rfl, rfl⟩, ?_, ?_⟩
  · exact .cat (.none (by decide)) (.chars (List.mem_singleton.mpr rfl) rfl (by decide) (by decide))
  · obtain ⟨r, h1, h2⟩ := search_iff noAlnum (compile hides 1 bare) false [97, 98] [] rfl (good_ascii (by decide))
    have h3 : exec noAlnum (compile hides 1 bare) false (flat [97, 98] ++ 0 :: []) = some none := by decide +kernel
    rw [h3] at h1
    cases h1
    intro i j h
    exact h2.mpr ⟨i, j, h⟩ rfl

end Verif.Re
