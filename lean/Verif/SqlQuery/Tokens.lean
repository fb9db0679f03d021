import Verif.SqlQuery.Model
import Verif.Str.Props
/- Squeezing white space out of a query keeps its tokens. -/
namespace Verif.SqlQuery
open Verif.Chr (isSpace)

/-- White space. -/
def blank (c : UInt8) : Bool := [9, 10, 11, 12, 13, 32].contains c

/-- The characters `( ) , = + - % & | ^ / > < !`, which end a word. -/
def op (c : UInt8) : Bool := [40, 41, 44, 61, 43, 45, 37, 38, 124, 94, 47, 62, 60, 33].contains c

/-- The characters of a query that are not white space, each with whether it belongs to one token with the one before: it follows at
once and `j` says that the two join. -/
def marks (j : UInt8 → UInt8 → Bool) : Option UInt8 → List UInt8 → List (Bool × UInt8)
  | _, [] => []
  | p, c :: r => if blank c then marks j none r else (p.any (j · c), c) :: marks j (some c) r

/-- Words are runs of characters that are neither white space nor one of the listed ones, which stand alone. -/
def words (d c : UInt8) : Bool := !op d && !op c

/-- Runs of the listed characters are tokens too (`>=`, `--`). -/
def runs (d c : UInt8) : Bool := op d == op c

/-- The shortest text with given tokens: one space where two words meet, none elsewhere. -/
def render : Option UInt8 → List (Bool × UInt8) → List UInt8
  | _, [] => []
  | p, (g, c) :: m => (if p.any (words · c) && !g then [32] else []) ++ c :: render (some c) m

theorem blank_iff (c : UInt8) : isSpace c = blank c := by
  unfold isSpace blank
  rw [Bool.eq_iff_iff]
  simp
  grind

theorem nsn_iff (c : UInt8) : noSpaceNeeded c = (blank c || op c) := by
  unfold noSpaceNeeded
  rw [blank_iff]
  unfold op
  rw [Bool.eq_iff_iff]
  simp
  grind

theorem nsn_zero : noSpaceNeeded 0 = false := by decide

theorem blank32 : blank 32 = true := by decide

/-- White space lies between no two characters that would join without it, unless both are characters of words. -/
def Sep (j : UInt8 → UInt8 → Bool) (q : List UInt8) : Prop :=
  ∀ a d w c b, q = a ++ d :: (w ++ c :: b) → w ≠ [] → (∀ x ∈ w, blank x = true) → blank d = false → blank c = false → (op d || op c) = true → j d c = false

theorem Sep.suffix {j : UInt8 → UInt8 → Bool} {p q : List UInt8} (h : Sep j (p ++ q)) : Sep j q := by
  intro a d w c b e
  exact h (p ++ a) d w c b (by rw [e, List.append_assoc])

theorem squeeze_marks_aux (j : UInt8 → UInt8 → Bool) (q : List UInt8) :
    (∀ d, blank d = false → Sep j (d :: q) → marks j (some d) (squeeze (some d) q) = marks j (some d) q) ∧
    (∀ d w, blank d = false → w ≠ [] → (∀ x ∈ w, blank x = true) → Sep j (d :: (w ++ q)) → (q = [] ∨ noSpaceNeeded (q.headD 0) = true ∨ noSpaceNeeded d = true) →
      marks j (some d) (squeeze (some d) q) = marks j none q) ∧
    (Sep j q → marks j none (squeeze (some 32) q) = marks j none q) ∧
    (Sep j q → marks j none (squeeze none q) = marks j none q) := by
  induction q with
  | nil => simp [squeeze, marks]
  | cons c r ih =>
    obtain ⟨hA, hB, hC, hD⟩ := ih
    have a32 : noSpaceNeeded 32 = true := by decide
    by_cases hc : blank c = true
    · have hs : isSpace c = true := by rw [blank_iff]; exact hc
      refine ⟨?_, ?_, ?_, ?_⟩
      · intro d hd hS
        by_cases hn : (noSpaceNeeded (r.headD 0) || noSpaceNeeded d) = true
        · simp only [squeeze, hs, Option.any_some, hn, Bool.and_self, if_true, marks, hc]
          refine hB d [c] hd (by simp) (by simpa using hc) hS ?_
          simp only [Bool.or_eq_true] at hn
          exact Or.inr hn
        · simp only [squeeze, hs, Option.any_some, hn, Bool.and_false, Bool.false_eq_true, if_false, if_true, marks, hc, blank32]
          exact hC (Sep.suffix (p := [d, c]) hS)
      · intro d w hd hw hwb hS hq
        by_cases hn : (noSpaceNeeded (r.headD 0) || noSpaceNeeded d) = true
        · simp only [squeeze, hs, Option.any_some, hn, Bool.and_self, if_true, marks, hc]
          refine hB d (w ++ [c]) hd (by simp) ?_ (by simpa using hS) ?_
          · intro x hx
            rcases List.mem_append.1 hx with h | h
            · exact hwb x h
            · rw [List.mem_singleton.1 h]; exact hc
          · simp only [Bool.or_eq_true] at hn
            exact Or.inr hn
        · simp only [squeeze, hs, Option.any_some, hn, Bool.and_false, Bool.false_eq_true, if_false, if_true, marks, hc, blank32]
          exact hC (Sep.suffix (p := d :: (w ++ [c])) (by simpa using hS))
      · intro hS
        simp only [squeeze, hs, Option.any_some, a32, Bool.or_true, Bool.and_self, if_true, marks, hc]
        exact hC (Sep.suffix (p := [c]) hS)
      · intro hS
        by_cases hn : noSpaceNeeded (r.headD 0) = true
        · simp only [squeeze, hs, Option.any_none, Bool.or_false, hn, Bool.and_self, if_true, marks, hc]
          exact hD (Sep.suffix (p := [c]) hS)
        · simp only [squeeze, hs, Option.any_none, Bool.or_false, hn, Bool.and_false, Bool.false_eq_true, if_false, if_true, marks, hc, blank32]
          exact hC (Sep.suffix (p := [c]) hS)
    · have hc' : blank c = false := by simpa using hc
      have hs : isSpace c = false := by rw [blank_iff]; exact hc'
      refine ⟨?_, ?_, ?_, ?_⟩
      · intro d hd hS
        simp only [squeeze, hs, Bool.false_and, Bool.false_eq_true, if_false, marks, hc']
        rw [hA c hc' (Sep.suffix (p := [d]) hS)]
      · intro d w hd hw hwb hS hq
        have hj : j d c = false := by
          refine hS [] d w c r rfl hw hwb hd hc' ?_
          rcases hq with h | h | h
          · cases h
          · rw [List.headD_cons, nsn_iff, hc'] at h
            simpa using Or.inr h
          · rw [nsn_iff, hd] at h
            simpa using Or.inl h
        simp only [squeeze, hs, Bool.false_and, Bool.false_eq_true, if_false, marks, hc', Option.any_some, hj, Option.any_none]
        rw [hA c hc' (Sep.suffix (p := d :: w) hS)]
      · intro hS
        simp only [squeeze, hs, Bool.false_and, Bool.false_eq_true, if_false, marks, hc']
        rw [hA c hc' hS]
      · intro hS
        simp only [squeeze, hs, Bool.false_and, Bool.false_eq_true, if_false, marks, hc']
        rw [hA c hc' hS]

theorem marks_blank_front (j : UInt8 → UInt8 → Bool) (a t : List UInt8) (ha : ∀ x ∈ a, blank x = true) : marks j none (a ++ t) = marks j none t := by
  induction a with
  | nil => rfl
  | cons x a ih =>
    rw [List.cons_append, marks, if_pos (ha x (by simp))]
    exact ih fun y hy => ha y (by simp [hy])

theorem marks_blanks (j : UInt8 → UInt8 → Bool) (b : List UInt8) (hb : ∀ x ∈ b, blank x = true) : ∀ p, marks j p b = [] := by
  induction b with
  | nil => intro p; rfl
  | cons x b ih =>
    intro p
    rw [marks, if_pos (hb x (by simp))]
    exact ih (fun y hy => hb y (by simp [hy])) _

theorem marks_blank_back (j : UInt8 → UInt8 → Bool) (t b : List UInt8) (hb : ∀ x ∈ b, blank x = true) : ∀ p, marks j p (t ++ b) = marks j p t := by
  induction t with
  | nil => intro p; exact marks_blanks j b hb p
  | cons x t ih =>
    intro p
    rw [List.cons_append, marks, marks, ih, ih]

theorem trim_marks (j : UInt8 → UInt8 → Bool) (q : List UInt8) : marks j none (Str.trim q) = marks j none q := by
  obtain ⟨a, b, e, ha, hb, -⟩ := Str.trim_correct q
  have ha' : ∀ x ∈ a, blank x = true := fun x hx => by rw [← blank_iff]; exact ha x hx
  have hb' : ∀ x ∈ b, blank x = true := fun x hx => by rw [← blank_iff]; exact hb x hx
  exact (congrArg (marks j none) e).trans ((marks_blank_back j _ b hb' none).trans (marks_blank_front j a _ ha')) |>.symm

theorem Sep.trim {j : UInt8 → UInt8 → Bool} {q : List UInt8} (h : Sep j q) : Sep j (Str.trim q) := by
  obtain ⟨a, b, e, -, -, -⟩ := Str.trim_correct q
  intro x d w c y e2
  refine h (a ++ x) d w c (y ++ b) ?_
  rw [e, e2]
  simp

theorem sep_words (q : List UInt8) : Sep words q := by
  intro a d w c b _ _ _ _ _ h
  unfold words
  cases hd : op d <;> cases hc : op c <;> simp_all

/-- The last character is not white space. -/
def Ended (q : List UInt8) : Prop := ∀ x, q.getLast? = some x → blank x = false

theorem Ended.tail {c : UInt8} {r : List UInt8} (h : Ended (c :: r)) : Ended r := by
  intro x hx
  refine h x ?_
  cases r with
  | nil => cases hx
  | cons y r => rw [List.getLast?_cons_cons]; exact hx

theorem squeeze_render_aux (q : List UInt8) : Ended q →
    (∀ d, blank d = false → squeeze (some d) q = render (some d) (marks words (some d) q)) ∧
    (∀ d, blank d = false → (noSpaceNeeded (q.headD 0) = true ∨ noSpaceNeeded d = true) → squeeze (some d) q = render (some d) (marks words none q)) ∧
    (∀ d, blank d = false → q ≠ [] → noSpaceNeeded (q.headD 0) = false → noSpaceNeeded d = false → 32 :: squeeze (some 32) q = render (some d) (marks words none q)) := by
  induction q with
  | nil =>
    intro _
    refine ⟨?_, ?_, ?_⟩
    · intro d _; rfl
    · intro d _ _; rfl
    · intro d _ h; exact absurd rfl h
  | cons c r ih =>
    intro hE
    obtain ⟨hA, hB, hC⟩ := ih hE.tail
    by_cases hc : blank c = true
    · have hs : isSpace c = true := by rw [blank_iff]; exact hc
      have hr : r ≠ [] := by
        intro e
        subst e
        have := hE c rfl
        rw [hc] at this
        cases this
      have gen : ∀ d, blank d = false → squeeze (some d) (c :: r) = render (some d) (marks words none r) := by
        intro d hd
        by_cases hn : (noSpaceNeeded (r.headD 0) || noSpaceNeeded d) = true
        · simp only [squeeze, hs, Option.any_some, hn, Bool.and_self, if_true]
          exact hB d hd (by simpa using hn)
        · simp only [squeeze, hs, Option.any_some, hn, Bool.and_false, Bool.false_eq_true, if_false, if_true]
          simp only [Bool.or_eq_true, not_or, Bool.not_eq_true] at hn
          exact hC d hd hr hn.1 hn.2
      refine ⟨?_, ?_, ?_⟩
      · intro d hd
        rw [gen d hd, marks, if_pos hc]
      · intro d hd _
        rw [gen d hd, marks, if_pos hc]
      · intro d _ _ h
        rw [List.headD_cons, nsn_iff, hc] at h
        cases h
    · have hc' : blank c = false := by simpa using hc
      have hs : isSpace c = false := by rw [blank_iff]; exact hc'
      refine ⟨?_, ?_, ?_⟩
      · intro d hd
        simp only [squeeze, hs, Bool.false_and, Bool.false_eq_true, if_false, marks, hc', render, Option.any_some, Bool.and_not_self, List.nil_append]
        rw [hA c hc']
      · intro d hd hq
        have hw : words d c = false := by
          rw [List.headD_cons, nsn_iff, nsn_iff, hc', hd] at hq
          unfold words
          cases h1 : op d <;> cases h2 : op c <;> simp_all
        simp only [squeeze, hs, Bool.false_and, Bool.false_eq_true, if_false, marks, hc', render, Option.any_some, hw, List.nil_append]
        rw [hA c hc']
      · intro d hd _ h1 h2
        have hw : words d c = true := by
          rw [List.headD_cons, nsn_iff, hc'] at h1
          rw [nsn_iff, hd] at h2
          unfold words
          simp only [Bool.false_or] at h1 h2
          rw [h1, h2]; rfl
        simp only [squeeze, hs, Bool.false_and, Bool.false_eq_true, if_false, marks, hc', render, Option.any_some, hw, Option.any_none, Bool.not_false, Bool.and_self, if_true, List.cons_append, List.nil_append]
        rw [hA c hc']

end Verif.SqlQuery
