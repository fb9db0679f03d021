import Verif.TableMd.Model
import Verif.Parser.ScanProps
import Verif.TableCsv.Props

/-!
# Lemmas about Markdown text
-/

namespace Verif.TableMd
open Verif Verif.Table
open Verif.Parser.Scan (Sections First split split_correct join)

/-! ## Sections -/

theorem sections_join {d : UInt8} : ∀ (ps : List Bytes) (k : Nat), ps ≠ [] → (∀ p ∈ ps, d ∉ p) → Sections [d] 0 k (join [d] ps) ps
  | [], _, h, _ => absurd rfl h
  | [p], k, _, h => by
    refine .last k p (.inl fun a b e => h p (by simp) ?_)
    rw [e]
    simp
  | p :: q :: ps, k, _, h => by
    have ih := sections_join (q :: ps) (k + 1) (by simp) fun x hx => h x (List.mem_cons_of_mem _ hx)
    refine .more k p _ _ ⟨⟨p, _, rfl, rfl⟩, fun a b e => Nat.le_of_not_lt fun hlt => h p (by simp) ?_⟩ (.inl rfl) ih
    have h1 : (p ++ [d] ++ join [d] (q :: ps))[a.length]? = some d := by
      rw [e]
      simp
    rw [List.append_assoc, List.getElem?_append_left hlt] at h1
    exact List.mem_of_getElem? h1

theorem split_eq {d : UInt8} {ps : List Bytes} (h0 : ps ≠ []) (h : ∀ p ∈ ps, d ∉ p) :
    split (join [d] ps) [d] 0 false false = some (some (if ps.getLast? = some [] then ps.dropLast else ps)) := by
  obtain ⟨xs, h1, h2⟩ := split_correct (join [d] ps) [d] 0 false false (by simp) (by simp)
  rw [h1.unique (sections_join ps 0 h0 h)] at h2
  rw [h2]
  simp

theorem join_append (d : UInt8) : ∀ (ps : List Bytes) (x : Bytes), ps ≠ [] → join [d] (ps ++ [x]) = join [d] ps ++ d :: x
  | [], _, h => absurd rfl h
  | [p], x, _ => by simp [join]
  | p :: q :: ps, x, _ => by
    have := join_append d (q :: ps) x (by simp)
    show p ++ [d] ++ join [d] (q :: ps ++ [x]) = p ++ [d] ++ join [d] (q :: ps) ++ d :: x
    rw [this]
    simp

/-! ## Blanks -/

def Blank (l : Bytes) : Prop := ∀ c ∈ l, Chr.isSpace c = true

/-- Not blank at either end. -/
def Tight (l : Bytes) : Prop := (∀ c, l.head? = some c → Chr.isSpace c = false) ∧ ∀ c, l.getLast? = some c → Chr.isSpace c = false

theorem dropWhile_blank {p : UInt8 → Bool} : ∀ {a : Bytes} (b : Bytes), (∀ c ∈ a, p c = true) → (a ++ b).dropWhile p = b.dropWhile p
  | [], _, _ => rfl
  | c :: a, b, h => by
    rw [List.cons_append, List.dropWhile_cons, if_pos (h c (by simp))]
    exact dropWhile_blank b fun x hx => h x (List.mem_cons_of_mem _ hx)

theorem dropWhile_tight {p : UInt8 → Bool} {b : Bytes} (h : ∀ c, b.head? = some c → p c = false) : b.dropWhile p = b := by
  cases b with
  | nil => rfl
  | cons c b => rw [List.dropWhile_cons, if_neg (by rw [h c rfl]; simp)]

theorem rtrim_blank (a : Bytes) {b : Bytes} (h : Blank b) : rtrim (a ++ b) = rtrim a := by
  unfold rtrim
  rw [List.reverse_append, dropWhile_blank _ fun c hc => h c (List.mem_reverse.mp hc)]

theorem rtrim_tight {a : Bytes} (h : ∀ c, a.getLast? = some c → Chr.isSpace c = false) : rtrim a = a := by
  unfold rtrim
  rw [dropWhile_tight (by rw [List.head?_reverse]; exact h), List.reverse_reverse]

theorem rtrim_append (a : Bytes) {b : Bytes} (h : rtrim b ≠ []) : rtrim (a ++ b) = a ++ rtrim b := by
  unfold rtrim at h ⊢
  rw [List.reverse_append, List.dropWhile_append]
  rw [if_neg (by
    intro e
    rw [List.isEmpty_iff] at e
    rw [e] at h
    simp at h)]
  rw [List.reverse_append, List.reverse_reverse]

theorem trim_eq {u c w : Bytes} (hu : Blank u) (hc : Tight c) (hw : Blank w) : trim (u ++ (c ++ w)) = c := by
  unfold trim ltrim
  rw [dropWhile_blank _ hu]
  cases c with
  | nil =>
    have := dropWhile_blank (p := Chr.isSpace) (a := w) [] hw
    rw [List.append_nil] at this
    rw [List.nil_append, this]
    rfl
  | cons x c =>
    rw [dropWhile_tight (by intro y hy; exact hc.1 y (by simpa using hy)), rtrim_blank _ hw, rtrim_tight hc.2]

/-- What `rtrim` takes off. -/
theorem rtrim_split (l : Bytes) : ∃ w, l = rtrim l ++ w ∧ Blank w := by
  refine ⟨(l.reverse.takeWhile Chr.isSpace).reverse, ?_, ?_⟩
  · unfold rtrim
    rw [← List.reverse_append, List.takeWhile_append_dropWhile, List.reverse_reverse]
  · intro c hc
    have := List.mem_reverse.mp hc
    have h := List.all_takeWhile (p := Chr.isSpace) (l := l.reverse)
    rw [List.all_eq_true] at h
    exact h c this

theorem rtrim_last (l : Bytes) (c : UInt8) (h : (rtrim l).getLast? = some c) : Chr.isSpace c = false := by
  unfold rtrim at h
  rw [List.getLast?_reverse] at h
  cases h2 : Chr.isSpace c with
  | false => rfl
  | true =>
    have := List.head?_dropWhile_not Chr.isSpace l.reverse
    rw [h] at this
    simp [h2] at this

theorem blank_pad {c : Bytes} {u w : Bytes} (hc : Tight c) (hu : Blank u) (hw : Blank w) : trim (rtrim (u ++ (c ++ w))) = c := by
  by_cases h : c = []
  · subst h
    have : Blank (u ++ ([] ++ w)) := by
      intro x hx
      rcases List.mem_append.mp hx with hx | hx
      · exact hu x hx
      · exact hw x (by simpa using hx)
    have e := rtrim_blank [] this
    rw [List.nil_append] at e
    rw [e]
    rfl
  · have e : rtrim (u ++ (c ++ w)) = u ++ c := by
      have h1 : rtrim (c ++ w) = c := by rw [rtrim_blank _ hw, rtrim_tight hc.2]
      rw [rtrim_append _ (by rw [h1]; exact h), h1]
    rw [e]
    have := trim_eq hu hc (w := []) (by intro x hx; simp at hx)
    rwa [List.append_nil] at this

/-! ## Lines -/

/-- A line that reads as the cells `cs`: sections with pipes between, each of which is a cell with blanks around; an empty section may
follow. -/
structure Reads (l : Bytes) (cs : List Bytes) : Prop where
  ex : ∃ pre ps, l = pre ++ join [124] ps ∧ (pre = [124] ∨ (pre = [] ∧ l.head? ≠ some 124)) ∧ ps ≠ [] ∧ (∀ p ∈ ps, (124 : UInt8) ∉ p) ∧
    (ps.map trim = cs ∨ ∃ qs, ps = qs ++ [[]] ∧ qs.map trim = cs) ∧ join [124] ps ≠ [] ∧ (join [124] ps).getLast? ≠ some 13

theorem stripEnd_plain {l : Bytes} (h0 : l ≠ []) (h : l.getLast? ≠ some 13) : stripEnd l = some l := by
  have hl : l.length ≠ 0 := fun e => h0 (List.length_eq_zero_iff.mp e)
  have h' : ¬ l[l.length - 1]? = some 13 := by rw [← List.getLast?_eq_getElem?]; exact h
  unfold stripEnd
  simp only [h', if_false, h0, hl, List.take_length]

theorem stripEnd_cr {l : Bytes} (h0 : l ≠ []) (h : l.getLast? ≠ some 13) : stripEnd (l ++ [13]) = some l := by
  have hl : l.length ≠ 0 := fun e => h0 (List.length_eq_zero_iff.mp e)
  have h' : ¬ l[l.length - 1]? = some 13 := by rw [← List.getLast?_eq_getElem?]; exact h
  have h1 : (l ++ [13])[(l ++ [13]).length - 1]? = some 13 := by simp
  have h2 : (l ++ [(13 : UInt8)]).length - 1 = l.length := by simp
  have h3 : ¬ (l ++ [13])[l.length - 1]? = some 13 := by
    rw [List.getElem?_append_left (by omega)]
    exact h'
  unfold stripEnd
  dsimp only
  rw [if_pos h1, h2, if_neg (by simp), if_neg hl, if_neg h3, if_neg hl, List.take_left]

/-- The columns of a line: the cells, where a last one may be missing if it is empty. -/
theorem readCols_eq {l : Bytes} {cs : List Bytes} (h : Reads l cs) (cr : Bool) :
    ∃ xs, readCols (l ++ if cr then [13] else []) = some xs ∧ (xs.map trim = cs ∨ xs.map trim ++ [[]] = cs) ∧ xs ≠ [] := by
  obtain ⟨pre, ps, e1, e2, e3, e4, e5, e6, e7⟩ := h.ex
  have hs : strip (l ++ if cr then [13] else []) = some (join [124] ps) := by
    have key : strip (l ++ if cr then [13] else []) = stripEnd (join [124] ps ++ if cr then [13] else []) := by
      rcases e2 with rfl | ⟨rfl, e2⟩
      · rw [e1]
        simp [strip]
      · rw [List.nil_append] at e1
        rw [← e1] at e6 ⊢
        cases l with
        | nil => exact absurd rfl e6
        | cons c l =>
          rw [List.cons_append, strip, if_neg (by simpa using e2)]
    rw [key]
    cases cr with
    | true => exact stripEnd_cr e6 e7
    | false =>
      have := stripEnd_plain e6 e7
      simpa using this
  unfold readCols
  rw [hs]
  simp only [split_eq e3 e4, Option.map_some, Option.getD_some]
  refine ⟨_, rfl, ?_, ?_⟩
  rotate_left
  · split
    · intro e
      have := List.dropLast_concat_getLast e3
      rename_i hl
      rw [List.getLast?_eq_some_getLast e3] at hl
      rw [Option.some.inj hl, e, List.nil_append] at this
      rw [← this] at e6
      exact e6 rfl
    · exact e3
  rcases e5 with e5 | ⟨qs, rfl, e5⟩
  · split
    · rename_i hl
      right
      rw [← e5]
      have : ps = ps.dropLast ++ [[]] := by
        have := List.dropLast_concat_getLast e3
        rw [List.getLast?_eq_some_getLast e3] at hl
        rw [Option.some.inj hl] at this
        exact this.symm
      conv => rhs; rw [this]
      simp [trim, ltrim, rtrim]
    · exact .inl e5
  · rw [if_pos (by simp), List.dropLast_concat]
    exact .inl e5

end Verif.TableMd
