import Verif.TableCsv.Model
import Verif.TableCsv.Spec

/-!
# Lemmas about writing CSV
-/

namespace Verif.TableCsv
open Verif Verif.Table
open Verif.Csv (Tok toks split content keep blank value0 finish Good norm CellOk double removeQuotes)

theorem level_two (q : UInt8) (req : List UInt8) : ∀ (s : List UInt8) (l : Nat), q ∈ s → level q req l s = 2
  | [], _, h => by cases h
  | c :: s, l, h => by
    rw [level]
    by_cases e : c = q
    · rw [if_pos e]
    · rw [if_neg e]
      exact level_two q req s _ ((List.mem_cons.mp h).resolve_left (Ne.symm e))

theorem level_one (q : UInt8) (req : List UInt8) : ∀ s : List UInt8, q ∉ s → level q req 1 s = 1
  | [], _ => rfl
  | c :: s, h => by
    rw [level, if_neg (fun e => h (by simp [e])), if_neg (by simp)]
    exact level_one q req s fun h' => h (by simp [h'])

theorem level_zero (q : UInt8) (req : List UInt8) : ∀ s : List UInt8, q ∉ s →
    level q req 0 s = if s.any fun c => decide (c ∈ req.takeWhile (· ≠ 0)) then 1 else 0
  | [], _ => by simp [level]
  | c :: s, h => by
    have hs : q ∉ s := fun h' => h (by simp [h'])
    rw [level, if_neg (fun e => h (by simp [e])), List.any_cons]
    by_cases hc : c ∈ req.takeWhile (· ≠ 0)
    · rw [if_pos ⟨rfl, hc⟩, level_one q req s hs]
      simp only [hc, decide_true, Bool.true_or, if_true]
    · rw [if_neg (fun h => hc h.2), level_zero q req s hs]
      simp only [hc, decide_false, Bool.false_or]

theorem escape_double (q : UInt8) : ∀ s : List UInt8, escape q s = double q s
  | [] => rfl
  | c :: s => by
    rw [escape, double, escape_double q s]
    split
    · rename_i e; simp [e]
    · simp

/-- A cell as it is written: with quotes if there is anything special in it. -/
theorem quoted_eq {d q : UInt8} (g : Good d q) (s : List UInt8) :
    quoted d q (some s) = if s.any fun c => decide (c = d ∨ c = q ∨ c = 13 ∨ c = 10) then q :: double q s ++ [q] else s := by
  have htw : ([d, q, 13, 10] : List UInt8).takeWhile (· ≠ 0) = [d, q, 13, 10] :=
    Csv.takeWhile_all (by simp [g.d0, g.q0])
  unfold quoted
  dsimp only
  by_cases hq : q ∈ s
  · rw [level_two q _ s 0 hq, if_pos (by decide), if_neg (by decide), escape_double, if_pos]
    · simp
    · rw [List.any_eq_true]
      exact ⟨q, hq, by simp⟩
  · rw [level_zero q _ s hq, htw]
    have he : (s.any fun c => decide (c ∈ [d, q, 13, 10])) = s.any fun c => decide (c = d ∨ c = q ∨ c = 13 ∨ c = 10) := by
      congr 1
      funext c
      simp
    rw [he]
    split
    · rw [if_pos (by decide), if_pos (by decide), Csv.double_plain hq]
      simp
    · simp

/-- A written cell is one field and its value is the cell. -/
theorem cell_tok {d q : UInt8} (g : Good d q) (cell : Option Bytes) (ok : CellOk q cell) (rest : List UInt8) :
    toks d q false (quoted d q cell ++ rest) = (quoted d q cell).map .byte ++ toks d q false rest ∧
      value0 false q ((quoted d q cell).map .byte) = norm cell := by
  have hempty : value0 false q ([].map Tok.byte) = none := by simp [value0, finish, content]
  match cell, ok with
  | none, _ => exact ⟨rfl, hempty⟩
  | some [], _ =>
    have : quoted d q (some []) = [] := by rw [quoted_eq g]; rfl
    rw [this]
    exact ⟨rfl, hempty⟩
  | some (x :: s), ok =>
    obtain ⟨hz, hne⟩ := ok _ rfl
    have hne := hne (by simp)
    rw [quoted_eq g]
    by_cases hq : ((x :: s).any fun c => decide (c = d ∨ c = q ∨ c = 13 ∨ c = 10)) = true
    · rw [if_pos hq]
      refine ⟨?_, ?_⟩
      · simp only [List.cons_append, List.append_assoc, toks, if_true, Bool.not_false, List.map_cons, List.map_append, List.map_nil]
        rw [Csv.toks_double]
        simp [toks]
      · unfold value0 finish
        rw [Csv.content_bytes]
        have hm : Tok.byte q ∈ (q :: double q (x :: s) ++ [q]).map Tok.byte := by simp
        simp only [hm, decide_true, if_true]
        rw [Csv.takeWhile_all]
        · rw [removeQuotes, Csv.remove_enclosed q _ hne, if_neg]
          · rfl
          · intro e
            obtain ⟨c, hc, hn⟩ := hne
            rw [e] at hc
            exact hn (by simpa using hc)
        · intro c hc
          simp only [List.mem_append, List.mem_cons] at hc
          have : c ∈ x :: s ∨ c = q := by
            rcases hc with (h | h) | h
            · exact Or.inr h
            · exact Csv.double_mem h
            · exact Or.inr (by simpa using h)
          rcases this with h | h
          · simpa using fun e : c = 0 => hz (e ▸ h)
          · simpa [h] using g.q0
    · rw [if_neg hq]
      have hpl : ∀ c ∈ x :: s, c ≠ q ∧ c ≠ d ∧ c ≠ 10 ∧ c ≠ 13 := by
        intro c hc
        have : ¬ (c = d ∨ c = q ∨ c = 13 ∨ c = 10) := fun h => hq (List.any_eq_true.mpr ⟨c, hc, by simpa using h⟩)
        simp only [not_or] at this
        exact ⟨this.2.1, this.1, this.2.2.2, this.2.2.1⟩
      refine ⟨Csv.toks_plain d q _ _ hpl, ?_⟩
      unfold value0 finish
      rw [Csv.content_bytes]
      have hm : ¬ Tok.byte q ∈ (x :: s).map Tok.byte := by
        rw [List.mem_map]
        rintro ⟨c, hc, e⟩
        exact (hpl c hc).1 (by simpa using e)
      simp only [hm, decide_false, Bool.false_eq_true, if_false]
      rw [Csv.takeWhile_all fun c hc => by simpa using fun e : c = 0 => hz (e ▸ hc)]
      simp [norm]

/-! ## Rows -/

/-- A row as it is written. -/
def rowText (d q : UInt8) : List (Option Bytes) → List UInt8
  | [] => []
  | [c] => quoted d q c
  | c :: c' :: cs => quoted d q c ++ d :: rowText d q (c' :: cs)

theorem flatMap_row (d q : UInt8) : ∀ row : List (Option Bytes), row ≠ [] →
    (row.flatMap fun c => quoted d q c ++ [d]) = rowText d q row ++ [d]
  | [], h => absurd rfl h
  | [c], _ => by simp [rowText]
  | c :: c' :: cs, _ => by
    rw [List.flatMap_cons, flatMap_row d q (c' :: cs) (by simp), rowText]; simp

theorem addLine_eq (d q : UInt8) (b : List UInt8) (row : List (Option Bytes)) (h : row ≠ []) :
    addLine d q b row = b ++ rowText d q row ++ [13, 10] := by
  unfold addLine
  rw [flatMap_row d q row h, ← List.append_assoc, List.dropLast_concat]

/-- The tokens of a written row. -/
def rowToks (d q : UInt8) : List (Option Bytes) → List Tok
  | [] => []
  | [c] => (quoted d q c).map .byte
  | c :: c' :: cs => (quoted d q c).map .byte ++ .field :: rowToks d q (c' :: cs)

theorem row_tok {d q : UInt8} (g : Good d q) (rest : List UInt8) : ∀ row : List (Option Bytes), (∀ c ∈ row, CellOk q c) →
    toks d q false (rowText d q row ++ rest) = rowToks d q row ++ toks d q false rest
  | [], _ => rfl
  | [c], h => (cell_tok g c (h c (by simp)) rest).1
  | c :: c' :: cs, h => by
    rw [rowText, rowToks, List.append_assoc, (cell_tok g c (h c (by simp)) _).1, List.cons_append, toks, if_neg g.dq]
    simp only [Bool.false_eq_true, if_false, if_true]
    rw [row_tok g rest (c' :: cs) fun x hx => h x (by simp [hx])]
    simp

theorem rowToks_row (d q : UInt8) : ∀ row : List (Option Bytes), Tok.row ∉ rowToks d q row
  | [] => by simp [rowToks]
  | [c] => (Csv.bytes_free _).2
  | c :: c' :: cs => by
    rw [rowToks, List.mem_append, List.mem_cons]
    rintro (h | h | h)
    · exact (Csv.bytes_free _).2 h
    · cases h
    · exact rowToks_row d q (c' :: cs) h

/-- The values of the fields of a written row, whether or not a carriage return follows. -/
theorem rowToks_values {d q : UInt8} (g : Good d q) (e : List Tok) (he : e = [] ∨ e = [.cr]) :
    ∀ row : List (Option Bytes), row ≠ [] → (∀ c ∈ row, CellOk q c) →
    (split .field (rowToks d q row ++ e)).map (value0 false q) = row.map norm
  | [], h, _ => absurd rfl h
  | [c], _, h => by
    have hv := (cell_tok g c (h c (by simp)) []).2
    have hfree : Tok.field ∉ rowToks d q [c] ++ e := by
      rw [List.mem_append]
      rintro (h | h)
      · exact (Csv.bytes_free _).1 h
      · rcases he with rfl | rfl <;> simp at h
    rw [Csv.split_none _ _ hfree]
    simp only [List.map_cons, List.map_nil, List.cons.injEq, and_true]
    rw [← hv]
    rcases he with rfl | rfl
    · rw [List.append_nil]; rfl
    · rw [rowToks]
      unfold value0 finish
      have hc : content ((quoted d q c).map .byte ++ [.cr]) = quoted d q c ++ [0] := by
        generalize quoted d q c = s
        induction s with
        | nil => rfl
        | cons x s ih => simp [content, ih]
      rw [hc, Csv.content_bytes]
      have hm : decide (Tok.byte q ∈ (quoted d q c).map Tok.byte ++ [Tok.cr]) = decide (Tok.byte q ∈ (quoted d q c).map Tok.byte) := by
        congr 1; simp
      have htw : (quoted d q c ++ [0]).takeWhile (fun x => decide (x ≠ 0)) = (quoted d q c).takeWhile (fun x => decide (x ≠ 0)) := by
        generalize quoted d q c = s
        induction s with
        | nil => simp
        | cons x s ih => simp only [List.cons_append, List.takeWhile_cons, ih]
      rw [hm, htw]
  | c :: c' :: cs, _, h => by
    rw [rowToks, List.append_assoc, List.cons_append, Csv.split_append _ _ _ (Csv.bytes_free _).1, List.map_cons,
      rowToks_values g e he (c' :: cs) (by simp) (fun x hx => h x (by simp [hx])), (cell_tok g c (h c (by simp)) []).2]
    rfl

/-! ## The whole text -/

/-- Rows with line ends between them. -/
def lines (d q : UInt8) : List (List (Option Bytes)) → List UInt8
  | [] => []
  | [r] => rowText d q r
  | r :: s :: rs => rowText d q r ++ 13 :: 10 :: lines d q (s :: rs)

theorem lines_end (d q : UInt8) : ∀ m : List (List (Option Bytes)), m ≠ [] →
    (m.flatMap fun r => rowText d q r ++ [13, 10]) = lines d q m ++ [13, 10]
  | [], h => absurd rfl h
  | [r], _ => by simp [lines]
  | r :: s :: rs, _ => by
    rw [List.flatMap_cons, lines_end d q (s :: rs) (by simp), lines]
    simp

theorem fold_lines (d q : UInt8) : ∀ (m : List (List (Option Bytes))) (b : List UInt8), (∀ r ∈ m, r ≠ []) →
    m.foldl (addLine d q) b = b ++ m.flatMap fun r => rowText d q r ++ [13, 10]
  | [], b, _ => by simp
  | r :: m, b, h => by
    rw [List.foldl_cons, addLine_eq d q b r (h r (by simp)), fold_lines d q m _ fun x hx => h x (by simp [hx])]
    simp

/-- What is written, in terms of the grid. -/
theorem writeCsv_eq (t : Tbl) (d q : UInt8) (header : Bool) (hc : t.cols ≠ []) (hr : header = true ∨ t.rows ≠ []) :
    writeCsv t d q header = lines d q ((if header then [(view t).names] else []) ++ (view t).cells) := by
  have hlen : (List.range t.cols.length) ≠ [] := by
    intro h
    have := congrArg List.length h
    simp only [List.length_range, List.length_nil] at this
    exact hc (List.length_eq_zero_iff.mp this)
  have hne : ∀ r ∈ (if header then [(view t).names] else []) ++ (view t).cells, r ≠ [] := by
    intro r hr
    have hn : (view t).names ≠ [] := by simpa [view] using hlen
    rcases List.mem_append.mp hr with h | h
    · split at h
      · rw [List.mem_singleton.mp h]; exact hn
      · cases h
    · obtain ⟨i, _, rfl⟩ := List.mem_map.mp h
      simpa using hlen
  have hm : (if header then [(view t).names] else []) ++ (view t).cells ≠ [] := by
    rcases hr with h | h
    · simp [h]
    · have : (view t).cells ≠ [] := by
        intro e
        have := congrArg List.length e
        simp only [view, List.length_map, List.length_range, List.length_nil] at this
        exact h (List.length_eq_zero_iff.mp this)
      simp [this]
  have hw : ((List.range t.rows.length).foldl
      (fun b i => addLine d q b ((List.range t.cols.length).map (cellAt t i)))
      (if header then addLine d q [] ((List.range t.cols.length).map (colName t)) else [])) =
      ((if header then [(view t).names] else []) ++ (view t).cells).foldl (addLine d q) [] := by
    rw [List.foldl_append]
    have : (if header = true then [(view t).names] else []).foldl (addLine d q) [] =
        if header then addLine d q [] ((List.range t.cols.length).map (colName t)) else [] := by
      cases header <;> rfl
    rw [this]
    unfold view
    rw [List.foldl_map]
  unfold writeCsv
  dsimp only
  rw [hw, fold_lines d q _ _ hne, List.nil_append, lines_end d q _ hm]
  simp

theorem lines_split {d q : UInt8} (g : Good d q) : ∀ m : List (List (Option Bytes)), m ≠ [] → (∀ r ∈ m, ∀ c ∈ r, CellOk q c) →
    split .row (toks d q false (lines d q m)) =
      m.dropLast.map (fun r => rowToks d q r ++ [.cr]) ++ [rowToks d q (m.getLastD [])]
  | [], h, _ => absurd rfl h
  | [r], _, h => by
    have := row_tok g [] r (h r (by simp))
    rw [List.append_nil] at this
    rw [lines, this]
    show split .row (rowToks d q r ++ []) = _
    rw [List.append_nil, Csv.split_none _ _ (rowToks_row d q r)]
    rfl
  | r :: s :: rs, _, h => by
    rw [lines, row_tok g _ r (h r (by simp))]
    have : toks d q false (13 :: 10 :: lines d q (s :: rs)) = .cr :: .row :: toks d q false (lines d q (s :: rs)) := by
      have a1 : (13 : UInt8) ≠ q := Ne.symm g.qr
      have a2 : (13 : UInt8) ≠ d := Ne.symm g.dr
      have a3 : (10 : UInt8) ≠ q := Ne.symm g.qn
      have a4 : (10 : UInt8) ≠ d := Ne.symm g.dn
      simp [toks, a1, a2, a3, a4]
    rw [this]
    have e : rowToks d q r ++ Tok.cr :: Tok.row :: toks d q false (lines d q (s :: rs)) =
        (rowToks d q r ++ [Tok.cr]) ++ Tok.row :: toks d q false (lines d q (s :: rs)) := by simp
    rw [e, Csv.split_append, lines_split g (s :: rs) (by simp) fun x hx => h x (by simp [hx])]
    · simp
    · rw [List.mem_append]
      rintro (h | h)
      · exact rowToks_row d q r h
      · simp at h

theorem keep_last (d : UInt8) : ∀ (first : Bool) (rs : List (List Tok)) (r : List Tok), (∀ f, blank d f r = false) →
    keep d first (rs ++ [r]) = rs ++ [r]
  | _, [], r, h => by rw [List.nil_append, keep, if_neg (by simp [h])]
  | first, s :: rs, r, h => by
    have ih := keep_last d false rs r h
    rcases hrs : rs ++ [r] with _ | ⟨a, b⟩
    · simp at hrs
    · rw [List.cons_append, hrs, keep, ← hrs, ih]

/-- A row that is not lost when it is the last one: more than one column, or a value. -/
def Shows (r : List (Option Bytes)) : Prop := 1 < r.length ∨ ∃ s, some s ∈ r ∧ s ≠ []

theorem quoted_ne {d q : UInt8} (g : Good d q) {s : List UInt8} (h : s ≠ []) : quoted d q (some s) ≠ [] := by
  rw [quoted_eq g]
  split
  · simp
  · exact h

theorem shows_blank {d q : UInt8} (g : Good d q) {r : List (Option Bytes)} (h : Shows r) (f : Bool) :
    blank d f (rowToks d q r) = false := by
  have hd : (d = 13) = False := by simp [g.dr]
  unfold blank
  rw [List.all_eq_false]
  match r, h with
  | [], h => rcases h with h | ⟨s, h, _⟩; simp at h; cases h
  | [c], h =>
    rcases h with h | ⟨s, h, hs⟩
    · simp at h
    · have := List.mem_singleton.mp h
      subst this
      rw [rowToks]
      rcases hq : quoted d q (some s) with _ | ⟨x, l⟩
      · exact absurd hq (quoted_ne g hs)
      · exact ⟨.byte x, by simp, by simp⟩
  | c :: c' :: cs, _ => exact ⟨.field, by rw [rowToks]; simp, by simp [g.dr]⟩

/-- The written text is read as the rows that were written. -/
theorem lines_parse {d q : UInt8} (g : Good d q) (m : List (List (Option Bytes))) (n : Nat) (hm : m ≠ []) (hn : 0 < n)
    (hrect : ∀ r ∈ m, r.length = n) (ok : ∀ r ∈ m, ∀ c ∈ r, CellOk q c) (hlast : Shows (m.getLastD [])) :
    Csv.parse false d q (lines d q m) = some (some (m.map (·.map norm))) := by
  have hne : ∀ r ∈ m, r ≠ [] := fun r hr e => by have := hrect r hr; rw [e] at this; simp at this; omega
  rw [Csv.parse_correct]
  unfold Csv.table
  rw [← Csv.value0_eq, lines_split g m hm ok, keep_last d true _ _ (shows_blank g hlast)]
  have hv : ∀ (e : List Tok), (e = [] ∨ e = [Tok.cr]) → ∀ s ∈ m,
      (split .field (rowToks d q s ++ e)).map (value0 false q) = s.map norm :=
    fun e he s hs => rowToks_values g e he s (hne s hs) (ok s hs)
  have hl : ∀ (e : List Tok), (e = [] ∨ e = [Tok.cr]) → ∀ s ∈ m, (split .field (rowToks d q s ++ e)).length = n := by
    intro e he s hs
    have := congrArg List.length (hv e he s hs)
    simp only [List.length_map] at this
    rw [this, hrect s hs]
  have hfit : ∀ (e : List Tok), (e = [] ∨ e = [Tok.cr]) → ∀ s ∈ m,
      Csv.fit n ((split .field (rowToks d q s ++ e)).map (value0 false q)) = s.map norm := by
    intro e he s hs
    rw [hv e he s hs, Csv.fit]
    have := hrect s hs
    rw [List.take_of_length_le (by simp; omega), List.length_map, this]
    simp
  have hlm : m.getLastD [] = m.getLast hm := by
    rw [List.getLastD_eq_getLast?, List.getLast?_eq_some_getLast hm]; rfl
  have hmem : m.getLastD [] ∈ m := by rw [hlm]; exact List.getLast_mem hm
  have hall : ∀ (cols : Nat), cols = n →
      (m.dropLast.map (fun r => rowToks d q r ++ [Tok.cr]) ++ [rowToks d q (m.getLastD [])]).map
        (fun s => Csv.fit cols ((split .field s).map (value0 false q))) = m.map (·.map norm) := by
    rintro cols rfl
    rw [List.map_append, List.map_map]
    have e1 : m.dropLast.map ((fun s => Csv.fit cols ((split .field s).map (value0 false q))) ∘ fun r => rowToks d q r ++ [Tok.cr]) =
        m.dropLast.map (·.map norm) :=
      List.map_congr_left fun s hs => hfit [Tok.cr] (.inr rfl) s (List.dropLast_subset m hs)
    have e2 := hfit [] (.inl rfl) _ hmem
    rw [List.append_nil] at e2
    rw [e1, List.map_cons, List.map_nil, e2]
    have e3 : m.map (·.map norm) = (m.dropLast ++ [m.getLast hm]).map (·.map norm) := by
      rw [List.dropLast_concat_getLast]
    rw [e3, List.map_append, hlm]
    rfl
  have hfirst : ∀ r rs, m.dropLast.map (fun r => rowToks d q r ++ [Tok.cr]) ++ [rowToks d q (m.getLastD [])] = r :: rs →
      (split .field r).length = n := by
    intro r rs e
    rcases hdl : m.dropLast with _ | ⟨a, b⟩
    · rw [hdl] at e
      have := (List.cons.inj e).1
      rw [← this]
      have := hl [] (.inl rfl) _ hmem
      rwa [List.append_nil] at this
    · rw [hdl] at e
      have := (List.cons.inj e).1
      rw [← this]
      exact hl [Tok.cr] (.inr rfl) a (List.dropLast_subset m (by rw [hdl]; simp))
  rcases hrs : m.dropLast.map (fun r => rowToks d q r ++ [Tok.cr]) ++ [rowToks d q (m.getLastD [])] with _ | ⟨r, rs⟩
  · simp at hrs
  · have hmm : ∀ l : List (List Tok), l = r :: rs → (match l with
        | [] => (none : Option Csv.Matrix)
        | r :: rs => some ((r :: rs).map fun s => Csv.fit (split .field r).length ((split .field s).map (value0 false q)))) =
        some (l.map fun s => Csv.fit (split .field r).length ((split .field s).map (value0 false q))) := by
      rintro _ rfl; rfl
    have := hmm _ hrs
    rw [hall _ (hfirst r rs hrs)] at this
    rw [hrs] at this
    exact congrArg some this

end Verif.TableCsv
