import Verif.TableMd.Load
import Verif.ExceptDec

/-!
# C128: tables as Markdown

A table written as Markdown and loaded into a new table.
-/

namespace Verif.TableMd
open Verif Verif.Table Verif.TableCsv Verif.TableMerge
open Verif.Parser.Scan (join split)

/-- Text that Markdown can carry: no pipe, no line feed, and no white space at either end. -/
def Plain (c : Bytes) : Prop :=
  (124 : UInt8) ∉ c ∧ (10 : UInt8) ∉ c ∧ (∀ b, c.head? = some b → b ∉ ([9, 10, 11, 12, 13, 32] : Bytes)) ∧
    ∀ b, c.getLast? = some b → b ∉ ([9, 10, 11, 12, 13, 32] : Bytes)

theorem space_of {b : UInt8} (h : b ∉ ([9, 10, 11, 12, 13, 32] : Bytes)) : Chr.isSpace b = false := by
  simp only [List.mem_cons, List.mem_nil_iff, or_false, not_or] at h
  unfold Chr.isSpace
  simp [h]

theorem Plain.tight {c : Bytes} (h : Plain c) : Tight c := ⟨fun b hb => space_of (h.2.2.1 b hb), fun b hb => space_of (h.2.2.2 b hb)⟩

/-- What loading makes of a value: an empty one is none. -/
def shown (v : Option Bytes) : Option Bytes := v.filter (· ≠ [])

theorem keep_getD (v : Option Bytes) : keep (v.getD []) = shown v := by
  cases v with
  | none => rfl
  | some c =>
    unfold keep shown
    by_cases h : c = [] <;> simp [h, Option.filter]

/-- A table written as Markdown, with any of the flags, and loaded into a new table is the same table, but for empty values which
are none.

Partial: every column must have a name, nothing may have a pipe, a line feed, or white space at its ends, and in a table of one
column written without outer pipes every row must have a value: see `pipe_fails` and `empty_fails`.  Loading into a table that has columns already is not
covered: see `columns_fails`. -/
theorem round_trip_partial {ci ci' : Bool} {rs rs' : List Nat} {hs : List (Op × Out)} {t : Tbl} (hnd : rs.Nodup) (h0 : 0 ∉ rs)
    (hh : Hist (create ci rs) hs t) (hnd' : rs'.Nodup) (h0' : 0 ∉ rs') (hci : ci' = true → ci = true) (fl : MFlags)
    {hd : List Bytes} (hn : (view t).names = hd.map some) (hc : hd ≠ []) (hr : (view t).cells ≠ [])
    (okn : ∀ n ∈ hd, n ≠ [] ∧ Plain n) (okc : ∀ r ∈ (view t).cells, ∀ v, some v ∈ r → Plain v)
    (h1 : fl.outer = false → hd.length = 1 → ∀ r ∈ (view t).cells, ∃ v, some v ∈ r ∧ v ≠ [])
    (hrs : hd.length + (view t).cells.length ≤ rs'.length) :
    ∃ text t', writeMd t fl = some text ∧ loadMd (create ci' rs') text = some (t', true) ∧
      view t' = ⟨(view t).names, (view t).cells.map (·.map shown)⟩ := by
  obtain ⟨hi, hcc, _⟩ := hist_sound (Inv.create ci hnd h0) hh
  have hcc : t.ci = ci := hcc
  have hdis : Distinct ci' hd := distinct_weaken (fun h => hcc ▸ hci h) (names_distinct hi (by rw [← abs_view]; exact hn))
  have hncols : t.cols.length = hd.length := by
    have := congrArg List.length hn
    simpa [view] using this
  have hnrows : (view t).cells.length = t.rows.length := by simp [view]
  have hn0 : hd.length ≠ 0 := fun e => hc (List.length_eq_zero_iff.mp e)
  have hr0 : t.rows.length ≠ 0 := by rw [← hnrows]; exact fun e => hr (List.length_eq_zero_iff.mp e)
  -- the header
  have hhd : (List.range t.cols.length).map (fun j => (colName t j).getD []) = hd := by
    have := congrArg (List.map fun o : Option Bytes => o.getD []) hn
    rw [view] at this
    simpa [List.map_map, Function.comp_def] using this
  have hmemh : ∀ j ∈ List.range t.cols.length, (colName t j).getD [] ∈ hd := by
    intro j hj
    rw [← hhd]
    exact List.mem_map.mpr ⟨j, hj, rfl⟩
  have hH : Cells ((List.range t.cols.length).map fun j => padded fl (width t j) ((colName t j).getD [])) hd := by
    have := cells_map (q := fun j => padded fl (width t j) ((colName t j).getD [])) (c := fun j => (colName t j).getD [])
      (l := List.range t.cols.length) fun j hj => by
        have ok := (okn _ (hmemh j hj)).2
        exact padded_cell fl _ ok.tight ok.1 ok.2.1
    rw [hhd] at this
    exact this
  -- the separator
  have hS : Cells ((List.range t.cols.length).map (dashes t fl)) ((List.range t.cols.length).map (dashes t fl)) :=
    cells_map fun j _ => by
      obtain ⟨_, _, _, h⟩ := dashes_cell t fl j
      exact h
  have hS3 : ∀ c ∈ (List.range t.cols.length).map (dashes t fl), ∃ w, 3 ≤ w ∧ c = List.replicate w 45 := by
    intro c hcm
    obtain ⟨j, _, rfl⟩ := List.mem_map.mp hcm
    obtain ⟨w, hw, e, _⟩ := dashes_cell t fl j
    exact ⟨w, hw, e⟩
  have hSne : ∀ c ∈ (List.range t.cols.length).map (dashes t fl), c ≠ [] := by
    intro c hcm e
    obtain ⟨w, hw, rfl⟩ := hS3 c hcm
    have := congrArg List.length e
    rw [List.length_replicate, List.length_nil] at this
    omega
  -- the rows
  have hcellmem : ∀ i ∈ List.range t.rows.length, ((List.range t.cols.length).map (cellAt t i)) ∈ (view t).cells := by
    intro i hi
    exact List.mem_map.mpr ⟨i, hi, rfl⟩
  have hR : Lines ((List.range t.rows.length).map fun i => (List.range t.cols.length).map fun j =>
        padded fl (width t j) ((cellAt t i j).getD []))
      ((List.range t.rows.length).map fun i => (List.range t.cols.length).map fun j => (cellAt t i j).getD []) := by
    refine lines_map fun i hi => cells_map fun j hj => ?_
    have ok : Plain ((cellAt t i j).getD []) := by
      cases e : cellAt t i j with
      | none => exact ⟨by simp, by simp, by simp, by simp⟩
      | some v => exact okc _ (hcellmem i hi) v (by rw [← e]; exact List.mem_map.mpr ⟨j, hj, rfl⟩)
    exact padded_cell fl _ ok.tight ok.1 ok.2.1
  generalize hcss : ((List.range t.rows.length).map fun i => (List.range t.cols.length).map fun j => (cellAt t i j).getD []) = css at hR
  have hlenc : ∀ cs ∈ css, cs.length = hd.length := by
    intro cs hm
    rw [← hcss] at hm
    obtain ⟨i, _, rfl⟩ := List.mem_map.mp hm
    simp [hncols]
  have hone : fl.outer = false → ∀ cs ∈ css, ∀ c, cs = [c] → c ≠ [] := by
    intro ho cs hm c e
    have hl := hlenc cs hm
    rw [← hcss] at hm
    obtain ⟨i, hi, rfl⟩ := List.mem_map.mp hm
    rw [e, List.length_singleton] at hl
    obtain ⟨v, hv, hv0⟩ := h1 ho hl.symm _ (hcellmem i hi)
    obtain ⟨j, hj, ej⟩ := List.mem_map.mp hv
    have : (cellAt t i j).getD [] ∈ [c] := by
      rw [← e]
      exact List.mem_map.mpr ⟨j, hj, rfl⟩
    rw [List.mem_singleton, ej] at this
    rw [← this]
    exact hv0
  have hsh : css.map (·.map keep) = (view t).cells.map (·.map shown) := by
    rw [← hcss, view]
    simp only [List.map_map]
    refine List.map_congr_left fun i _ => ?_
    simp only [Function.comp_apply, List.map_map]
    refine List.map_congr_left fun j _ => ?_
    exact keep_getD _
  have hlenr : css.length = (view t).cells.length := by rw [hnrows, ← hcss]; simp
  have hqne : ∀ (q : Nat → Bytes), (List.range t.cols.length).map q ≠ [] := by
    intro q e
    have := congrArg List.length e
    rw [List.length_map, List.length_range, List.length_nil] at this
    omega
  generalize hHq : ((List.range t.cols.length).map fun j => padded fl (width t j) ((colName t j).getD [])) = hq at hH
  generalize hSq : (List.range t.cols.length).map (dashes t fl) = sq at hS hS3 hSne
  generalize hRq : ((List.range t.rows.length).map fun i => (List.range t.cols.length).map fun j =>
        padded fl (width t j) ((cellAt t i j).getD [])) = rq at hR
  have hlines : linesOf t fl = hq :: sq :: rq := by unfold linesOf; rw [hHq, hSq, hRq]
  have hqn : hq ≠ [] := by rw [← hHq]; exact hqne _
  have sqn : sq ≠ [] := by rw [← hSq]; exact hqne _
  have hcssne : css ≠ [] := by
    intro e
    rw [e] at hlenr
    exact hr (List.length_eq_zero_iff.mp hlenr.symm)
  have rqn : rq ≠ [] := by rintro rfl; cases hR; exact hcssne rfl
  -- every line has cells
  have hall : ∀ {qss css : List (List Bytes)}, Lines qss css → (∀ cs ∈ css, cs ≠ [] ∧ (fl.outer = false → ∀ c, cs = [c] → c ≠ [])) →
      ∀ qs ∈ qss, qs ≠ [] ∧ ∃ cs, Cells qs cs ∧ (fl.outer = false → ∀ c, cs = [c] → c ≠ []) := by
    intro qss css h
    induction h with
    | nil => intro _ qs hm; cases hm
    | cons h _ ih =>
      intro hcs qs hm
      rcases List.mem_cons.mp hm with rfl | hm
      · refine ⟨?_, _, h, (hcs _ (by simp)).2⟩
        rintro rfl
        cases h
        exact (hcs _ (by simp)).1 rfl
      · exact ih (fun cs hm => hcs cs (List.mem_cons_of_mem _ hm)) qs hm
  have hRall := hall hR fun cs hm => ⟨fun e => by have := hlenc cs hm; rw [e] at this; exact hn0 this.symm, fun ho => hone ho cs hm⟩
  obtain ⟨lq, hlq⟩ : ∃ lq, rq.getLast? = some lq := ⟨_, List.getLast?_eq_some_getLast rqn⟩
  obtain ⟨lqn, lcs, hlc, hl1⟩ := hRall lq (List.mem_of_getLast? hlq)
  have hlast : ((linesOf t fl).map (line fl)).getLast? = some (line fl lq) := by
    rw [hlines, List.getLast?_map, List.getLast?_cons, List.getLast?_cons, hlq]
    rfl
  have rd1 := line_reads fl hlc lqn hl1 (f := id) (.inl rfl)
  have rd2 := line_reads fl hlc lqn hl1 (f := rtrim) (.inr rfl)
  have hw := writeMd_eq fl (by omega) hr0 hlast rd1.ne rd1.noCr
  -- taken apart again
  have hnl : ∀ l ∈ (linesOf t fl).map (line fl), (10 : UInt8) ∉ l := by
    intro l hm
    obtain ⟨qs, hqs, rfl⟩ := List.mem_map.mp hm
    rw [hlines] at hqs
    rcases List.mem_cons.mp hqs with rfl | hqs
    · exact line_noNl fl hH hqn
    · rcases List.mem_cons.mp hqs with rfl | hqs
      · exact line_noNl fl hS sqn
      · obtain ⟨a, cs, b, _⟩ := hRall qs hqs
        exact line_noNl fl b a
  have hhead : ∀ c, (join [10] (ends fl.win id ((linesOf t fl).map (line fl)))).head? = some c → Chr.isSpace c = false := by
    intro c e
    rw [hlines, List.map_cons, List.map_cons, ends_cons, join_cons _ _ (ends_ne _ _ (by simp))] at e
    cases hH with
    | nil => exact absurd rfl hqn
    | cons hcell _ =>
      obtain ⟨x, e1, e2⟩ := line_head fl hcell (okn _ (by simp)).1 (qs := _)
      rw [List.head?_append, List.head?_append, List.head?_append, e1] at e
      simp at e
      rw [← e]
      exact e2
  have hsplit := text_split fl hlast rd2.ne hnl hhead
  have hform : ends fl.win rtrim ((linesOf t fl).map (line fl)) =
      (line fl hq ++ if fl.win then [13] else []) :: (line fl sq ++ if fl.win then [13] else []) :: ends fl.win rtrim (rq.map (line fl)) := by
    rw [hlines]
    cases hrq : rq with
    | nil => exact absurd hrq rqn
    | cons => rfl
  have hx1 : ∀ c, hd = [c] → c ≠ [] := fun c e => (okn c (by rw [e]; simp)).1
  have hx2 : ∀ c, sq = [c] → c ≠ [] := fun c e => hSne c (by rw [e]; simp)
  obtain ⟨xs, a1, a2, a3⟩ := readCols_eq (line_reads fl hH hqn (fun _ => hx1) (f := id) (.inl rfl)) fl.win
  obtain ⟨ys, b1, b2, b3⟩ := readCols_eq (line_reads fl hS sqn (fun _ => hx2) (f := id) (.inl rfl)) fl.win
  have hxs : xs.map trim = hd := by
    rcases a2 with a2 | a2
    · exact a2
    · exact absurd rfl (okn [] (by rw [← a2]; simp)).1
  have hys : ys.map trim = sq := by
    rcases b2 with b2 | b2
    · exact b2
    · exact absurd rfl (hSne [] (by rw [← b2]; simp))
  have hsep : ys.all sepOk = true := by
    rw [List.all_eq_true]
    intro y hy
    obtain ⟨w, hw, e⟩ := hS3 (trim y) (by rw [← hys]; exact List.mem_map.mpr ⟨y, hy, rfl⟩)
    exact sepOk_dashes e hw
  -- loaded
  have hxl : xs.length = hd.length := by rw [← hxs]; simp
  have habs0 : abs (create ci' rs') = ⟨[], []⟩ := rfl
  obtain ⟨t1, c1, c2, c3, c4, c5⟩ := addCols_spec xs (Inv.create ci' hnd' h0') (by rw [hxs]; exact fun n hn => (okn n hn).1)
    (by rw [hxs]; exact hdis) (by intro n _; rfl) (by show xs.length ≤ rs'.length; omega)
  rw [habs0, hxs] at c5
  have hc1 : t1.cols.length = hd.length := by rw [← abs_ncols, c5]; simp
  have c4 : rs'.length ≤ t1.rs.length + xs.length := c4
  obtain ⟨t', d1, d2, d3⟩ := readRows_spec (rows_read fl hR hlenc hn0 hone) c2 hc1 (by omega)
  refine ⟨_, t', hw, ?_, ?_⟩
  · unfold loadMd
    rw [hsplit, hform, Option.bind_some]
    cases he : ends fl.win rtrim (rq.map (line fl)) with
    | nil => exact absurd he (ends_ne _ _ (by simpa using rqn))
    | cons d ds =>
      rw [he] at d1
      dsimp only
      have a1' : readCols (line fl hq ++ if fl.win then [13] else []) = some xs := a1
      have b1' : readCols (line fl sq ++ if fl.win then [13] else []) = some ys := b1
      rw [a1', Option.bind_some, if_neg a3, c1, Option.bind_some, b1', Option.bind_some,
        if_neg (by rintro (h | h); exact b3 h; rw [hsep] at h; cases h)]
      exact d1
  · rw [abs_view, d3, c5, hsh, hn]
    simp

/-- Nothing is written for a table without columns or without rows, and only then. -/
theorem write_refused (t : Tbl) (fl : MFlags) : writeMd t fl = none ↔ (view t).names = [] ∨ (view t).cells = [] := by
  have h1 : (view t).names = [] ↔ t.cols.length = 0 := by
    rw [← List.length_eq_zero_iff]; simp [view]
  have h2 : (view t).cells = [] ↔ t.rows.length = 0 := by
    rw [← List.length_eq_zero_iff]; simp [view]
  rw [h1, h2]
  unfold writeMd
  split
  · rename_i h
    exact ⟨fun _ => h, fun _ => rfl⟩
  · rename_i h
    exact ⟨fun e => (nomatch e), fun e => absurd e h⟩

/-- A text of fewer than three lines is refused and the table is as it was. -/
theorem short_refused (t : Tbl) {data : Bytes} (h : (data.filter (· = 10)).length < 2) : loadMd t data = some (t, false) := by
  have hsub : (rtrim (ltrim data)).Sublist data := by
    obtain ⟨w, e, _⟩ := rtrim_split (ltrim data)
    have h1 : (rtrim (ltrim data)).Sublist (ltrim data) := by
      have := List.sublist_append_left (rtrim (ltrim data)) w
      rw [← e] at this
      exact this
    exact h1.trans (List.dropWhile_sublist _)
  have hcnt : ((rtrim (ltrim data)).filter (· = 10)).length < 2 := Nat.lt_of_le_of_lt (hsub.filter _).length_le h
  unfold loadMd
  generalize rtrim (ltrim data) = x at hcnt
  by_cases hx : (10 : UInt8) ∈ x
  · obtain ⟨a, b, rfl, ha⟩ := List.eq_append_cons_of_mem hx
    have hb : (10 : UInt8) ∉ b := by
      intro hb
      have : 0 < (b.filter (· = 10)).length := List.length_pos_of_mem (List.mem_filter.mpr ⟨hb, by simp⟩)
      rw [List.filter_append, List.length_append, List.filter_cons_of_pos (by simp), List.length_cons] at hcnt
      omega
    have e : a ++ 10 :: b = join [10] [a, b] := by simp [join]
    rw [e, split_eq (by simp) (by
      intro p hp
      simp only [List.mem_cons, List.mem_nil_iff, or_false] at hp
      rcases hp with rfl | rfl
      · exact ha
      · exact hb), Option.bind_some]
    split
    · rename_i he
      split at he <;> simp at he
    · rfl
  · have e : x = join [10] [x] := rfl
    rw [e, split_eq (by simp) (by
      intro p hp
      rw [List.mem_singleton.mp hp]
      exact hx), Option.bind_some]
    split
    · rename_i he
      split at he <;> simp at he
    · rfl

/-! ## Witnesses -/

/-- Two columns `a` and `b` and two rows, the second with an empty cell. -/
def sample : Tbl :=
  let ops := (insCol (create false [11, 12, 13, 14]) 0 [97]).bind fun x => (insCol x.1 1 [98]).bind fun x =>
    (insRow x.1 0).bind fun x => (insRow x.1 1).map fun x => (setAt (setAt (setAt x.1 0 0 (some [120, 32, 121])).1 0 1 (some [122])).1 1 0 (some [49])).1
  ops.getD (create false [])

-- `a | b`, `--- | ---`, `x y | z`, `1 |`
example : writeMd sample ⟨false, false, false⟩ =
    some [97, 32, 124, 32, 98, 10, 45, 45, 45, 32, 124, 32, 45, 45, 45, 10, 120, 32, 121, 32, 124, 32, 122, 10, 49, 32, 124, 32] := by
  decide +kernel

example : ((writeMd sample ⟨true, true, true⟩).bind fun x => (loadMd (create false [1, 2, 3, 4]) x).map fun r => (view r.1, r.2)) =
    some (⟨[some [97], some [98]], [[some [120, 32, 121], some [122]], [some [49], none]]⟩, true) := by decide +kernel

/-- One column and one row. -/
def one (n : Bytes) (v : Option Bytes) : Tbl :=
  let ops := (insCol (create false [11, 12]) 0 n).bind fun x => (insRow x.1 0).map fun x => (setAt x.1 0 0 v).1
  ops.getD (create false [])

/-- The hypotheses of `round_trip_partial` can be met. -/
example : ∃ hs t, Hist (create false [11, 12, 13, 14]) hs t ∧ hs.length = 7 ∧ (view t).names = [[97], [98]].map some ∧
    (view t).cells = [[some [120, 32, 121], some [122]], [some [49], none]] := by
  have h : ∀ t op t' out, Ok t.ci (view t) op → Lawful op → step t op = some (t', out) → ∀ hs t'', Hist t' hs t'' →
    Hist t ((op, out) :: hs) t'' := fun _ _ _ _ h1 h2 h3 _ _ h4 => .cons h1 h2 h3 h4
  exact ⟨_, _, h _ (.insCol 0 [97]) _ _ trivial trivial rfl _ _ (h _ (.insCol 1 [98]) _ _ trivial trivial rfl _ _
    (h _ (.insRow 0) _ _ trivial trivial rfl _ _ (h _ (.insRow 1) _ _ trivial trivial rfl _ _
    (h _ (.setAt 0 0 (some [120, 32, 121])) _ _ trivial trivial rfl _ _ (h _ (.setAt 0 1 (some [122])) _ _ trivial trivial rfl _ _
    (h _ (.setAt 1 0 (some [49])) _ _ trivial trivial rfl _ _ .nil)))))), rfl, by decide +kernel, by decide +kernel⟩

example : Plain [120, 32, 121] := by
  refine ⟨by decide, by decide, ?_, ?_⟩
  · intro b hb; cases hb; decide
  · intro b hb; cases hb; decide

/-- A value with a pipe in it is written as it is, and the row is then refused for having too many cells. -/
theorem pipe_fails : ((writeMd (one [97] (some [98, 124, 99])) ⟨false, false, false⟩).bind fun x =>
    (loadMd (create false [1, 2]) x).map fun r => (view r.1, r.2)) = some (⟨[some [97]], []⟩, false) := by decide +kernel

/-- In a table of one column the line of a row without a value is empty: without outer pipes what is written is refused. -/
theorem empty_fails : ((writeMd (one [97] none) ⟨false, false, false⟩).bind fun x =>
    (loadMd (create false [1, 2]) x).map fun r => (view r.1, r.2)) = some (⟨[], []⟩, false) := by decide +kernel

/-- Loading into a table with a column: the columns of the text are added after it, but the values go to the columns from the first
on, whatever their names are. -/
theorem columns_fails : ((writeMd (one [98] (some [118])) ⟨false, false, false⟩).bind fun x =>
    (insCol (create false [1, 2, 3]) 0 [97]).bind fun y => (loadMd y.1 x).map fun r => (view r.1, r.2)) =
    some (⟨[some [97], some [98]], [[some [118], none]]⟩, true) := by decide +kernel

/-- A text that is refused for its second line has had its columns added: `a`, `x`, `1`. -/
theorem refused_fails : (loadMd (create false [1, 2]) [97, 10, 120, 10, 49]).map (fun r => (view r.1, r.2)) =
    some (⟨[some [97]], []⟩, false) := by decide +kernel

end Verif.TableMd
