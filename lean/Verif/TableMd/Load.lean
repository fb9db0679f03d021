import Verif.TableMd.Text
import Verif.TableMerge.Props

/-!
# Loading what was written
-/

namespace Verif.TableMd
open Verif Verif.Table Verif.TableCsv
open Verif.Parser.Scan (join split)

theorem Reads.ne {l : Bytes} {cs : List Bytes} (h : Reads l cs) : l ≠ [] := by
  obtain ⟨pre, ps, e1, -, -, -, -, e6, -⟩ := h.ex
  intro e
  rw [e] at e1
  exact e6 (List.append_eq_nil_iff.mp e1.symm).2

theorem Reads.noCr {l : Bytes} {cs : List Bytes} (h : Reads l cs) : l.getLast? ≠ some 13 := by
  obtain ⟨pre, ps, e1, -, -, -, -, e6, e7⟩ := h.ex
  rw [e1, List.getLast?_append]
  cases e : (join [124] ps).getLast? with
  | none => exact absurd (List.getLast?_eq_none_iff.mp e) e6
  | some x =>
    rw [e] at e7
    simpa using e7

theorem line_noNl (fl : MFlags) {qs cs : List Bytes} (h : Cells qs cs) (h0 : qs ≠ []) : (10 : UInt8) ∉ line fl qs := by
  rw [line_eq fl h0]
  have := join_noNl h
  cases fl.outer <;> simp [this]

theorem line_head (fl : MFlags) {q c : Bytes} {qs : List Bytes} (h : Cell q c) (hc : c ≠ []) :
    ∃ x, (line fl (q :: qs)).head? = some x ∧ Chr.isSpace x = false := by
  rw [line_eq fl (by simp)]
  cases fl.outer with
  | true => exact ⟨124, rfl, by decide⟩
  | false =>
    cases c with
    | nil => exact absurd rfl hc
    | cons x c =>
      obtain ⟨k, rfl⟩ := h.pad
      refine ⟨x, ?_, h.tight.1 x rfl⟩
      cases qs <;> rfl

/-! ## The header -/

theorem addCols_spec : ∀ (xs : List Bytes) {t : Tbl}, Inv t → (∀ n ∈ xs.map trim, n ≠ []) → Distinct t.ci (xs.map trim) →
    (∀ n ∈ xs.map trim, (abs t).find t.ci n = none) → xs.length ≤ t.rs.length →
    ∃ t', addCols xs t = some t' ∧ Inv t' ∧ t'.ci = t.ci ∧ t.rs.length ≤ t'.rs.length + xs.length ∧
      abs t' = ⟨(abs t).names ++ (xs.map trim).map some, (abs t).cells.map (· ++ xs.map fun _ => none)⟩
  | [], t, h, _, _, _, _ => ⟨t, rfl, h, rfl, by simp, by simp⟩
  | c :: xs, t, h, hne, hd1, hf, hl => by
    have hn : trim c ≠ [] := hne _ (by simp)
    rw [List.map_cons] at hd1
    obtain ⟨hd2, hd3⟩ := List.pairwise_cons.mp hd1
    rw [List.length_cons] at hl
    have hfc : (abs t).find t.ci (trim c) = none := hf _ (by simp)
    have hk : aget (nmeq t.ci) t.nameId (trim c) = none := by
      cases hk : aget (nmeq t.ci) t.nameId (trim c) with
      | none => rfl
      | some c =>
        obtain ⟨j, hj, _⟩ := h.find_some hk
        rw [hfc] at hj
        cases hj
    obtain ⟨⟨t1, o⟩, e, _⟩ := insCol_total h (i := t.cols.length) (name := trim c) (by omega)
    obtain ⟨id, -, i1, i2, i3, i4, i5, i6, i7⟩ := insCol_spec h (Nat.le_refl _) (fun _ => hk) e
    have hrs := insCol_rs h (fun _ => hk) (by omega) e
    rw [← abs_ncols, addCol_end _ _ (abs_rect t), named, if_neg hn] at i3
    obtain ⟨t', e1, e2, e3, e4, e5⟩ := addCols_spec xs i1 (fun n hn => hne n (by rw [List.map_cons]; exact List.mem_cons_of_mem _ hn))
      (i2 ▸ hd3) (fun k hk => by
        have h1 := hf k (by rw [List.map_cons]; exact List.mem_cons_of_mem _ hk)
        rw [i2, ← Option.isNone_iff_eq_none, i3, find_append t.ci _ _ (abs t).cells]
        have : (Grid.find t.ci ⟨(abs t).names, (abs t).cells⟩ k) = none := h1
        simp [this, hd2 k hk]) (by omega)
    refine ⟨t', ?_, e2, e3.trans i2, by rw [List.length_cons]; omega, ?_⟩
    · rw [addCols, e, Option.bind_some]
      exact e1
    · rw [e5, i3]
      simp [List.map_map, Function.comp_def]

/-! ## The separator -/

theorem sepOk_dashes {x : Bytes} {w : Nat} (h : trim x = List.replicate w 45) (hw : 3 ≤ w) : sepOk x = true := by
  unfold sepOk
  rw [h]
  obtain ⟨v, rfl⟩ : ∃ v, w = v + 1 := ⟨w - 1, by omega⟩
  have h1 : ¬ (List.replicate (v + 1) (45 : UInt8)).head? = some 58 := by
    rw [List.replicate_succ]; simp
  have h2 : ((List.replicate (v + 1) (45 : UInt8)).takeWhile (· == 45)) = List.replicate (v + 1) 45 := by
    rw [List.takeWhile_replicate]; simp
  simp only [h1, if_false, h2, List.length_replicate]
  rw [List.drop_eq_nil_of_le (by simp)]
  simp
  omega

/-! ## The rows -/

/-- An empty value is no value. -/
def keep (c : Bytes) : Option Bytes := if c = [] then none else some c

theorem putCells_spec (row : Nat) : ∀ (xs : List Bytes) (pre : List (Option Bytes)) (m : Nat) {t : Tbl} {N : List (Option Bytes)}
    {C : List (List (Option Bytes))}, Inv t → abs t = ⟨N, C ++ [pre ++ List.replicate m none]⟩ → row = C.length → xs.length ≤ m →
    Inv (putCells row pre.length xs t) ∧ (putCells row pre.length xs t).ci = t.ci ∧ (putCells row pre.length xs t).rs = t.rs ∧
      abs (putCells row pre.length xs t) =
        ⟨N, C ++ [pre ++ (xs.map trim).map keep ++ List.replicate (m - xs.length) none]⟩
  | [], pre, m, t, N, C, h, ha, _, _ => ⟨h, rfl, rfl, by rw [putCells, ha]; simp⟩
  | x :: xs, pre, m, t, N, C, h, ha, hrow, hm => by
    rw [List.length_cons] at hm
    obtain ⟨k, rfl⟩ : ∃ k, m = k + 1 := ⟨m - 1, by omega⟩
    have hlast := abs_rect t (pre ++ List.replicate (k + 1) none) (by rw [ha]; simp)
    rw [abs_ncols] at hlast
    have hcol : pre.length < t.cols.length := by rw [← hlast]; simp
    have hr : row < t.rows.length := by rw [← abs_nrows, ha, hrow]; simp
    have key : ∃ t1, (if trim x = [] then t else (setAt t row pre.length (some (trim x))).1) = t1 ∧ Inv t1 ∧ t1.ci = t.ci ∧
        t1.rs = t.rs ∧ abs t1 = ⟨N, C ++ [(pre ++ [keep (trim x)]) ++ List.replicate k none]⟩ := by
      by_cases hx : trim x = []
      · refine ⟨t, if_pos hx, h, rfl, rfl, ?_⟩
        rw [ha, hx]
        simp [keep, List.replicate_succ]
      · have hrr : t.rows[row]? = some t.rows[row] := List.getElem?_eq_getElem hr
        have hc : t.cols[pre.length]? = some t.cols[pre.length] := List.getElem?_eq_getElem hcol
        obtain ⟨i1, i2, i3⟩ := setInt_spec h hrr hc (some (trim x))
        refine ⟨_, if_neg hx, ?_⟩
        have hset : (setAt t row pre.length (some (trim x))).1 = setInt t t.rows[row] t.cols[pre.length] (some (trim x)) := by
          unfold setAt
          rw [hrr, hc]
        rw [hset]
        refine ⟨i1, i2, rfl, ?_⟩
        rw [i3, ha, hrow]
        simp only [Grid.put, modify_last]
        rw [List.set_append_right _ _ (Nat.le_refl _), Nat.sub_self, List.replicate_succ, List.set_cons_zero, keep, if_neg hx]
        simp
    obtain ⟨t1, e1, i1, i2, i3, i4⟩ := key
    rw [putCells, e1]
    have := putCells_spec row xs (pre ++ [keep (trim x)]) k i1 i4 hrow (by omega)
    rw [List.length_append, List.length_singleton] at this
    obtain ⟨j1, j2, j3, j4⟩ := this
    refine ⟨j1, j2.trans i2, j3.trans i3, ?_⟩
    rw [j4]
    simp

/-- Lines that read as rows of so many cells. -/
inductive Rd (n : Nat) : List Bytes → List (List Bytes) → Prop
  | nil : Rd n [] []
  | cons {l : Bytes} {ls : List Bytes} {cs : List Bytes} {css : List (List Bytes)} {xs : List Bytes} : readCols l = some xs →
      (xs.map trim = cs ∨ xs.map trim ++ [[]] = cs) → xs ≠ [] → cs.length = n → Rd n ls css → Rd n (l :: ls) (cs :: css)

theorem readRows_spec {n : Nat} {ls : List Bytes} {css : List (List Bytes)} (hd : Rd n ls css) : ∀ {t : Tbl}, Inv t → t.cols.length = n →
    css.length ≤ t.rs.length →
    ∃ t', readRows ls t = some (t', true) ∧ Inv t' ∧ abs t' = ⟨(abs t).names, (abs t).cells ++ css.map (·.map keep)⟩ := by
  induction hd with
  | nil => intro t h _ _; exact ⟨t, rfl, h, by simp⟩
  | @cons l ls cs css xs h1 h2 h3 h4 _ ih =>
    intro t h hn hl
    rw [List.length_cons] at hl
    obtain ⟨⟨t1, o⟩, e⟩ := insRow_total h (i := t.rows.length) (by omega)
    obtain ⟨id, -, i1, i2, i3, i4, i5, i6, i7, i8⟩ := insRow_spec h (Nat.le_refl _) e
    have hrs := insRow_rs h e
    rw [← abs_nrows, addRow_end] at i8
    have hmap : ((abs t).names.map fun _ => (none : Option Bytes)) = List.replicate n none := by
      rw [List.map_const', abs_ncols, hn]
    rw [hmap] at i8
    have hxl : xs.length ≤ n := by
      rcases h2 with h2 | h2
      · rw [← h4, ← h2]; simp
      · rw [← h4, ← h2]; simp
    obtain ⟨j1, j2, j3, j4⟩ := putCells_spec t.rows.length xs [] n i1 (by rw [i8]; rfl) (abs_nrows t).symm hxl
    rw [List.length_nil] at j1 j2 j3 j4
    have hrow : ([] : List (Option Bytes)) ++ (xs.map trim).map keep ++ List.replicate (n - xs.length) none = cs.map keep := by
      rcases h2 with h2 | h2
      · have : xs.length = n := by rw [← h4, ← h2]; simp
        rw [h2, this]
        simp
      · have : n = xs.length + 1 := by rw [← h4, ← h2]; simp
        rw [← h2, this]
        simp [keep]
    rw [hrow] at j4
    have hcols : (putCells t.rows.length 0 xs t1).cols.length = n := by
      rw [← abs_ncols]
      have := congrArg (fun g => g.names.length) j4
      rw [this, abs_ncols, hn]
    obtain ⟨t', k1, k2, k3⟩ := ih j1 hcols (by
      have : (putCells t.rows.length 0 xs t1).rs = t1.rs := j3
      rw [this]
      omega)
    refine ⟨t', ?_, k2, ?_⟩
    · rw [readRows, h1, Option.bind_some, if_neg (by rintro (h | h); exact h3 h; omega), e, Option.bind_some]
      exact k1
    · rw [k3, j4]
      simp

inductive Lines : List (List Bytes) → List (List Bytes) → Prop
  | nil : Lines [] []
  | cons {qs cs : List Bytes} {qss css : List (List Bytes)} : Cells qs cs → Lines qss css → Lines (qs :: qss) (cs :: css)

/-- The lines of the rows, the last one without the blanks at its end. -/
theorem rows_read (fl : MFlags) {n : Nat} : ∀ {qss css : List (List Bytes)}, Lines qss css → (∀ cs ∈ css, cs.length = n) → n ≠ 0 →
    (fl.outer = false → ∀ cs ∈ css, ∀ c, cs = [c] → c ≠ []) → Rd n (ends fl.win rtrim (qss.map (line fl))) css
  | _, _, .nil, _, _, _ => .nil
  | [qs], [cs], .cons h .nil, hl, hn, h1 => by
    have hlen := hl cs (by simp)
    have h0 : cs ≠ [] := by rintro rfl; exact hn hlen.symm
    have hq : qs ≠ [] := by rintro rfl; cases h; exact h0 rfl
    obtain ⟨xs, e1, e2, e3⟩ := readCols_eq (line_reads fl h hq (fun ho => h1 ho cs (by simp)) (.inr rfl)) false
    have e1 : readCols (rtrim (line fl qs)) = some xs := by simpa using e1
    exact .cons e1 e2 e3 hlen .nil
  | qs :: qs2 :: qss, cs :: cs2 :: css, .cons h (.cons h2 t), hl, hn, h1 => by
    have hlen := hl cs (by simp)
    have h0 : cs ≠ [] := by rintro rfl; exact hn hlen.symm
    have hq : qs ≠ [] := by rintro rfl; cases h; exact h0 rfl
    obtain ⟨xs, e1, e2, e3⟩ := readCols_eq (line_reads fl h hq (fun ho => h1 ho cs (by simp)) (.inl rfl)) fl.win
    have ih := rows_read fl (.cons h2 t) (fun c hc => hl c (List.mem_cons_of_mem _ hc)) hn (fun ho c hc => h1 ho c (List.mem_cons_of_mem _ hc))
    exact .cons e1 e2 e3 hlen ih

/-! ## What is written -/

theorem width_ge (t : Tbl) (j : Nat) : 3 ≤ width t j := by
  unfold width
  have : ∀ (l : List Nat) (w : Nat), 3 ≤ w → 3 ≤ l.foldl
      (fun w i => if ((cellAt t i j).getD []).length > w then ((cellAt t i j).getD []).length else w) w := by
    intro l
    induction l with
    | nil => intro w h; exact h
    | cons i l ih =>
      intro w h
      rw [List.foldl_cons]
      refine ih _ ?_
      split <;> omega
  refine this _ _ ?_
  split <;> omega

theorem cells_map {q c : Nat → Bytes} : ∀ {l : List Nat}, (∀ j ∈ l, Cell (q j) (c j)) → Cells (l.map q) (l.map c)
  | [], _ => .nil
  | j :: _, h => .cons (h j (by simp)) (cells_map fun k hk => h k (List.mem_cons_of_mem _ hk))

theorem lines_map {q c : Nat → List Bytes} : ∀ {l : List Nat}, (∀ j ∈ l, Cells (q j) (c j)) → Lines (l.map q) (l.map c)
  | [], _ => .nil
  | j :: _, h => .cons (h j (by simp)) (lines_map fun k hk => h k (List.mem_cons_of_mem _ hk))

theorem padded_cell (fl : MFlags) (w : Nat) {c : Bytes} (h1 : Tight c) (h2 : (124 : UInt8) ∉ c) (h3 : (10 : UInt8) ∉ c) :
    Cell (padded fl w c) c := by
  refine ⟨?_, h1, h2, h3⟩
  unfold padded
  split
  · exact ⟨_, rfl⟩
  · exact ⟨0, by simp⟩

theorem dashes_cell (t : Tbl) (fl : MFlags) (j : Nat) : ∃ w, 3 ≤ w ∧ dashes t fl j = List.replicate w 45 ∧ Cell (dashes t fl j) (dashes t fl j) := by
  have hsp : Chr.isSpace 45 = false := by decide
  unfold dashes
  generalize hw : (if fl.pretty then width t j else 3) = w
  have h3 : 3 ≤ w := by
    have := width_ge t j
    rw [← hw]
    split <;> omega
  refine ⟨w, h3, rfl, ⟨0, by simp⟩, ⟨fun c hc => ?_, fun c hc => ?_⟩, ?_, ?_⟩
  · rw [(List.mem_replicate.mp (List.mem_of_head? hc)).2]; exact hsp
  · rw [(List.mem_replicate.mp (List.mem_of_getLast? hc)).2]; exact hsp
  · intro hm
    have := (List.mem_replicate.mp hm).2
    revert this; decide
  · intro hm
    have := (List.mem_replicate.mp hm).2
    revert this; decide

end Verif.TableMd
