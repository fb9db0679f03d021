import Verif.TableMerge.Model
import Verif.TableCsv.Props

/-!
# Lemmas about merging tables
-/

namespace Verif.TableMerge
open Verif Verif.Table Verif.TableCsv

theorem modify_map_append {α : Type} (cs : List (List α)) (row j : Nat) (v : α) (w : List α) (h : ∀ r ∈ cs, j < r.length) :
    (cs.modify row fun r => r.set j v).map (· ++ w) = (cs.map (· ++ w)).modify row fun r => r.set j v := by
  refine List.ext_getElem? fun k => ?_
  rw [List.getElem?_map, List.getElem?_modify, List.getElem?_modify, List.getElem?_map]
  cases hk : cs[k]? with
  | none => rfl
  | some r =>
    have := h r (List.mem_of_getElem? hk)
    by_cases e : row = k
    · simp [e, List.set_append_left _ _ this]
    · simp [e]

theorem find_left {ci : Bool} {g : Grid} {ms : List (Option Bytes)} {c' : List (List (Option Bytes))} {n : Bytes} {j : Nat}
    (h : g.find ci n = some j) : Grid.find ci ⟨g.names ++ ms, c'⟩ n = some j := by
  unfold Grid.find at h ⊢
  rw [List.findIdx?_append, h]
  rfl

theorem find_new {ci : Bool} {g : Grid} {ms : List (Option Bytes)} {c' : List (List (Option Bytes))} {n : Bytes}
    (h : g.find ci n = none) : Grid.find ci ⟨g.names ++ some n :: ms, c'⟩ n = some g.names.length := by
  unfold Grid.find at h ⊢
  dsimp only at h ⊢
  rw [List.findIdx?_append, h, List.findIdx?_cons]
  simp [alike_refl]

theorem find_lt {ci : Bool} {g : Grid} {n : Bytes} {j : Nat} (h : g.find ci n = some j) : j < g.names.length := by
  unfold Grid.find at h
  rw [List.findIdx?_eq_some_iff_getElem] at h
  exact h.1

/-- The names after the cells of a row were put. -/
def more (ci : Bool) (g : Grid) (hd : List Bytes) : List (Option Bytes) := g.names ++ (fresh ci g hd).map some

theorem setCells_spec (row : Nat) : ∀ (ps : List (Bytes × Option Bytes)) {t : Tbl}, Inv t → row < t.rows.length →
    (∀ p ∈ ps, p.1 ≠ []) → Distinct t.ci (ps.map (·.1)) → ps.length ≤ t.rs.length →
    ∃ t', setCells row (ps.map fun p => (some p.1, p.2)) t = some t' ∧ Inv t' ∧ t'.ci = t.ci ∧
      t.rs.length ≤ t'.rs.length + ps.length ∧ t'.rows = t.rows ∧
      abs t' = ⟨more t.ci (abs t) (ps.map (·.1)),
        ((abs t).cells.map (· ++ (fresh t.ci (abs t) (ps.map (·.1))).map fun _ => none)).modify row fun r =>
          ps.foldl (fun r p => r.set (place t.ci ⟨more t.ci (abs t) (ps.map (·.1)), []⟩ p.1) p.2) r⟩
  | [], t, h, _, _, _, _ => ⟨t, rfl, h, rfl, by simp, rfl, by
      simp only [List.map_nil, List.foldl_nil, more, fresh, List.filter_nil, List.append_nil]
      rw [show (fun r : List (Option Bytes) => r) = id from rfl, List.modify_id]
      simp⟩
  | (n, v) :: ps, t, h, hr, hne, hdis, hl => by
    rw [List.map_cons] at hdis
    obtain ⟨hd2, hd3⟩ := List.pairwise_cons.mp hdis
    rw [List.length_cons] at hl
    have hn : n ≠ [] := hne (n, v) (by simp)
    have hne' : ∀ p ∈ ps, p.1 ≠ [] := fun p hp => hne p (List.mem_cons_of_mem _ hp)
    obtain ⟨⟨t1, b⟩, e, hrs⟩ := set_total h (row := row) (name := n) (v := v) (fl := ⟨true, false⟩) (by omega)
    obtain ⟨i1, i2, i3, i4, i5⟩ := set_spec h e
    dsimp only at hrs
    obtain ⟨t', e1, e2, e3, e4, e5, e6⟩ := setCells_spec row ps i1 (i3 ▸ hr) hne' (by rw [i2]; exact hd3) (by omega)
    refine ⟨t', ?_, e2, e3.trans i2, by rw [List.length_cons]; omega, e5.trans i3, ?_⟩
    · rw [List.map_cons, setCells, Option.getD_some, e, Option.bind_some]
      exact e1
    · unfold Grid.setCell at i5
      rw [if_neg (by rw [abs_nrows]; simp [hn]; omega)] at i5
      rw [i2] at e6
      cases hf : (abs t).find t.ci n with
      | some j =>
        rw [hf] at i5
        dsimp only at i5
        have i5 := (Prod.mk.inj i5).1
        have hnm : (abs t1).names = (abs t).names := by rw [← i5]; rfl
        have hfr : fresh t.ci (abs t1) (ps.map (·.1)) = fresh t.ci (abs t) ((n, v) :: ps |>.map (·.1)) := by
          unfold fresh
          rw [List.map_cons, List.filter_cons_of_neg (by simp [hf])]
          exact List.filter_congr fun k _ => by rw [find_of_names hnm]
        have hmo : more t.ci (abs t1) (ps.map (·.1)) = more t.ci (abs t) ((n, v) :: ps |>.map (·.1)) := by
          unfold more
          rw [hfr, hnm]
        rw [e6, hmo, hfr]
        congr 1
        have hc : (abs t1).cells = (abs t).cells.modify row fun r => r.set j v := by rw [← i5]; rfl
        rw [hc, modify_map_append _ _ _ _ _ (fun r hr' => by rw [abs_rect t r hr']; exact find_lt hf), List.modify_modify_eq]
        congr 1
        funext r
        have hp : place t.ci ⟨more t.ci (abs t) ((n, v) :: ps |>.map (·.1)), []⟩ n = j := by
          unfold place more
          rw [find_left hf]
          rfl
        simp only [Function.comp_apply, List.foldl_cons, hp]
      | none =>
        rw [hf] at i5
        simp only [Bool.false_eq_true, if_false, if_true] at i5
        have i5 := (Prod.mk.inj i5).1
        rw [addCol_end _ _ (abs_rect t), named, if_neg hn] at i5
        have hnm : (abs t1).names = (abs t).names ++ [some n] := by rw [← i5]; rfl
        have hfr : fresh t.ci (abs t1) (ps.map (·.1)) = fresh t.ci (abs t) (ps.map (·.1)) := by
          unfold fresh
          refine List.filter_congr fun k hk => ?_
          have : (abs t1).find t.ci k = Grid.find t.ci ⟨(abs t).names ++ [some n], []⟩ k := find_of_names hnm k
          rw [this, find_append t.ci _ _ (abs t).cells]
          simp [hd2 k hk]
        have hfr2 : fresh t.ci (abs t) ((n, v) :: ps |>.map (·.1)) = n :: fresh t.ci (abs t) (ps.map (·.1)) := by
          unfold fresh
          rw [List.map_cons, List.filter_cons_of_pos (by simp [hf])]
        have hmo : more t.ci (abs t1) (ps.map (·.1)) = more t.ci (abs t) ((n, v) :: ps |>.map (·.1)) := by
          unfold more
          rw [hfr, hfr2, hnm]
          simp
        rw [e6, hmo, hfr, hfr2]
        congr 1
        have hc : (abs t1).cells = ((abs t).cells.map (· ++ [none])).modify row fun r => r.set (abs t).names.length v := by
          rw [← i5]; rfl
        rw [hc, modify_map_append _ _ _ _ _ (fun r hr' => by
          obtain ⟨x, hx, rfl⟩ := List.mem_map.mp hr'
          rw [List.length_append, abs_rect t x hx]; simp), List.modify_modify_eq]
        congr 1
        · simp [List.map_map, Function.comp_def]
        · funext r
          have hp : place t.ci ⟨more t.ci (abs t) ((n, v) :: ps |>.map (·.1)), []⟩ n = (abs t).names.length := by
            unfold place more
            rw [hfr2, List.map_cons, find_new hf]
            rfl
          simp only [Function.comp_apply, List.foldl_cons, hp]

/-- One row of the source. -/
theorem row_spec {hd : List Bytes} {r : List (Option Bytes)} (hlen : r.length = hd.length) {t : Tbl} (h : Inv t)
    (hne : ∀ n ∈ hd, n ≠ []) (hdis : Distinct t.ci hd) (hl : hd.length + 1 ≤ t.rs.length) :
    ∃ t1 o t', insRow t t.rows.length = some (t1, o) ∧
      setCells t.rows.length ((hd.zip r).map fun p => (some p.1, p.2)) t1 = some t' ∧ Inv t' ∧ t'.ci = t.ci ∧
      t.rs.length ≤ t'.rs.length + (hd.length + 1) ∧ abs t' = joined t.ci (abs t) hd [r] := by
  obtain ⟨⟨t1, o⟩, e⟩ := insRow_total h (i := t.rows.length) (by omega)
  obtain ⟨id, -, i1, i2, i3, i4, i5, i6, i7, i8⟩ := insRow_spec h (Nat.le_refl _) e
  have hrs := insRow_rs h e
  rw [← abs_nrows, addRow_end] at i8
  have hn1 : (abs t1).names = (abs t).names := by rw [i8]
  have hrow : t.rows.length < t1.rows.length := by rw [i7]; simp
  have hfst : (hd.zip r).map (·.1) = hd := List.map_fst_zip (by omega)
  have hzl : (hd.zip r).length = hd.length := by simp [hlen]
  obtain ⟨t', e1, e2, e3, e4, e5, e6⟩ := setCells_spec t.rows.length (hd.zip r) i1 hrow
    (fun p hp => hne p.1 (List.of_mem_zip (a := p.1) (b := p.2) hp).1) (by rw [hfst, i2]; exact hdis) (by omega)
  refine ⟨t1, o, t', e, e1, e2, e3.trans i2, by omega, ?_⟩
  have hfr : fresh t.ci (abs t1) hd = fresh t.ci (abs t) hd := List.filter_congr fun k _ => by rw [find_of_names hn1]
  have hmo : more t.ci (abs t1) hd = more t.ci (abs t) hd := by
    unfold more
    rw [hfr, hn1]
  rw [hfst, i2, hmo, hfr] at e6
  have hci : t'.ci = t.ci := e3.trans i2
  have hnm : (abs t').names = more t.ci (abs t) hd := by rw [e6]
  have hf : ∀ n ∈ hd, (abs t').find t'.ci n ≠ none := by
    intro n hn
    rw [hci, find_of_names (g := ⟨more t.ci (abs t) hd, []⟩) hnm]
    exact fresh_find hn
  have hro := row_eq e2 (by rw [hci]; exact hdis) hf r
  rw [hci, hnm] at hro
  have hpl : place t.ci (abs t') = place t.ci ⟨more t.ci (abs t) hd, []⟩ := by
    funext n
    rw [place, place, find_of_names (g := ⟨more t.ci (abs t) hd, []⟩) hnm]
  rw [hpl] at hro
  rw [e6, i8, joined]
  congr 1
  rw [List.map_append, List.map_cons, List.map_nil, ← abs_nrows,
    show (abs t).cells.length = ((abs t).cells.map (· ++ (fresh t.ci (abs t) hd).map fun _ => none)).length by simp, modify_last]
  congr 1
  rw [List.map_cons, List.map_nil]
  congr 1
  rw [← more, ← hro]
  congr 1
  unfold more
  simp [List.map_map, Function.comp_def]

theorem fresh_joined (ci : Bool) (g : Grid) (hd : List Bytes) (rows : List (List (Option Bytes))) :
    fresh ci (joined ci g hd rows) hd = [] := by
  unfold fresh
  rw [List.filter_eq_nil_iff]
  intro n hn
  rw [Option.isNone_iff_eq_none]
  exact fresh_find hn

theorem joined_joined (ci : Bool) (g : Grid) (hd : List Bytes) (r : List (Option Bytes)) (rows : List (List (Option Bytes))) :
    joined ci (joined ci g hd [r]) hd rows = joined ci g hd (r :: rows) := by
  rw [joined, fresh_joined]
  simp [joined]

/-- What merging gives: nothing changes without rows. -/
def result (ci : Bool) (g : Grid) (hd : List Bytes) (rows : List (List (Option Bytes))) : Grid :=
  if rows = [] then g else joined ci g hd rows

theorem result_joined (ci : Bool) (g : Grid) (hd : List Bytes) (r : List (Option Bytes)) (rows : List (List (Option Bytes))) :
    result ci (joined ci g hd [r]) hd rows = joined ci g hd (r :: rows) := by
  unfold result
  split
  · rename_i h
    rw [h]
  · exact joined_joined ci g hd r rows

/-- The values of a row of a table. -/
def rowOf (src : Tbl) (i : Nat) : List (Option Bytes) := (List.range src.cols.length).map fun j => cellAt src i j

theorem pairs_eq {src : Tbl} {hd : List Bytes} (hn : (view src).names = hd.map some) (i : Nat) :
    pairs src i = (hd.zip (rowOf src i)).map fun p => (some p.1, p.2) := by
  have e : ((hd.zip (rowOf src i)).map fun p : Bytes × Option Bytes => (some p.1, p.2)) = (hd.map some).zip (rowOf src i) := by
    rw [List.zip_map_left]
    rfl
  rw [e, ← hn]
  unfold pairs rowOf view
  simp [List.zip_map']

theorem mergeRows_spec {src : Tbl} {hd : List Bytes} (hn : (view src).names = hd.map some) (hne : ∀ n ∈ hd, n ≠ []) :
    ∀ (is : List Nat) {t : Tbl}, Inv t → Distinct t.ci hd → is.length * (hd.length + 1) ≤ t.rs.length →
    ∃ t', mergeRows src is t = some t' ∧ Inv t' ∧ t'.ci = t.ci ∧ t.rs.length ≤ t'.rs.length + is.length * (hd.length + 1) ∧
      abs t' = result t.ci (abs t) hd (is.map (rowOf src))
  | [], t, h, _, _ => ⟨t, rfl, h, rfl, by simp, rfl⟩
  | i :: is, t, h, hdis, hl => by
    rw [List.length_cons, Nat.add_mul, Nat.one_mul] at hl
    have hw : (rowOf src i).length = hd.length := by
      have := congrArg List.length hn
      simpa [view, rowOf] using this
    obtain ⟨t1, o, t2, e1, e2, e3, e4, e5, e6⟩ := row_spec hw h hne hdis (by omega)
    obtain ⟨t', f1, f2, f3, f4, f5⟩ := mergeRows_spec hn hne is e3 (by rw [e4]; exact hdis) (by omega)
    refine ⟨t', ?_, f2, f3.trans e4, by rw [List.length_cons, Nat.add_mul, Nat.one_mul]; omega, ?_⟩
    · rw [mergeRows, e1, Option.bind_some, pairs_eq hn, e2, Option.bind_some, f1]
    · rw [f5, e4, e6, result_joined, List.map_cons]
      rfl

theorem unnamed_iff (t : Tbl) : unnamed t = true ↔ ∃ n ∈ (view t).names, n = none ∨ n = some [] := by
  unfold unnamed view
  rw [List.any_eq_true]
  constructor
  · rintro ⟨j, hj, h⟩
    refine ⟨colName t j, List.mem_map.mpr ⟨j, hj, rfl⟩, ?_⟩
    cases e : colName t j with
    | none => exact .inl rfl
    | some n =>
      rw [e] at h
      exact .inr (by simpa using h)
  · rintro ⟨n, hn, h⟩
    obtain ⟨j, hj, rfl⟩ := List.mem_map.mp hn
    refine ⟨j, hj, ?_⟩
    rcases h with h | h <;> simp [h]

end Verif.TableMerge
