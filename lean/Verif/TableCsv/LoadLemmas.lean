import Verif.TableCsv.Model
import Verif.TableCsv.Spec
import Verif.Table.Props

/-!
# Lemmas about loading CSV
-/

namespace Verif.TableCsv
open Verif Verif.Table

theorem colIdx_find {t : Tbl} (h : Inv t) (n : Bytes) : colIdx t n = (abs t).find t.ci n := (h.find n).symm

/-- The random numbers an insertion of a column uses. -/
theorem insCol_rs {t t' : Tbl} {n : Bytes} {o : Option Nat} (h : Inv t) (hn : n ≠ [] → aget (nmeq t.ci) t.nameId n = none)
    (hr : 0 < t.rs.length) (e : insCol t t.cols.length n = some (t', o)) : t'.rs.length + 1 = t.rs.length := by
  obtain ⟨r, e2, h3, _⟩ := insCol_total h (i := t.cols.length) (name := n) hr
  rw [e] at e2
  cases e2
  exact h3 (Nat.le_refl _) hn

theorem insRow_rs {t t' : Tbl} {o : Option Nat} (h : Inv t) (e : insRow t t.rows.length = some (t', o)) :
    t'.rs.length + 1 = t.rs.length := by
  unfold insRow at e
  rw [if_neg (by omega)] at e
  obtain ⟨⟨id, rs⟩, hg, e⟩ := Option.map_eq_some_iff.1 e
  have := genId_fresh (fun x hx => by rw [h.nodata (h.fresh x hx).2.2]; rfl) hg
  cases e
  rw [this]
  rfl

/-- A column added at the end. -/
theorem addCol_end (g : Grid) (n : Bytes) (hr : ∀ r ∈ g.cells, r.length = g.names.length) :
    g.addCol g.names.length n = ⟨g.names ++ [named n], g.cells.map (· ++ [none])⟩ := by
  unfold Grid.addCol
  rw [List.take_length, List.drop_length]
  congr 1
  refine List.map_congr_left fun r h => ?_
  rw [← hr r h, List.take_length, List.drop_length]

theorem abs_rect (t : Tbl) : ∀ r ∈ (abs t).cells, r.length = (abs t).names.length := by
  intro r hr
  obtain ⟨x, _, rfl⟩ := List.mem_map.mp hr
  simp [abs]

theorem find_append (ci : Bool) (ns : List (Option Bytes)) (c c' : List (List (Option Bytes))) (n k : Bytes) :
    (Grid.find ci ⟨ns ++ [some n], c⟩ k).isNone = ((Grid.find ci ⟨ns, c'⟩ k).isNone && !decide (Alike ci n k)) := by
  unfold Grid.find
  rw [Bool.eq_iff_iff]
  simp only [Option.isNone_iff_eq_none, Bool.and_eq_true, List.findIdx?_eq_none_iff, List.mem_append, List.mem_singleton]
  constructor
  · intro h
    refine ⟨fun x hx => h x (.inl hx), ?_⟩
    have := h (some n) (.inr rfl)
    simpa using this
  · rintro ⟨h1, h2⟩ x (hx | rfl)
    · exact h1 x hx
    · simpa using h2

/-! ## The header -/

theorem loadCols_spec : ∀ (hd : List Bytes) {t : Tbl}, Inv t → (∀ n ∈ hd, n ≠ []) → Distinct t.ci hd → hd.length ≤ t.rs.length →
    ∃ t', loadCols (hd.map some) t = some t' ∧ Inv t' ∧ t'.ci = t.ci ∧ t.rs.length ≤ t'.rs.length + hd.length ∧
      t'.rows = t.rows ∧
      abs t' = ⟨(abs t).names ++ (fresh t.ci (abs t) hd).map some, (abs t).cells.map (· ++ (fresh t.ci (abs t) hd).map fun _ => none)⟩
  | [], t, h, _, _, _ => ⟨t, rfl, h, rfl, by simp, rfl, by simp [fresh]⟩
  | n :: hd, t, h, hne, hd1, hl => by
    have hn : n ≠ [] := hne n (by simp)
    obtain ⟨hd2, hd3⟩ := List.pairwise_cons.mp hd1
    have hne' : ∀ n ∈ hd, n ≠ [] := fun x hx => hne x (List.mem_cons_of_mem _ hx)
    rw [List.length_cons] at hl
    rw [List.map_cons, loadCols, Option.getD_some, colIdx_find h]
    cases hf : (abs t).find t.ci n with
    | some j =>
      obtain ⟨t', e1, e2, e3, e4, e5, e6⟩ := loadCols_spec hd h hne' hd3 (by omega)
      have hfr : fresh t.ci (abs t) (n :: hd) = fresh t.ci (abs t) hd := by
        unfold fresh
        rw [List.filter_cons_of_neg (by simp [hf])]
      rw [hfr]
      exact ⟨t', e1, e2, e3, by rw [List.length_cons]; omega, e5, e6⟩
    | none =>
      have hk : aget (nmeq t.ci) t.nameId n = none := by
        cases hk : aget (nmeq t.ci) t.nameId n with
        | none => rfl
        | some c =>
          obtain ⟨j, hj, _⟩ := h.find_some hk
          rw [hf] at hj
          cases hj
      obtain ⟨⟨t1, o⟩, e, _⟩ := insCol_total h (i := t.cols.length) (name := n) (by omega)
      obtain ⟨id, -, i1, i2, i3, i4, i5, i6, i7⟩ := insCol_spec h (Nat.le_refl _) (fun _ => hk) e
      have hrs := insCol_rs h (fun _ => hk) (by omega) e
      rw [← abs_ncols, addCol_end _ _ (abs_rect t), named, if_neg hn] at i3
      obtain ⟨t', e1, e2, e3, e4, e5, e6⟩ := loadCols_spec hd i1 hne' (i2 ▸ hd3) (by omega)
      have hfr : fresh t.ci (abs t1) hd = fresh t.ci (abs t) hd := by
        unfold fresh
        refine List.filter_congr fun k hk => ?_
        rw [i3, find_append t.ci _ _ (abs t).cells]
        simp [hd2 k hk]
      have hfr2 : fresh t.ci (abs t) (n :: hd) = n :: fresh t.ci (abs t) hd := by
        unfold fresh
        rw [List.filter_cons_of_pos (by simp [hf])]
      rw [hfr2]
      rw [i2, hfr, i3] at e6
      refine ⟨t', ?_, e2, e3.trans i2, by rw [List.length_cons]; omega, e5.trans i6, ?_⟩
      · simp only [e, Option.bind_some]
        exact e1
      · rw [e6]
        simp [List.map_map, Function.comp_def]

/-! ## The cells of one row -/

/-- Values written into a row one after another. -/
theorem fold_set {α : Type} (f : α → Nat) (w : α → Option Bytes) : ∀ (l : List α) (row : List (Option Bytes)) (k : Nat),
    l.Pairwise (fun a b => f a ≠ f b) → k < row.length →
    (l.foldl (fun r p => r.set (f p) (w p)) row)[k]? =
      some (match l.find? fun p => f p == k with
        | some p => w p
        | none => row[k]?.bind id)
  | [], row, k, _, hk => by
    rw [List.foldl_nil, List.getElem?_eq_getElem hk]
    rfl
  | p :: l, row, k, hp, hk => by
    obtain ⟨h1, h2⟩ := List.pairwise_cons.mp hp
    rw [List.foldl_cons, fold_set f w l _ k h2 (by simpa using hk), List.find?_cons]
    by_cases e : f p = k
    · have : l.find? (fun p => f p == k) = none := by
        rw [List.find?_eq_none]
        intro x hx
        have := h1 x hx
        simp only [beq_iff_eq]
        omega
      rw [this]
      simp [e, hk]
    · have e' : (f p == k) = false := by simpa using e
      rw [e', List.getElem?_set_ne e]

theorem names_get (t : Tbl) (k : Nat) : (abs t).names[k]? = t.cols[k]?.map (aget ideq t.idName) := List.getElem?_map

theorem find_names {t : Tbl} (h : Inv t) {n : Bytes} {j : Nat} (hj : (abs t).find t.ci n = some j) (k : Nat) :
    j = k ↔ ∃ m, (abs t).names[k]? = some (some m) ∧ Alike t.ci n m := by
  cases hk : aget (nmeq t.ci) t.nameId n with
  | none => rw [h.find_none hk] at hj; cases hj
  | some c =>
    obtain ⟨j', hj', hc, _⟩ := h.find_some hk
    rw [hj] at hj'
    cases hj'
    obtain ⟨_, m, hm, ha⟩ := (h.names n c).1 hk
    constructor
    · rintro rfl
      exact ⟨m, by rw [names_get, hc, Option.map_some, hm], ha.symm⟩
    · rintro ⟨m', hm', ha'⟩
      rw [names_get] at hm'
      obtain ⟨c', hc', e⟩ := Option.map_eq_some_iff.mp hm'
      have := (h.names n c').2 ⟨List.mem_of_getElem? hc', m', e, ha'.symm⟩
      rw [hk] at this
      cases this
      exact nodup_inj h.ndc hc hc'

/-- Where a name is. -/
def place (ci : Bool) (g : Grid) (n : Bytes) : Nat := (g.find ci n).getD 0

theorem find_of_names {ci : Bool} {g g' : Grid} (h : g'.names = g.names) (n : Bytes) : g'.find ci n = g.find ci n := by
  unfold Grid.find
  rw [h]

theorem loadCells_spec (row : Nat) : ∀ (ps : List (Bytes × Option Bytes)) (col : Option Nat) {t : Tbl}, Inv t → row < t.rows.length →
    (∀ p ∈ ps, (abs t).find t.ci p.1 ≠ none) →
    ∃ t' c, loadCells row (ps.map fun p => (some p.1, p.2)) col t = some (t', c) ∧ Inv t' ∧ t'.ci = t.ci ∧ t'.rs = t.rs ∧
      t'.rows = t.rows ∧
      abs t' = ⟨(abs t).names, (abs t).cells.modify row fun r => ps.foldl (fun r p => r.set (place t.ci (abs t) p.1) p.2) r⟩
  | [], col, t, h, _, _ => ⟨t, col, rfl, h, rfl, rfl, rfl, by
      simp only [List.foldl_nil]
      rw [show (fun r : List (Option Bytes) => r) = id from rfl, List.modify_id]⟩
  | (n, v) :: ps, col, t, h, hr, hf => by
    cases hj : (abs t).find t.ci n with
    | none => exact absurd hj (hf (n, v) (by simp))
    | some j =>
      cases hk : aget (nmeq t.ci) t.nameId n with
      | none => rw [h.find_none hk] at hj; cases hj
      | some c =>
        obtain ⟨j', hj', hc, _⟩ := h.find_some hk
        rw [hj] at hj'
        cases hj'
        have hrr : t.rows[row]? = some t.rows[row] := List.getElem?_eq_getElem hr
        obtain ⟨i1, i2, i3⟩ := setInt_spec h hrr hc v
        have hset : (setAt t row j v).1 = setInt t t.rows[row] c v := by
          unfold setAt
          rw [hrr, hc]
        have hnames : (abs (setInt t t.rows[row] c v)).names = (abs t).names := by rw [i3]; rfl
        obtain ⟨t', c', e1, e2, e3, e4, e5, e6⟩ := loadCells_spec row ps (some j) i1 hr (fun p hp => by
          rw [i2, find_of_names hnames]
          exact hf p (List.mem_cons_of_mem _ hp))
        refine ⟨t', c', ?_, e2, e3.trans i2, e4, e5, ?_⟩
        · rw [List.map_cons, loadCells, Option.getD_some, colIdx_find h, hj]
          simp only [Option.some_or]
          rw [hset]
          exact e1
        · rw [e6, hnames, i2, i3]
          simp only [Grid.put, List.modify_modify_eq]
          congr 1
          congr 1
          funext r
          simp only [Function.comp_apply, List.foldl_cons]
          have hp : place t.ci (abs t) n = j := by rw [place, hj]; rfl
          rw [hp]
          rfl

theorem zip_pairwise {α β : Type} {R : α → α → Prop} : ∀ (l : List α) (r : List β), l.Pairwise R →
    (l.zip r).Pairwise fun a b => R a.1 b.1
  | [], _, _ => by simp
  | _ :: _, [], _ => by simp
  | a :: l, b :: r, h => by
    obtain ⟨h1, h2⟩ := List.pairwise_cons.mp h
    rw [List.zip_cons_cons]
    refine List.pairwise_cons.mpr ⟨fun x hx => ?_, zip_pairwise l r h2⟩
    exact h1 x.1 (List.of_mem_zip (a := x.1) (b := x.2) hx).1

/-- One row of CSV as it ends up in a grid with names. -/
theorem row_eq {t : Tbl} (h : Inv t) {hd : List Bytes} (hd1 : Distinct t.ci hd) (hf : ∀ n ∈ hd, (abs t).find t.ci n ≠ none)
    (r : List (Option Bytes)) :
    (hd.zip r).foldl (fun x p => x.set (place t.ci (abs t) p.1) p.2) ((abs t).names.map fun _ => none) =
      (abs t).names.map fun n => n.bind (under t.ci hd r) := by
  have hlen : ∀ (l : List (Bytes × Option Bytes)) (x : List (Option Bytes)),
      (l.foldl (fun x p => x.set (place t.ci (abs t) p.1) p.2) x).length = x.length := by
    intro l
    induction l with
    | nil => intro x; rfl
    | cons p l ih => intro x; rw [List.foldl_cons, ih, List.length_set]
  have hfp : ∀ p ∈ hd.zip r, ∃ j, (abs t).find t.ci p.1 = some j ∧ place t.ci (abs t) p.1 = j := by
    intro p hp
    have := hf p.1 (List.of_mem_zip (a := p.1) (b := p.2) hp).1
    cases e : (abs t).find t.ci p.1 with
    | none => exact absurd e this
    | some j => exact ⟨j, rfl, by rw [place, e]; rfl⟩
  have hpw : (hd.zip r).Pairwise fun a b => place t.ci (abs t) a.1 ≠ place t.ci (abs t) b.1 := by
    have h1 : (hd.zip r).Pairwise fun a b => ¬ Alike t.ci a.1 b.1 := zip_pairwise hd r hd1
    refine List.Pairwise.imp_of_mem (fun {a b} ha hb hab => ?_) h1
    obtain ⟨j, e1, e2⟩ := hfp a ha
    obtain ⟨k, e3, e4⟩ := hfp b hb
    rw [e2, e4]
    intro e
    obtain ⟨m, hm, ha⟩ := (find_names h e1 k).1 e
    obtain ⟨m', hm', hb⟩ := (find_names h e3 k).1 rfl
    rw [hm] at hm'
    cases hm'
    exact hab (ha.trans hb.symm)
  refine List.ext_getElem? fun k => ?_
  by_cases hk : k < (abs t).names.length
  · rw [fold_set (fun p : Bytes × Option Bytes => place t.ci (abs t) p.1) (·.2) _ _ k hpw (by simpa using hk)]
    rw [List.getElem?_map, List.getElem?_eq_getElem hk, Option.map_some, List.getElem?_map,
      List.getElem?_eq_getElem hk, Option.map_some]
    congr 1
    cases hn : (abs t).names[k] with
    | none =>
      have : (hd.zip r).find? (fun p => place t.ci (abs t) p.1 == k) = none := by
        rw [List.find?_eq_none]
        intro p hp
        obtain ⟨j, e1, e2⟩ := hfp p hp
        rw [e2, beq_iff_eq]
        intro e
        obtain ⟨m, hm, _⟩ := (find_names h e1 k).1 e
        rw [List.getElem?_eq_getElem hk, hn] at hm
        cases hm
      rw [this]
      rfl
    | some m =>
      have : (hd.zip r).find? (fun p => place t.ci (abs t) p.1 == k) =
          (hd.zip r).find? fun p => decide (Alike t.ci p.1 m) := by
        have key : ∀ p ∈ hd.zip r, (place t.ci (abs t) p.1 == k) = decide (Alike t.ci p.1 m) := by
          intro p hp
          obtain ⟨j, e1, e2⟩ := hfp p hp
          rw [e2, Bool.eq_iff_iff, beq_iff_eq, decide_eq_true_iff, find_names h e1 k,
            List.getElem?_eq_getElem hk, hn]
          constructor
          · rintro ⟨m', e, ha⟩; cases e; exact ha
          · intro ha; exact ⟨m, rfl, ha⟩
        clear hpw hfp
        generalize hd.zip r = l at key
        induction l with
        | nil => rfl
        | cons p l ih =>
          rw [List.find?_cons, List.find?_cons, key p (by simp), ih fun x hx => key x (List.mem_cons_of_mem _ hx)]
      rw [this]
      simp only [Option.bind_some]
      unfold under
      cases (hd.zip r).find? fun p => decide (Alike t.ci p.1 m) <;> rfl
  · rw [List.getElem?_eq_none (by rw [hlen]; simp; omega), List.getElem?_eq_none (by simp; omega)]

theorem addRow_end (g : Grid) (row : List (Option Bytes)) : g.addRow g.cells.length row = ⟨g.names, g.cells ++ [row]⟩ := by
  unfold Grid.addRow
  rw [List.take_length, List.drop_length]

theorem modify_last {α : Type} (l : List α) (x : α) (f : α → α) : (l ++ [x]).modify l.length f = l ++ [f x] := by
  induction l with
  | nil => rfl
  | cons a l ih => rw [List.cons_append, List.length_cons, List.modify_succ_cons, ih]; rfl

theorem loadRows_spec {hd : List Bytes} : ∀ (rows : List (List (Option Bytes))) (col : Option Nat) {t : Tbl}, Inv t →
    Distinct t.ci hd → (∀ n ∈ hd, (abs t).find t.ci n ≠ none) → rows.length ≤ t.rs.length →
    ∃ t', loadRows (hd.map some) rows col t = some t' ∧ Inv t' ∧ t'.ci = t.ci ∧
      abs t' = ⟨(abs t).names, (abs t).cells ++ rows.map fun r => (abs t).names.map fun n => n.bind (under t.ci hd r)⟩
  | [], col, t, h, _, _, _ => ⟨t, rfl, h, rfl, by simp⟩
  | r :: rows, col, t, h, hd1, hf, hl => by
    rw [List.length_cons] at hl
    obtain ⟨⟨t1, o⟩, e⟩ := insRow_total h (i := t.rows.length) (by omega)
    obtain ⟨id, -, i1, i2, i3, i4, i5, i6, i7, i8⟩ := insRow_spec h (Nat.le_refl _) e
    have hrs := insRow_rs h e
    rw [← abs_nrows, addRow_end] at i8
    have hn1 : (abs t1).names = (abs t).names := by rw [i8]
    have hlen : t.rows.length < t1.rows.length := by rw [i7]; simp
    obtain ⟨t2, c2, e1, e2, e3, e4, e5, e6⟩ := loadCells_spec t.rows.length (hd.zip r) col i1 hlen (fun p hp => by
      rw [i2, find_of_names hn1]
      exact hf p.1 (List.of_mem_zip (a := p.1) (b := p.2) hp).1)
    have hz : (hd.map some).zip r = (hd.zip r).map fun p => (some p.1, p.2) := by
      rw [List.zip_map_left]
      rfl
    have hab : abs t2 = ⟨(abs t).names, (abs t).cells ++ [(abs t).names.map fun n => n.bind (under t.ci hd r)]⟩ := by
      have hpl : place t1.ci (abs t1) = place t.ci (abs t) := by
        funext n
        rw [place, place, i2, find_of_names hn1]
      rw [e6, hpl, hn1, i8]
      dsimp only
      rw [← abs_nrows, modify_last, row_eq h hd1 hf r]
    have hn2 : (abs t2).names = (abs t).names := by rw [hab]
    obtain ⟨t', f1, f2, f3, f4⟩ := loadRows_spec (hd := hd) rows c2 e2 (by rw [e3, i2]; exact hd1)
      (fun n hn => by rw [e3, i2, find_of_names hn2]; exact hf n hn) (by rw [e4]; omega)
    refine ⟨t', ?_, f2, f3.trans (e3.trans i2), ?_⟩
    · rw [loadRows, e, Option.bind_some, hz, e1, Option.bind_some]
      exact f1
    · rw [f4, hab, e3, i2]
      simp

/-! ## Without a header -/

theorem plainCells_spec (row : Nat) : ∀ (r : List (Option Bytes)) (j : Nat) {t : Tbl}, Inv t → row < t.rows.length →
    j + r.length ≤ t.cols.length →
    Inv (plainCells row j r t) ∧ (plainCells row j r t).ci = t.ci ∧ (plainCells row j r t).rs = t.rs ∧
      (plainCells row j r t).cols = t.cols ∧
      abs (plainCells row j r t) = ⟨(abs t).names, (abs t).cells.modify row fun x => x.take j ++ r ++ x.drop (j + r.length)⟩
  | [], j, t, h, _, _ => ⟨h, rfl, rfl, rfl, by
      simp only [List.append_nil, List.length_nil, Nat.add_zero, List.take_append_drop]
      rw [show (fun r : List (Option Bytes) => r) = id from rfl, List.modify_id]
      rfl⟩
  | v :: r, j, t, h, hr, hj => by
    rw [List.length_cons] at hj
    have hrr : t.rows[row]? = some t.rows[row] := List.getElem?_eq_getElem hr
    have hc : t.cols[j]? = some (t.cols[j]'(by omega)) := List.getElem?_eq_getElem (by omega)
    obtain ⟨i1, i2, i3⟩ := setInt_spec h hrr hc v
    have hset : (setAt t row j v).1 = setInt t t.rows[row] (t.cols[j]'(by omega)) v := by
      unfold setAt
      rw [hrr, hc]
    obtain ⟨e2, e3, e4, e5, e6⟩ := plainCells_spec row r (j + 1) i1 hr (by show j + 1 + r.length ≤ t.cols.length; omega)
    rw [plainCells, hset]
    refine ⟨e2, e3.trans i2, e4, e5, ?_⟩
    rw [e6, i3]
    simp only [Grid.put, List.modify_modify_eq]
    congr 1
    refine List.ext_getElem? fun k => ?_
    rw [List.getElem?_modify, List.getElem?_modify]
    by_cases hk : row = k
    · subst hk
      have hlen : row < (abs t).cells.length := by rw [abs_nrows]; exact hr
      rw [List.getElem?_eq_getElem hlen]
      simp only [if_true, Option.map_eq_map, Option.map_some]
      congr 1
      have hw : ((abs t).cells[row]).length = t.cols.length := by
        rw [abs_rect t _ (List.getElem_mem hlen), abs_ncols]
      generalize (abs t).cells[row] = x at hw
      simp only [Function.comp_apply]
      rw [List.take_set, List.drop_set_of_lt (by omega), List.length_cons]
      have : (x.take (j + 1)).set j v = x.take j ++ [v] := by
        rw [List.take_succ_eq_append_getElem (by omega), List.set_append_right _ _ (by simp; omega)]
        simp [Nat.min_eq_left (show j ≤ x.length by omega)]
      rw [this, show j + 1 + r.length = j + (r.length + 1) by omega]
      simp
    · simp only [if_neg hk]

theorem plainRows_spec : ∀ (rows : List (List (Option Bytes))) {t : Tbl}, Inv t → (∀ r ∈ rows, r.length = t.cols.length) →
    rows.length ≤ t.rs.length →
    ∃ t', plainRows rows t = some t' ∧ Inv t' ∧ t'.ci = t.ci ∧ abs t' = ⟨(abs t).names, (abs t).cells ++ rows⟩
  | [], t, h, _, _ => ⟨t, rfl, h, rfl, by simp⟩
  | r :: rows, t, h, hw, hl => by
    rw [List.length_cons] at hl
    obtain ⟨⟨t1, o⟩, e⟩ := insRow_total h (i := t.rows.length) (by omega)
    obtain ⟨id, -, i1, i2, i3, i4, i5, i6, i7, i8⟩ := insRow_spec h (Nat.le_refl _) e
    have hrs := insRow_rs h e
    rw [← abs_nrows, addRow_end] at i8
    have hlen : t.rows.length < t1.rows.length := by rw [i7]; simp
    have hwr := hw r (by simp)
    obtain ⟨e2, e3, e4, e5, e6⟩ := plainCells_spec t.rows.length r 0 i1 hlen (by rw [i3]; omega)
    have hab : abs (plainCells t.rows.length 0 r t1) = ⟨(abs t).names, (abs t).cells ++ [r]⟩ := by
      rw [e6, i8]
      dsimp only
      rw [← abs_nrows, modify_last]
      congr 3
      rw [List.drop_of_length_le (by rw [List.length_map, abs_ncols]; omega)]
      simp
    obtain ⟨t', f1, f2, f3, f4⟩ := plainRows_spec rows e2 (fun x hx => by
      rw [e5, i3]; exact hw x (List.mem_cons_of_mem _ hx)) (by rw [e4]; omega)
    refine ⟨t', ?_, f2, f3.trans (e3.trans i2), ?_⟩
    · rw [plainRows, e, Option.bind_some]
      exact f1
    · rw [f4, hab]
      simp

end Verif.TableCsv
